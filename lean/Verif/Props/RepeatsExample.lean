import Verif.Props.Repeats
import Verif.Tests.Scenarios

/-! # Two stations (C73), evaluated by the kernel -/

namespace Verif.Sim
open Verif

/-- The second station hears all pages wrong. -/
def garbled : Call → Call
  | .inav w s g b => .inav w s g b
  | .osnma _ s g => .osnma (fix 5 (List.replicate 5 0xFF#8)) s g

/-- The calls of the subframe number `i` of the nominal scenario. -/
def nominalAt (i : Nat) : List Call :=
  Sim.navCalls 1 0x35 (36000 + 30 * i) ++ subframe (chain 1) 1 2 (36000 + 30 * i) 1 0x35 hdr1 3 (i % 8) kroot11

/-- The nominal scenario heard by two stations: the data of the second arrives at the end of each subframe. -/
def twoStations (n : Nat) : List Call := (List.range n).flatMap (fun i => nominalAt i ++ (nominalAt i).map garbled)

theorem twoStations_once : onceEach (twoStations 8) = nominal 8 := by decide +kernel

theorem chronological_of {p : List InavCall} (h : (p.map (fun c => c.gst.subframe.abs)).Pairwise (· ≤ ·)) : Chronological p := by
  intro i a b ha hb
  obtain ⟨hi, rfl⟩ := List.getElem?_eq_some_iff.1 ha
  obtain ⟨hj, rfl⟩ := List.getElem?_eq_some_iff.1 hb
  exact List.pairwise_iff_getElem.1 (List.pairwise_map.1 h) i (i + 1) hi hj (Nat.lt_succ_self i)

theorem steady_of {p : List InavCall} (t : Nat → InavWord) (h : ∀ a ∈ p, a.word = t a.type) : SteadyWords p := by
  intro a ha b hb _ _ kd f _ ca cb
  have h1 : a.type = f.ty := by unfold NavKind.carries at ca; simp at ca; exact ca.1
  have h2 : b.type = f.ty := by unfold NavKind.carries at cb; simp at cb; exact cb.1
  unfold NavField.bits
  rw [h a ha, h b hb, h1, h2]

theorem twoStations_heard : HeardBySeveral (twoStations 8) where
  words := chronological_of (by decide +kernel)
  pages := by
    have : ((pagesOf (twoStations 8)).map (fun p => p.sub.abs)).Pairwise (· ≤ ·) := by decide +kernel
    exact List.pairwise_map.1 this
  firsts := by rw [twoStations_once]; decide +kernel
  steady := steady_of (fun ty => word ty 0x35) (by decide +kernel)

theorem twoStations_fits : Fits S (inavsOf (twoStations 8)) :=
  ⟨[sv 1], by decide, by decide +kernel⟩

/-- C73 on two stations, one of which hears all pages wrong: the data is authenticated as with one. -/
example : run S withKey (twoStations 8) = run S withKey (nominal 8) := by
  have h := C73_repeats (S := S) (C := toy) (o0 := withKey) S_consistent (.inr ⟨_, _, rfl⟩) twoStations_heard (.of_fits twoStations_fits)
  rwa [twoStations_once] at h

/-- The last subframe of the nominal scenario with pages 0 and 1 swapped, and then page 1 again. -/
def swapped : List Call :=
  nominal 7 ++ (nominalAt 7).take 7 ++ ((nominalAt 7).drop 8).take 1 ++ ((nominalAt 7).drop 7).take 1 ++ (nominalAt 7).drop 8

/-- The answer of the getter of CED for satellite 1. -/
def answer (hist : List Call) : Option (Option (Nat × Nat)) :=
  match run S withKey hist with
  | .ok o => some (got S o .ced 1)
  | .panic _ => none

/-- That the first copies come in order is needed: with pages 0 and 1 swapped, page 1 heard again completes the subframe, and the data
is authenticated; without it, it is not. -/
theorem C73_out_of_order_counterexample : answer swapped = some (some (40, 36210)) ∧ answer (onceEach swapped) = some none := by
  decide +kernel

end Verif.Sim
