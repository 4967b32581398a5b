import Verif.Props.ColdStartExample
import Verif.Props.SamePanics
import Verif.Props.InterleavingExample
import Verif.Props.StorageSizeExample

/-! # C62, C79, C81: cases in which nothing panics -/

namespace Verif
namespace Sim

/-- The chains of the verified DSM-KROOTs. -/
def chainsIn : List (KeyEvent toy) → List Chain
  | [] => []
  | .kroot _ _ _ k _ :: l => k.chain :: chainsIn l
  | _ :: l => chainsIn l

theorem mem_chainsIn {log : List (KeyEvent toy)} {h : NmaHeader} {data : List Byte} {pk : PublicKey toy} {k : Verif.Key} {g : Gst}
    (hm : KeyEvent.kroot h data pk k g ∈ log) : k.chain ∈ chainsIn log := by
  induction log with
  | nil => cases hm
  | cons e l ih =>
    rcases List.mem_cons.1 hm with rfl | hm
    · exact List.mem_cons_self
    · have := ih hm
      cases e with
      | kroot => exact List.mem_cons_of_mem _ this
      | _ => exact this

/-- The chains of a run. -/
def runChains (S : Storage) (o : Osnma toy) (hist : List Call) : Option (List Chain) :=
  match runLog S o hist with
  | .ok (l, _) => some (chainsIn l)
  | .panic _ => none

/-- A run in which only the chain of the genuine broadcast was signed is sensible. -/
theorem runChains_some {S : Storage} {o0 o : Osnma toy} {hist : List Call} {log : List (KeyEvent toy)}
    (hc : runChains S o0 hist = some [onAir.root.chain]) (h : Logs S o0 hist log o) : SensibleLog log := by
  unfold runChains at hc
  cases hr : runLog S o0 hist with
  | panic e => rw [hr] at hc; cases hc
  | ok r =>
    obtain ⟨l, o1⟩ := r
    rw [hr] at hc
    dsimp only at hc
    obtain ⟨rfl, rfl⟩ := h.unique (runLog_logs hr)
    have hc := Option.some.inj hc
    intro h data pk k g h' data' pk' k' g' hm hm'
    have a := mem_chainsIn hm
    have b := mem_chainsIn hm'
    rw [hc, List.mem_singleton] at a b
    rw [a, b]
    exact onAir_sound.sensible

theorem one_chains : runChains Sim.S withKey oneOrder = some [onAir.root.chain] := by decide +kernel
theorem one_times : (∀ p ∈ pagesOf oneOrder, 360 ≤ p.sub.abs) ∧ ∀ c ∈ inavsOf oneOrder, 7650 ≤ c.gst.abs := by decide +kernel
theorem noSlow_chains : runChains small (Osnma.new small none (some (pub 1)) false) noSlow = some [onAir.root.chain] := by decide +kernel
theorem noSlow_times : (∀ p ∈ pagesOf noSlow, 360 ≤ p.sub.abs) ∧ ∀ c ∈ inavsOf noSlow, 7650 ≤ c.gst.abs := by decide +kernel

end Sim

open Sim

/-- The hypotheses of `C79_same_answers` (and so of `C79_same_panics`) are met, and data is authenticated. -/
example : ∃ (log : List (KeyEvent toy)) (o o' : Osnma toy) (d : NavMessageData), Logs Sim.S withKey oneOrder log o ∧
    Logs Sim.S withKey otherOrder log o' ∧ SensibleLog log ∧ o.get Sim.S .ced (sv 1) = .ok (some d) ∧ o'.get Sim.S .ced (sv 1) = .ok (some d) := by
  obtain ⟨log, o, h, _, g, _⟩ := outcome_some one_order
  obtain ⟨d, q1, q2, _⟩ := got_some g
  have hs := runChains_some one_chains h
  have hch : Chronological (inavsOf oneOrder) := by
    intro i a b ha hb
    obtain ⟨hi, rfl⟩ := List.getElem?_eq_some_iff.1 ha
    obtain ⟨hj, rfl⟩ := List.getElem?_eq_some_iff.1 hb
    exact List.pairwise_iff_getElem.1 one_words i (i + 1) hi hj (Nat.lt_succ_self i)
  obtain ⟨o', h', hr⟩ := C79_same_answers S_consistent (root0 := none) (pk0 := some (pub 1)) (slow := false) (.inr ⟨pub 1, false, rfl⟩) h interleaved hs one_times.1 one_times.2
    one_pages hch ⟨[sv 1, sv 2], by decide, one_sats⟩
  obtain ⟨res, r1, r2⟩ := hr .ced (sv 1)
  rw [q1] at r1
  cases r1
  exact ⟨log, o, o', d, h, h', hs, q1, r2⟩

/-- Those of `C81_larger_receiver` and of `C62_same_panics` too: a receiver with a small storage, and one with a larger one. -/
example : ∃ (log : List (KeyEvent toy)) (o o' : Osnma toy) (d : NavMessageData), Logs small (Osnma.new small none (some (pub 1)) false) noSlow log o ∧
    Logs Sim.S (Osnma.new Sim.S none (some (pub 1)) false) noSlow log o' ∧ o.get small .ced (sv 1) = .ok (some d) ∧
    o'.get Sim.S .ced (sv 1) = .ok (some d) := by
  obtain ⟨log, o, h, g, hn⟩ := reportSmall_some small_reports
  obtain ⟨d, hd, _⟩ := got_some g
  have hf := fits_of_sats (S := small) (by decide) noSlow_sats
  obtain ⟨o', h', hr⟩ := C81_larger_receiver (S := small) ⟨by decide, by decide, by decide, by decide, by decide⟩ S_consistent
    ⟨by decide, by decide, by decide⟩ (.inr ⟨pub 1, false, rfl⟩) (.inr ⟨pub 1, false, rfl⟩) h noSlow_ordered hf.1 hf.2
    (.inr ⟨by decide, by decide, hn⟩) (runChains_some noSlow_chains h) noSlow_times.1 noSlow_times.2
  obtain ⟨res, res', r1, r2, r3⟩ := hr .ced (sv 1)
  rw [hd] at r1
  cases r1
  rcases r3 with rfl | ⟨e, _⟩
  · exact ⟨log, o, o', d, h, h', hd, r2⟩
  · cases e

end Verif
