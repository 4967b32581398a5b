import Verif.Props.AuthBits
import Verif.Tests.Scenarios

/-! # C11–C17, C41, C53: concrete cases, and the counterexample for C15

The hypotheses of the theorems of `Props/NavData` and `Props/AuthBits` are met by the nominal scenario: eight
subframes of satellite 1 with navigation data, after which its data is authenticated. -/

namespace Verif.Sim
open Verif

theorem withKey_fresh : withKey.Fresh S := .inr ⟨pub 1, false, rfl⟩

/-- The store after the nominal scenario. -/
theorem nominal8_store : check withKey (nominal 8) (fun _ o => decide (
    (o.stored S).map (fun s => s.gst.tow) = [36210, 36180, 36150, 36120, 36090, 36060, 36030, 36000]) &&
    (o.stored S)[0]?.any (fun s => (s.ced.map (fun x => (x.svn.map (·.val), x.authbits)) == [(none, 0), (some 1, 40)]) &&
      s.ced.any (fun x => x.svn == some (sv 1) && x.data.take 549 == NavKind.ced.expected (inavsOf (nominal 8)) (sv 1)))) = true := by
  decide +kernel

/-- One word of type 0, which carries no CED, fed five minutes after the nominal scenario. -/
def afterGap : List Call := nominal 8 ++ [.inav (word 0 0x35) (sv 1) (gst 36510) .E1B]

theorem afterGap_got : check withKey afterGap (fun _ o => decide (got S o .ced 1 = some (40, 36480))) = true := by decide +kernel

theorem nominal8_contiguous : Contiguous (inavsOf (nominal 8)) := by
  have : ∀ i, i < (inavsOf (nominal 8)).length → i + 1 < (inavsOf (nominal 8)).length →
      ((inavsOf (nominal 8))[i + 1]?.map (fun b => b.gst.subframe.abs) = (inavsOf (nominal 8))[i]?.map (fun a => a.gst.subframe.abs) ∨
       (inavsOf (nominal 8))[i + 1]?.map (fun b => b.gst.subframe.abs) = (inavsOf (nominal 8))[i]?.map (fun a => a.gst.subframe.abs + 30)) := by
    decide +kernel
  intro i a b ha hb
  have := this i (List.getElem?_eq_some_iff.1 ha).1 (List.getElem?_eq_some_iff.1 hb).1
  rw [ha, hb] at this
  simpa using this

theorem nominal8_fits : Fits S (inavsOf (nominal 8)) := ⟨[sv 1], by decide, by decide +kernel⟩

/-- **C11–C16, C53**: a run with data returned by the getter, contiguous, with room for the satellites. -/
example : ∃ o d s x, run S withKey (nominal 8) = .ok o ∧ o.get S .ced (sv 1) = .ok (some d) ∧ (o.stored S)[0]? = some s ∧
    x ∈ s.items .ced ∧ x.svn = some (sv 1) ∧ x.authbits = 40 ∧ x.maxAge < 255 ∧ d.gst.tow = 36210 := by
  have hx : check withKey (nominal 8) (fun _ o => (got S o .ced 1 == some (40, 36210)) &&
    (o.stored S)[0]?.any (fun s => s.ced.any (fun x => x.svn == some (sv 1) && x.authbits == 40 && decide (x.maxAge < 255)))) = true := by
    decide +kernel
  obtain ⟨log, o, hl, hb⟩ := check_some hx
  rw [Bool.and_eq_true] at hb
  obtain ⟨d, h1, h2, h3⟩ := got_some (beq_iff_eq.1 hb.1)
  obtain ⟨s, hs, hb⟩ := (Option.any_eq_true _ _).1 hb.2
  obtain ⟨x, hx, hb⟩ := List.any_eq_true.1 hb
  simp only [Bool.and_eq_true, beq_iff_eq, decide_eq_true_eq] at hb
  exact ⟨o, d, s, x, hl.run, h1, hs, hx, hb.1.1, hb.1.2, hb.2, h3⟩

/-- **C13**: a word that changes authenticated data. The authentication bits of the changed data are zero; the getter returns the
old data of the subframe before. -/
example : check withKey (nominal 8 ++ [.inav (word 1 0x36) (sv 1) (gst 36240) .E1B]) (fun _ o =>
    (got S o .ced 1 == some (40, 36210)) &&
    (o.stored S)[0]?.any (fun s => s.gst.tow == 36240 && s.ced.any (fun x => x.svn == some (sv 1) && x.authbits == 0)) &&
    (o.stored S)[1]?.any (fun s => s.gst.tow == 36210 && s.ced.any (fun x => x.svn == some (sv 1) && x.authbits == 40))) = true := by
  decide +kernel

/-- **C17, C41**: the last call of the nominal scenario adds 40 authentication bits to CED and timing parameters. -/
example : check withKey ((nominal 8).take 175) (fun _ o => (got S o .ced 1 == none) && (got S o .timing 1 == none)) = true := by
  decide +kernel

/-- A MACK all of whose tags are dummy tags. -/
def dummyMack : MackMessage := fix 60 (packBytes (mackBits (chain 1) 1 2 36210 1 0x35 0))

/-- **C19**: the hypotheses are met by a MACK whose tags verify. -/
example : (∀ t ∈ mackTags dummyMack (chain 1) (sv 1), t.cop = 0) ∧ (key (chain 1) 36240).MacUsable ∧ (gst 36210).Aligned ∧
    ∃ t ∈ mackTags dummyMack (chain 1) (sv 1), t.Verifies toy (key (chain 1) 36240) (sv 1) (gst 36210) .Test (navData .ced 1 0x35) :=
  ⟨by decide +kernel, fun _ => rfl, by decide +kernel, by unfold TagSpec.Verifies; decide +kernel⟩

end Verif.Sim

namespace Verif
open Sim

/-- **C15 is false with gaps.** After a gap in the reception, the reported GST is a subframe in which nothing was
received: the last words of the CED were received in the subframe 36210 and the reported time is 36480. -/
theorem C15_gap_counterexample : ∃ (hist : List Call) (o : Osnma toy) (d : NavMessageData) (c : InavCall),
    run Sim.S withKey hist = .ok o ∧ Chronological (inavsOf hist) ∧ Fits Sim.S (inavsOf hist) ∧
    o.get Sim.S .ced (sv 1) = .ok (some d) ∧ NavKind.ced.latestAny (inavsOf hist) (sv 1) = some c ∧
    c.gst.subframe.tow = 36210 ∧ d.gst.tow = 36480 ∧ ∀ e ∈ inavsOf hist, e.gst.subframe ≠ d.gst := by
  obtain ⟨log, o, hl, hg⟩ := check_some afterGap_got
  obtain ⟨d, h1, h2, h3⟩ := got_some (of_decide_eq_true hg)
  have hc : ((inavsOf afterGap).map (fun c => c.gst.subframe.abs)).Pairwise (· ≤ ·) := by decide +kernel
  have hlat : (NavKind.ced.latestAny (inavsOf afterGap) (sv 1)).map (fun c => c.gst.subframe.tow) = some 36210 := by decide +kernel
  obtain ⟨c, hc1, hc2⟩ := Option.map_eq_some_iff.1 hlat
  refine ⟨afterGap, o, d, c, hl.run, ?_, ⟨[sv 1], by decide, by decide +kernel⟩, h1, hc1, hc2, h3, ?_⟩
  · intro i a b ha hb
    obtain ⟨hi, rfl⟩ := List.getElem?_eq_some_iff.1 ha
    obtain ⟨hj, rfl⟩ := List.getElem?_eq_some_iff.1 hb
    exact List.pairwise_iff_getElem.1 (List.pairwise_map.1 hc) i (i + 1) hi hj (Nat.lt_succ_self i)
  · intro e he heq
    have : ∀ e ∈ inavsOf afterGap, e.gst.subframe.tow ≠ 36480 := by decide +kernel
    exact this e he (by rw [heq, h3])

end Verif
