import Verif.Props.Disclosure
import Verif.Tests.Scenarios

/-! # C78: cases -/

namespace Verif
namespace Sim

/-- After eight subframes the key of 36210 is public; then somebody sends other words for the subframe 36150, and the MACK of 36180 once
more with tags for them, made with the public key, and the one of 36210. -/
def lateForgery : List Call :=
  navCalls 1 0x77 36150 ++ subframe (chain 1) 1 2 36180 1 0x77 hdr1 3 6 kroot11 ++ subframe (chain 1) 1 2 36210 1 0x77 hdr1 3 7 kroot11

/-- The receiver still gives the genuine data. -/
theorem forgery_outcome : outcome withKey (nominal 8 ++ lateForgery) =
    some ([[0, 82, 1, 1, 36210], [3, 1, 36210]], some (40, 36210), some (40, 36210)) := by decide +kernel

/-- The hypotheses of `C78_nothing_after_disclosure` are met by that history. -/
theorem forgery_case : ∃ (log₁ log₂ l₁ l₂ : List (KeyEvent toy)) (o₁ o : Osnma toy) (k : Verif.Key),
    Logs S withKey (nominal 8) log₁ o₁ ∧ Logs S o₁ lateForgery log₂ o ∧ log₁ = l₁ ++ .tesla k :: l₂ ∧
    (∀ e ∈ l₂ ++ log₂, ¬ e.Drops k.chain.id) ∧ k.chain.id = 1 ∧ k.gst.tow = 36210 ∧
    ∀ kd, ∃ d, o.get S kd (sv 1) = .ok (some d) ∧ d.authbits = 40 := by
  obtain ⟨log₁, o₁, h1, c1, _, _⟩ := outcome_some nominal8
  obtain ⟨log, o, h, hc, g1, g2⟩ := outcome_some forgery_outcome
  obtain ⟨lp, op, log₂, s1, s2, rfl⟩ := h.split
  obtain ⟨rfl, rfl⟩ := h1.unique s1
  have hl : log₂ = [] := by
    have := congrArg List.length hc
    have e := congrArg List.length c1
    simp only [List.length_map, List.length_append, List.length_cons, List.length_nil] at this e
    exact List.length_eq_zero_iff.1 (by omega)
  subst hl
  obtain ⟨e1, t, rfl, _, ht⟩ := List.map_eq_cons_iff.1 c1
  obtain ⟨e2, t2, rfl, h3, ht2⟩ := List.map_eq_cons_iff.1 ht
  obtain ⟨k, rfl, p1, p2⟩ := code_tesla h3
  obtain rfl : t2 = [] := List.map_eq_nil_iff.1 ht2
  refine ⟨_, [], [e1], [], _, o, k, h1, s2, rfl, by simp, p1, p2, ?_⟩
  intro kd
  cases kd
  · obtain ⟨d, q1, q2, _⟩ := got_some g1; exact ⟨d, q1, q2⟩
  · obtain ⟨d, q1, q2, _⟩ := got_some g2; exact ⟨d, q1, q2⟩

end Sim

/-- So the data that the receiver gives after the forgery, whose tag is with the key of 36210 or an earlier one, was received before. -/
example : ∃ (d : NavMessageData) (k : Key), d.authbits = 40 ∧ k.gst.tow = 36210 ∧ ∃ us : List (Nat × TagUse), us ≠ [] ∧
    (∀ p ∈ us, p.2.key.chain.id = 1 → p.2.key.gst.abs ≤ k.gst.abs →
      ReceivedData (inavsOf (Sim.nominal 8)) .ced (Sim.sv 1) d.data) := by
  obtain ⟨log₁, log₂, l₁, l₂, o₁, o, k, h1, h2, h3, h4, h5, h6, h7⟩ := Sim.forgery_case
  obtain ⟨d, hd, hb⟩ := h7 .ced
  obtain ⟨us, a0, a1, a2, a3⟩ := C78_nothing_after_disclosure (root0 := none) (slow := false) Sim.S_consistent
    (.inr ⟨Sim.pub 1, false, rfl⟩) h1 h2 h3 h4 .ced hd
  refine ⟨d, k, hb, h6, us, ?_, ?_⟩
  · rintro rfl
    simp at a2
    omega
  · intro p hp hid hle
    exact ((a3 p hp).2.2 (hid.trans h5.symm) hle).2.2

/-- The hypotheses of `C78_in_time` and `C78_before_key_is_sent` are met by thirteen nominal subframes. -/
example : ∃ o : Osnma Sim.toy, run Sim.S Sim.withKey (Sim.nominal 13) = .ok o ∧ CallsInOrder (Sim.nominal 13) ∧
    ∀ kd, ∃ d, o.get Sim.S kd (Sim.sv 1) = .ok (some d) ∧ 120 ≤ d.authbits := by
  obtain ⟨log, o, h, _, g1, g2⟩ := Sim.outcome_some Sim.nominal13
  refine ⟨o, h.run, ?_, ?_⟩
  · unfold CallsInOrder
    decide +kernel
  · intro kd
    cases kd
    · obtain ⟨d, q1, q2, _⟩ := Sim.got_some g1; exact ⟨d, q1, by omega⟩
    · obtain ⟨d, q1, q2, _⟩ := Sim.got_some g2; exact ⟨d, q1, by omega⟩

end Verif
