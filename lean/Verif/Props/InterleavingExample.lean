import Verif.Props.Interleaving
import Verif.Tests.Scenarios

/-! # C79: cases -/

namespace Verif

instance : ∀ c c' : Call, Decidable (c.Independent c')
  | .inav w s g _, .inav w' s' g' _ => inferInstanceAs (Decidable ((s ≠ s' ∨ wordType w ≠ wordType w') ∧ g.subframe = g'.subframe))
  | .osnma _ s g, .osnma _ s' g' =>
    inferInstanceAs (Decidable (s ≠ s' ∧ g.subframe = g'.subframe ∧ ¬ (28 ≤ g.tow % 30 ∧ 28 ≤ g'.tow % 30)))
  | .inav _ _ _ _, .osnma _ _ g => inferInstanceAs (Decidable (¬ 28 ≤ g.tow % 30))
  | .osnma _ _ g, .inav _ _ _ _ => inferInstanceAs (Decidable (¬ 28 ≤ g.tow % 30))

namespace Sim

/-- The words of satellite 1, those of satellite 2 and the pages of satellite 1 except the last one, in the subframe 36180. -/
def words1 : List Call := navCalls 1 0x35 36180
def words2 : List Call := navCalls 2 0x35 36180
def pages1 : List Call := (subframe (chain 1) 1 2 36180 1 0x35 hdr1 3 6 kroot11).take 14

/-- The rest. -/
def lastPage1 : List Call := (subframe (chain 1) 1 2 36180 1 0x35 hdr1 3 6 kroot11).drop 14
def next1 : List Call := navCalls 1 0x35 36210 ++ subframe (chain 1) 1 2 36210 1 0x35 hdr1 3 7 kroot11

/-- Two interleavings. -/
def oneOrder : List Call := nominal 6 ++ (words1 ++ (words2 ++ pages1)) ++ (lastPage1 ++ next1)
def otherOrder : List Call := nominal 6 ++ ((pages1 ++ words2) ++ words1) ++ (lastPage1 ++ next1)

theorem words_pages : ∀ x ∈ words1, ∀ y ∈ words2 ++ pages1, x.Independent y := by decide +kernel
theorem words2_pages : ∀ x ∈ words2, ∀ y ∈ pages1, x.Independent y := by decide +kernel

theorem interleaved : Interleaved oneOrder otherOrder := by
  have h1 := InterleavedBy.blocks (R := Call.Independent) (nominal 6) (lastPage1 ++ next1) words_pages
  have h2 := InterleavedBy.blocks (R := Call.Independent) (nominal 6) (words1 ++ (lastPage1 ++ next1)) words2_pages
  refine InterleavedBy.trans h1 ?_
  have e1 : nominal 6 ++ (words2 ++ pages1) ++ (words1 ++ (lastPage1 ++ next1)) =
      nominal 6 ++ (words2 ++ pages1 ++ words1) ++ (lastPage1 ++ next1) := by simp only [List.append_assoc]
  have e2 : nominal 6 ++ (pages1 ++ words2) ++ (words1 ++ (lastPage1 ++ next1)) = otherOrder := by
    unfold otherOrder; simp only [List.append_assoc]
  rw [e1, e2] at h2
  exact h2

/-- The words of satellite 1 in another order. -/
def words1' : List Call := words1.drop 3 ++ words1.take 3

theorem words_words : ∀ x ∈ words1.take 3, ∀ y ∈ words1.drop 3, x.Independent y := by decide +kernel

theorem words_reordered (a b : List Call) : words1 ≠ words1' ∧ Interleaved (a ++ words1 ++ b) (a ++ words1' ++ b) := by
  refine ⟨by decide +kernel, ?_⟩
  have := InterleavedBy.blocks (R := Call.Independent) a b words_words
  rw [List.take_append_drop] at this
  exact this

theorem one_order : outcome withKey oneOrder =
    some ([[0, 82, 1, 1, 36210], [3, 1, 36210]], some (40, 36210), some (40, 36210)) := by decide +kernel

theorem other_order : outcome withKey otherOrder =
    some ([[0, 82, 1, 1, 36210], [3, 1, 36210]], some (40, 36210), some (40, 36210)) := by decide +kernel

theorem one_pages : (pagesOf oneOrder).Pairwise (fun a b => a.sub.abs ≤ b.sub.abs) := by decide +kernel
theorem one_words : (inavsOf oneOrder).Pairwise (fun a b => a.gst.subframe.abs ≤ b.gst.subframe.abs) := by decide +kernel
theorem one_sats : ∀ c ∈ inavsOf oneOrder, c.svn ∈ [sv 1, sv 2] := by decide +kernel

end Sim

/-- The hypotheses of `C79_same_result` are met: the words of two satellites and the pages of a subframe in two different orders, and
data is authenticated with both. -/
example : ∃ (log log' : List (KeyEvent Sim.toy)) (o o' : Osnma Sim.toy), Logs Sim.S Sim.withKey Sim.oneOrder log o ∧
    Logs Sim.S Sim.withKey Sim.otherOrder log' o' ∧ Sim.oneOrder ≠ Sim.otherOrder ∧ Interleaved Sim.oneOrder Sim.otherOrder ∧
    (pagesOf Sim.oneOrder).Pairwise (fun a b => a.sub.abs ≤ b.sub.abs) ∧ Chronological (inavsOf Sim.oneOrder) ∧
    Fits Sim.S (inavsOf Sim.oneOrder) ∧ ∃ d, o.get Sim.S .ced (Sim.sv 1) = .ok (some d) ∧ d.authbits = 40 := by
  obtain ⟨log, o, h, _, g, _⟩ := Sim.outcome_some Sim.one_order
  obtain ⟨log', o', h', _⟩ := Sim.outcome_some Sim.other_order
  obtain ⟨d, q1, q2, _⟩ := Sim.got_some g
  refine ⟨log, log', o, o', h, h', by decide +kernel, Sim.interleaved, Sim.one_pages, ?_, ⟨[Sim.sv 1, Sim.sv 2], by decide, Sim.one_sats⟩,
    d, q1, q2⟩
  intro i a b ha hb
  obtain ⟨hi, rfl⟩ := List.getElem?_eq_some_iff.1 ha
  obtain ⟨hj, rfl⟩ := List.getElem?_eq_some_iff.1 hb
  exact List.pairwise_iff_getElem.1 Sim.one_words i (i + 1) hi hj (Nat.lt_succ_self i)

/-- The words of one satellite, in another order. -/
example : Sim.words1 ≠ Sim.words1' ∧ Interleaved (Sim.nominal 6 ++ Sim.words1 ++ (Sim.pages1 ++ Sim.lastPage1 ++ Sim.next1))
    (Sim.nominal 6 ++ Sim.words1' ++ (Sim.pages1 ++ Sim.lastPage1 ++ Sim.next1)) := Sim.words_reordered _ _

/-- Those of `C79_same_state` too, with the pages before or after the words. -/
example : PagesInterleaved (Sim.nominal 6 ++ (Sim.words1 ++ Sim.pages1) ++ Sim.lastPage1) (Sim.nominal 6 ++ (Sim.pages1 ++ Sim.words1) ++ Sim.lastPage1) := by
  refine InterleavedBy.blocks _ _ ?_
  have h : ∀ x ∈ Sim.words1, ∀ y ∈ Sim.pages1, x.Independent y := by decide +kernel
  have hw : ∀ y ∈ Sim.pages1, ¬ y.IsWord := by
    have : ∀ y ∈ Sim.pages1, (match y with | .inav _ _ _ _ => false | .osnma _ _ _ => true) = true := by decide +kernel
    intro y hy hc
    have := this y hy
    cases y with
    | inav => cases this
    | osnma => exact hc
  exact fun x hx y hy => ⟨h x hx y hy, fun hc => hw y hy hc.2⟩

end Verif
