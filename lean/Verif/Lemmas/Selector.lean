import Verif.Spec.GalmonSpec
import Verif.Spec.NavSpec
import Verif.Lemmas.Gst
import Verif.Lemmas.OsnmaRun

namespace Verif
open GalileoInav

/-- `Suspect`, in terms of the variable `last_tow_mod_30`. -/
def Selector.LastOk (s : Selector) (seen : List GalileoInav) : Prop :=
  19 ≤ s.last ↔ ∃ q, seen.reverse.find? (fun q => q.secs % 30 ≠ 15) = some q ∧ 19 ≤ q.secs % 30

/-- The variable `current_subframe`. -/
def Selector.CurrentOk (s : Selector) (seen : List GalileoInav) : Prop :=
  match s.current with
  | none => seen = []
  | some c => (∀ q ∈ seen, (q.subframeNo : Int) * 30 ≤ c.abs) ∧ ∃ q ∈ seen, (q.subframeNo : Int) * 30 = c.abs

theorem secs_mod (i : GalileoInav) : i.gnssTow.toNat % 604800 % 30 = i.secs % 30 := by
  unfold secs; omega

/-- The time computed for a packet. -/
theorem packetTime_ok {checks : Bool} {last : Nat} {i : GalileoInav} {g : Gst} {l : Nat}
    (h : packetTime checks last i = .ok (g, l)) :
    l = (if i.secs % 30 = 15 ∧ 19 ≤ last then 29 else i.secs % 30) ∧ (checks = true → i.TimeOk) ∧
      (i.TimeOk → g.abs = if i.secs % 30 = 15 ∧ 19 ≤ last then (i.secs : Int) + 14 else i.secs) := by
  unfold packetTime at h
  simp only [Res.bind_eq_ok] at h
  obtain ⟨w0, h0, w1, h1, w, h2, g', h3, h4⟩ := h
  simp only [Res.pure_eq, Res.ok.injEq, Prod.mk.injEq] at h4
  obtain ⟨rfl, rfl⟩ := h4
  unfold wnOf at h0 h1
  split at h0 <;> cases h0
  split at h1 <;> cases h1
  have hm := secs_mod i
  have hl : i.gnssTow.toNat % 604800 < 604800 := Nat.mod_lt _ (by omega)
  rw [hm] at h3 ⊢
  generalize htw : (if i.secs % 30 = 15 ∧ last ≥ 19 then i.gnssTow.toNat % 604800 + (29 - 15) else i.gnssTow.toNat % 604800) = tw at h3 ⊢
  unfold Gst.new at h3
  split at h3
  · cases h3
    refine ⟨?_, ?_, ?_⟩
    · subst htw
      by_cases hx : i.secs % 30 = 15 ∧ last ≥ 19
      · rw [if_pos hx, if_pos hx]; omega
      · rw [if_neg hx, if_neg hx]; exact hm
    · intro hc
      unfold addU16 at h2
      rw [hc] at h2
      split at h2
      · cases h2
      · rename_i hlt
        simp only [Bool.true_and, decide_eq_true_eq] at hlt
        unfold TimeOk secs
        omega
    · intro ht
      have hw : w.toNat = i.gnssWn.toNat + i.gnssTow.toNat / 604800 := by
        unfold addU16 at h2
        split at h2
        · cases h2
        · cases h2
          rw [BitVec.toNat_ofNat]
          unfold TimeOk secs at ht
          exact Nat.mod_eq_of_lt (by omega)
      have hs : (i.secs : Int) = i.gnssWn.toNat * 604800 + i.gnssTow.toNat := by
        unfold secs; rw [Int.natCast_add, Int.natCast_mul]; rfl
      unfold Gst.abs
      simp only [hw]
      by_cases hx : i.secs % 30 = 15 ∧ last ≥ 19
      · rw [if_pos hx] at htw ⊢; omega
      · rw [if_neg hx] at htw ⊢; omega
  · cases h3

theorem find_snoc {α : Type} (p : α → Bool) (l : List α) (a : α) :
    (l ++ [a]).reverse.find? p = if p a then some a else l.reverse.find? p := by
  rw [List.reverse_append, List.reverse_singleton, List.singleton_append, List.find?_cons]
  cases p a <;> rfl

/-- What `Selector.accept` decides. -/
theorem Selector.accept_ok {checks : Bool} {s s' : Selector} {i : GalileoInav} {r : Option Gst} {seen : List GalileoInav}
    (h : s.accept checks i = .ok (s', r)) (hl : s.LastOk seen) (hc : s.CurrentOk seen) (ht : checks = true ∨ i.TimeOk) :
    s'.LastOk (seen ++ [i]) ∧ s'.CurrentOk (seen ++ [i]) ∧
      (match r with
      | none => ¬ ∀ q ∈ seen, q.subframeNo ≤ i.subframeNo
      | some g => (∀ q ∈ seen, q.subframeNo ≤ i.subframeNo) ∧ g.abs = i.fedSecs seen) := by
  unfold accept at h
  simp only [Res.bind_eq_ok] at h
  obtain ⟨⟨g, l⟩, h1, h2⟩ := h
  obtain ⟨e1, e2, e3⟩ := packetTime_ok h1
  have ht : i.TimeOk := ht.elim e2 id
  have e3 := e3 ht
  have hS : (i.secs % 30 = 15 ∧ 19 ≤ s.last) ↔ i.Suspect seen := by
    exact and_congr_right fun _ => hl
  have hlast : ∀ c, (⟨c, l⟩ : Selector).LastOk (seen ++ [i]) := by
    intro c
    unfold LastOk
    rw [find_snoc]
    subst e1
    show 19 ≤ (if _ then _ else _) ↔ _
    by_cases h15 : i.secs % 30 = 15
    · rw [if_neg (show ¬ decide (i.secs % 30 ≠ 15) = true by simp [h15])]
      refine Iff.trans ?_ hl
      by_cases h19 : 19 ≤ s.last
      · rw [if_pos ⟨h15, h19⟩]; simp [h19]
      · rw [if_neg (fun h => h19 h.2)]; omega
    · rw [if_neg (fun h => h15 h.1), if_pos (show decide (i.secs % 30 ≠ 15) = true by simp [h15])]
      constructor
      · intro h; exact ⟨i, rfl, h⟩
      · rintro ⟨q, hq, h⟩; cases hq; exact h
  have hsub : g.subframe.abs = (i.subframeNo : Int) * 30 := by
    rw [Gst.subframe_abs, e3]
    unfold subframeNo
    split <;> push_cast <;> omega
  have hfed : g.abs = i.fedSecs seen := by
    rw [e3]
    unfold fedSecs
    by_cases hs : i.Suspect seen
    · rw [if_pos hs, if_pos (hS.2 hs)]; rfl
    · rw [if_neg hs, if_neg (fun h => hs (hS.1 h))]
  unfold CurrentOk at hc
  cases hcur : s.current with
  | none =>
    rw [hcur] at h2 hc
    simp only [Res.pure_eq, Res.ok.injEq, Prod.mk.injEq] at h2
    obtain ⟨rfl, rfl⟩ := h2
    simp only at hc
    subst hc
    refine ⟨hlast _, ⟨?_, i, by simp, hsub.symm⟩, by simp, hfed⟩
    intro q hq
    simp only [List.nil_append, List.mem_singleton] at hq
    subst hq; exact Int.le_of_eq hsub.symm
  | some c =>
    rw [hcur] at h2 hc
    simp only at h2 hc
    obtain ⟨hc1, q0, hq0, hc2⟩ := hc
    have hiff : g.subframe.ltb c = true ↔ g.subframe.abs < c.abs := by
      unfold Gst.ltb
      rw [beq_iff_eq, Gst.cmp_lt]
    split at h2
    · rename_i hlt
      rw [hiff] at hlt
      simp only [Res.pure_eq, Res.ok.injEq, Prod.mk.injEq] at h2
      obtain ⟨rfl, rfl⟩ := h2
      refine ⟨hlast _, ⟨?_, q0, by simp [hq0], hc2⟩, ?_⟩
      · intro q hq
        rcases List.mem_append.1 hq with hq | hq
        · exact hc1 q hq
        · simp only [List.mem_singleton] at hq
          subst hq; omega
      · intro hall
        have := hall q0 hq0
        omega
    · rename_i hlt
      rw [hiff] at hlt
      simp only [Res.pure_eq, Res.ok.injEq, Prod.mk.injEq] at h2
      obtain ⟨rfl, rfl⟩ := h2
      refine ⟨hlast _, ⟨?_, i, by simp, hsub.symm⟩, ?_, hfed⟩
      · intro q hq
        rcases List.mem_append.1 hq with hq | hq
        · have := hc1 q hq
          omega
        · simp only [List.mem_singleton] at hq
          subst hq; omega
      · intro q hq
        have := hc1 q hq
        omega

/-- Whatever the overflow checks: the subframe of a packet that is not dropped becomes the current one, and it
is not earlier than the one before. -/
theorem Selector.accept_order {checks : Bool} {s s' : Selector} {i : GalileoInav} {r : Option Gst}
    (h : s.accept checks i = .ok (s', r)) :
    match r with
    | none => s'.current = s.current
    | some g => s'.current = some g.subframe ∧ ∀ c, s.current = some c → c.abs ≤ g.subframe.abs := by
  unfold accept at h
  simp only [Res.bind_eq_ok] at h
  obtain ⟨⟨g, l⟩, h1, h2⟩ := h
  cases hcur : s.current with
  | none =>
    rw [hcur] at h2
    cases h2
    exact ⟨rfl, fun c hc => by cases hc⟩
  | some c =>
    rw [hcur] at h2
    simp only at h2
    split at h2
    · cases h2; rfl
    · rename_i hlt
      cases h2
      refine ⟨rfl, fun c' hc => ?_⟩
      cases hc
      unfold Gst.ltb at hlt
      rw [beq_iff_eq, Gst.cmp_lt] at hlt
      omega

theorem bandOf_eq (sigid : BitVec 32) : bandOf sigid = none ∧ sigid ≠ 1 ∧ sigid ≠ 5 ∨
    bandOf sigid = some .E1B ∧ sigid = 1 ∨ bandOf sigid = some .E5B ∧ sigid = 5 := by
  unfold bandOf
  by_cases h1 : sigid = 1
  · rw [if_pos h1]; exact .inr (.inl ⟨rfl, h1⟩)
  · rw [if_neg h1]
    by_cases h5 : sigid = 5
    · rw [if_pos h5]; exact .inr (.inr ⟨rfl, h5⟩)
    · rw [if_neg h5]; exact .inl ⟨rfl, h1, h5⟩

/-- The word type of a dummy word is 63: its first six bits are ones. -/
theorem firstType_ok {w : List Byte} {t : Nat} (h : firstType w = .ok t) :
    t = 63 ↔ (bitsOf w).take 6 = List.replicate 6 true := by
  unfold firstType at h
  simp only [Res.bind_eq_ok] at h
  obtain ⟨b, hb, h⟩ := h
  cases h
  rw [index_eq_ok] at hb
  cases w with
  | nil => cases hb
  | cons a w =>
    simp only [List.getElem?_cons_zero, Option.some.injEq] at hb
    subst hb
    rw [bitsOf_cons, List.take_append_of_le_length (by simp)]
    exact (by decide +kernel : ∀ b : Byte, b.toNat / 4 = 63 ↔ (byteBits b).take 6 = List.replicate 6 true) _

end Verif
