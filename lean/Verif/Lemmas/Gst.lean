import Verif.Spec.Time

/-! # Lemmas on `Gst` -/

namespace Verif
namespace Gst

theorem ofParts_eq_ok {wn tow : Int} {g : Gst} :
    ofParts wn tow = .ok g ↔ (g.wn : Int) = wn ∧ (g.tow : Int) = tow := by
  unfold ofParts
  have := g.hwn; have := g.htow
  split
  · rename_i h
    simp only [Res.ok.injEq]
    constructor
    · rintro rfl; simp; omega
    · rintro ⟨h1, h2⟩
      obtain ⟨w, t, hw, ht⟩ := g
      simp only at h1 h2
      simp only [Gst.mk.injEq]; omega
  · rename_i h
    simp only [reduceCtorEq, false_iff]
    rintro ⟨h1, h2⟩
    apply h; omega

/-- Exact behaviour of `add_seconds` on `i32` arguments. -/
theorem addSeconds_eq_ok {g g' : Gst} {s : Int} (hs : s ≤ 2147483647) :
    g.addSeconds s = .ok g' ↔ -604800 < s ∧ g'.abs = g.abs + s := by
  have h1 := g.hwn; have h2 := g.htow
  have h3 := g'.hwn; have h4 := g'.htow
  unfold addSeconds
  have hw : s.tdiv 604800 = if 0 ≤ s then s / 604800 else -((-s) / 604800) := by
    split
    · exact Int.tdiv_eq_ediv_of_nonneg (by omega)
    · have : s = -(-s) := by omega
      rw [this, Int.neg_tdiv, Int.tdiv_eq_ediv_of_nonneg (by omega)]; simp
  simp only [hw, abs]
  by_cases hp : 0 ≤ s
  · simp only [hp, if_true]
    split
    · split
      · split
        · rw [ofParts_eq_ok]; omega
        · split
          · rw [ofParts_eq_ok]; omega
          · rw [ofParts_eq_ok]; omega
      · simp only [reduceCtorEq, false_iff]; omega
    · simp only [reduceCtorEq, false_iff]; omega
  · simp only [hp, if_false]
    split
    · split
      · split
        · rw [ofParts_eq_ok]; omega
        · split
          · rw [ofParts_eq_ok]; omega
          · rw [ofParts_eq_ok]; omega
      · simp only [reduceCtorEq, false_iff]; omega
    · simp only [reduceCtorEq, false_iff]; omega

theorem addSeconds_exists {g : Gst} {s : Int} (hs : s ≤ 2147483647) (h : -604800 < s)
    (hr : Representable (g.abs + s)) : ∃ g', g.addSeconds s = .ok g' ∧ g'.abs = g.abs + s := by
  obtain ⟨g', hg⟩ := exists_gst hr
  exact ⟨g', (addSeconds_eq_ok hs).2 ⟨h, hg⟩, hg⟩

theorem i32_eq_ok {x y : Int} : i32 x = .ok y ↔ x = y ∧ -2147483648 ≤ x ∧ x ≤ 2147483647 := by
  unfold i32; split
  · simp_all
  · rename_i h
    simp only [reduceCtorEq, false_iff]
    exact fun h' => h h'.2

theorem addSubframes_eq_ok {g g' : Gst} {n : Int} :
    g.addSubframes n = .ok g' ↔
      -604800 < 30 * n ∧ 30 * n ≤ 2147483647 ∧ g'.abs = g.abs + 30 * n := by
  unfold addSubframes
  rw [Res.bind_eq_ok]
  constructor
  · rintro ⟨s, h1, h2⟩
    rw [i32_eq_ok] at h1
    obtain ⟨rfl, h3, h4⟩ := h1
    rw [addSeconds_eq_ok h4] at h2
    omega
  · rintro ⟨h1, h2, h3⟩
    refine ⟨n * 30, ?_, ?_⟩
    · rw [i32_eq_ok]; omega
    · rw [addSeconds_eq_ok (by omega)]; omega

theorem aligned_of_abs {a b : Gst} {n : Int} (h : b.abs = a.abs + 30 * n) :
    b.Aligned ↔ a.Aligned := by
  simp only [Aligned, h]; omega

theorem subframe_abs (g : Gst) : g.subframe.abs = g.abs / 30 * 30 := by
  simp only [subframe, abs]; omega

theorem subframe_aligned (g : Gst) : g.subframe.Aligned := by
  simp only [Aligned, subframe_abs]; omega

theorem subframe_eq_self {g : Gst} (h : g.Aligned) : g.subframe = g := by
  apply abs_inj; rw [subframe_abs]; simp only [Aligned] at h; omega

theorem cmp_eq (a b : Gst) : cmp a b = compare a.abs b.abs := by
  have ha := a.htow; have hb := b.htow
  have key : ∀ x y : Int, compare x y = if x < y then .lt else if x = y then .eq else .gt := by
    intro x y; rfl
  have keyN : ∀ x y : Nat, compare x y = if x < y then .lt else if x = y then .eq else .gt := by
    intro x y; rfl
  simp only [cmp, key, keyN, abs]
  rcases Nat.lt_trichotomy a.wn b.wn with h | h | h
  · rw [if_pos h]
    simp only
    rw [if_pos (by omega)]
  · rw [if_neg (by omega), if_pos h]
    simp only
    rcases Nat.lt_trichotomy a.tow b.tow with h' | h' | h'
    · rw [if_pos h', if_pos (by omega)]
    · rw [if_neg (by omega), if_pos h', if_neg (by omega), if_pos (by omega)]
    · rw [if_neg (by omega), if_neg (by omega), if_neg (by omega), if_neg (by omega)]
  · rw [if_neg (by omega), if_neg (by omega)]
    simp only
    rw [if_neg (by omega), if_neg (by omega)]

theorem cmp_lt {a b : Gst} : cmp a b = .lt ↔ a.abs < b.abs := by
  rw [cmp_eq]; exact Int.compare_eq_lt

theorem cmp_gt {a b : Gst} : cmp a b = .gt ↔ b.abs < a.abs := by
  rw [cmp_eq]; exact Int.compare_eq_gt

theorem cmp_eq_eq {a b : Gst} : cmp a b = .eq ↔ a = b := by
  rw [cmp_eq, Int.compare_eq_eq]
  exact ⟨abs_inj, fun h => by rw [h]⟩

/-- The difference is never an overflow. -/
theorem subframesDifference_ok (a b : Gst) :
    a.subframesDifference b
      = .ok (((a.wn : Int) - b.wn) * 20160 + ((a.tow : Int) - b.tow).tdiv 30) := by
  have h1 := a.hwn; have h2 := b.hwn; have h3 := a.htow; have h4 := b.htow
  have ht : -604800 ≤ ((a.tow : Int) - b.tow).tdiv 30 ∧ ((a.tow : Int) - b.tow).tdiv 30 ≤ 604800 := by
    have := Int.mul_tdiv_add_tmod ((a.tow : Int) - b.tow) 30
    have h5 := Int.tmod_lt_of_pos ((a.tow : Int) - b.tow) (b := 30) (by omega)
    have h6 := Int.lt_tmod_of_pos ((a.tow : Int) - b.tow) (b := 30) (by omega)
    omega
  unfold subframesDifference
  have e : ∀ x : Int, -2147483648 ≤ x → x ≤ 2147483647 → i32 x = .ok x := by
    intro x hx hy; simp [i32, hx, hy]
  rw [e _ (by omega) (by omega)]; simp only [Res.ok_bind]
  rw [e _ (by omega) (by omega)]; simp only [Res.ok_bind]
  rw [e _ (by omega) (by omega)]; simp only [Res.ok_bind]
  rw [e _ (by omega) (by omega)]

theorem subframesDifference_aligned {a b : Gst} (ha : a.Aligned) (hb : b.Aligned) :
    a.subframesDifference b = .ok ((a.abs - b.abs) / 30) := by
  rw [subframesDifference_ok]
  rw [aligned_iff] at ha hb
  congr 1
  have : ((a.tow : Int) - b.tow) = 30 * ((a.tow / 30 : Nat) - (b.tow / 30 : Nat) : Int) := by omega
  rw [this, Int.mul_tdiv_cancel_left _ (by omega)]
  simp only [abs]; omega

end Gst
end Verif
