import Verif.Lemmas.Gst

/-! # C01, C02: system time arithmetic -/

namespace Verif

/-- Range of the Rust type `i32`. -/
def IsI32 (x : Int) : Prop := -2147483648 ≤ x ∧ x ≤ 2147483647

/-- **C01** `add_seconds(s)` returns a time if and only if it is the time exactly `s` seconds later
(and `s > -604800`); there is no other outcome than this and a panic. -/
theorem C01_add_seconds_exact (g g' : Gst) (s : Int) (hs : IsI32 s) :
    g.addSeconds s = .ok g' ↔ -604800 < s ∧ g'.abs = g.abs + s :=
  Gst.addSeconds_eq_ok hs.2

/-- **C01** `add_seconds(s)` returns exactly when `s > -604800` and the result is representable. -/
theorem C01_add_seconds_returns_iff (g : Gst) (s : Int) (hs : IsI32 s) :
    (g.addSeconds s).Returns ↔ -604800 < s ∧ Representable (g.abs + s) := by
  constructor
  · rintro ⟨g', h⟩
    obtain ⟨h1, h2⟩ := (Gst.addSeconds_eq_ok hs.2).1 h
    exact ⟨h1, h2 ▸ g'.abs_representable⟩
  · rintro ⟨h1, h2⟩
    obtain ⟨g', h, _⟩ := Gst.addSeconds_exists hs.2 h1 h2
    exact ⟨g', h⟩

/-- **C01** (finding 1) going back a week or more always panics, even if the result is
representable. -/
theorem C01_add_seconds_week_back_panics (g : Gst) (s : Int) (hs : IsI32 s) (h : s ≤ -604800) :
    (g.addSeconds s).Panics := by
  rw [← Res.not_returns_iff, C01_add_seconds_returns_iff g s hs]; omega

/-- **C01** `add_subframes(n)` returns exactly when `30 n` fits, and then it is exact. -/
theorem C01_add_subframes_exact (g g' : Gst) (n : Int) :
    g.addSubframes n = .ok g' ↔
      -604800 < 30 * n ∧ 30 * n ≤ 2147483647 ∧ g'.abs = g.abs + 30 * n :=
  Gst.addSubframes_eq_ok

/-- **C01** adding and then removing less than a week of subframes is the identity. -/
theorem C01_add_subframes_inverse (g g' : Gst) (n : Int) (hn : 30 * n < 604800)
    (h : g.addSubframes n = .ok g') : g'.addSubframes (-n) = .ok g := by
  rw [Gst.addSubframes_eq_ok] at h ⊢
  omega

/-- Non-vacuity: crossing a week boundary in both directions. -/
example : (⟨1177, 604790, by omega, by omega⟩ : Gst).addSeconds 30
    = .ok ⟨1178, 20, by omega, by omega⟩ := by decide
example : (⟨1178, 20, by omega, by omega⟩ : Gst).addSeconds (-30)
    = .ok ⟨1177, 604790, by omega, by omega⟩ := by decide
example : (⟨1178, 20, by omega, by omega⟩ : Gst).addSeconds (-604800)
    = .panic "u16::try_from(weeks).unwrap()" := by decide
example : (⟨1177, 604790, by omega, by omega⟩ : Gst).addSubframes 20161
    = .ok ⟨1179, 20, by omega, by omega⟩ := by decide

/-- **C02** `gst_subframe()` is the latest subframe start not after the GST. -/
theorem C02_subframe_floor (g : Gst) :
    g.subframe.Aligned ∧ g.subframe.abs ≤ g.abs ∧
      ∀ h : Gst, h.Aligned → h.abs ≤ g.abs → h.abs ≤ g.subframe.abs := by
  refine ⟨g.subframe_aligned, ?_, ?_⟩
  · rw [Gst.subframe_abs]; omega
  · intro h ha hle
    rw [Gst.subframe_abs]
    simp only [Gst.Aligned] at ha
    omega

/-- **C02** `gst_subframe()` is idempotent. -/
theorem C02_subframe_idempotent (g : Gst) : g.subframe.subframe = g.subframe :=
  Gst.subframe_eq_self g.subframe_aligned

/-- **C02** `is_subframe()` holds exactly at the starts of subframes, the fixed points of
`gst_subframe()`. -/
theorem C02_is_subframe_iff (g : Gst) :
    (g.isSubframe = true ↔ g.Aligned) ∧ (g.isSubframe = true ↔ g.subframe = g) := by
  refine ⟨g.isSubframe_iff, ?_⟩
  rw [g.isSubframe_iff]
  exact ⟨Gst.subframe_eq_self, fun h => h ▸ g.subframe_aligned⟩

/-- **C02** for two subframe starts the difference is exactly the number of 30 s periods between
them, of either sign; it never overflows. -/
theorem C02_difference_exact (a b : Gst) (ha : a.Aligned) (hb : b.Aligned) :
    ∃ n : Int, a.subframesDifference b = .ok n ∧ a.abs = b.abs + 30 * n := by
  refine ⟨_, Gst.subframesDifference_aligned ha hb, ?_⟩
  simp only [Gst.Aligned] at ha hb; omega

/-- **C02** `subframes_difference` never panics, aligned or not. -/
theorem C02_difference_returns (a b : Gst) : (a.subframesDifference b).Returns :=
  ⟨_, Gst.subframesDifference_ok a b⟩

/-- **C02** it inverts `add_subframes` on subframe starts. -/
theorem C02_difference_add (a b : Gst) (n : Int) (hb : b.Aligned) (h : b.addSubframes n = .ok a) :
    a.subframesDifference b = .ok n := by
  obtain ⟨_, _, h3⟩ := Gst.addSubframes_eq_ok.1 h
  rw [Gst.subframesDifference_aligned ((Gst.aligned_of_abs h3).2 hb) hb]
  congr 1; omega

/-- **C02** (finding 2) for times that are not subframe starts it is not the number of subframe
boundaries in between: here two times in adjacent subframes, with difference 0. -/
theorem C02_difference_unaligned_counterexample :
    ∃ a b : Gst, a.subframe.abs = b.subframe.abs + 30 ∧ a.subframesDifference b = .ok 0 :=
  ⟨⟨1, 30, by omega, by omega⟩, ⟨1, 29, by omega, by omega⟩, by decide, by decide⟩

/-- **C02** the derived order of GSTs is the order of absolute times. -/
theorem C02_order (a b : Gst) :
    (Gst.cmp a b = .lt ↔ a.abs < b.abs) ∧ (Gst.cmp a b = .eq ↔ a = b) ∧
      (Gst.cmp a b = .gt ↔ b.abs < a.abs) :=
  ⟨Gst.cmp_lt, Gst.cmp_eq_eq, Gst.cmp_gt⟩

/-- Non-vacuity: aligned times in different weeks. -/
example : (⟨1178, 30, by omega, by omega⟩ : Gst).Aligned ∧
    (⟨1177, 604770, by omega, by omega⟩ : Gst).Aligned ∧
    (⟨1178, 30, by omega, by omega⟩ : Gst).subframesDifference ⟨1177, 604770, by omega, by omega⟩
      = .ok 2 := by decide

end Verif
