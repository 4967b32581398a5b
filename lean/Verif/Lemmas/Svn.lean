import Verif.Model.Svn

/-! # Lemmas on `Svn` -/

namespace Verif
namespace Svn

theorem ext {a b : Svn} (h : a.val = b.val) : a = b := by
  cases a; cases b; simp only at h; subst h; rfl

theorem tryFrom_eq_some {v : Int} {s : Svn} : tryFrom v = some s ↔ (s.val : Int) = v := by
  have := s.h1; have := s.h36
  unfold tryFrom
  split
  · constructor
    · intro h; cases h; simp; omega
    · intro h; congr 1; apply ext; simp; omega
  · simp only [reduceCtorEq, false_iff]; omega

theorem tryFrom_val (s : Svn) : tryFrom (s.val : Int) = some s := tryFrom_eq_some.2 rfl

theorem iter_vals : iter.map Svn.val = List.range' 1 36 := by decide

theorem iter_length : iter.length = 36 := by decide

theorem mem_iter (s : Svn) : s ∈ iter := by
  unfold iter
  rw [List.mem_filterMap]
  refine ⟨s.val, ?_, tryFrom_val s⟩
  have := s.h1; have := s.h36
  simp only [NUM_SVNS, List.mem_range']
  exact ⟨s.val - 1, by omega, by omega⟩

theorem iter_nodup : iter.Nodup := by decide

/-- The `unwrap` inside `Svn::iter` never panics. -/
theorem iterRes_eq : iterRes = .ok iter := by decide

theorem idx_lt (s : Svn) : s.idx < 36 := by
  have := s.h1; have := s.h36
  simp only [idx]; omega

theorem idx_inj {a b : Svn} (h : a.idx = b.idx) : a = b := by
  have := a.h1; have := b.h1
  apply ext; simp only [idx] at h; omega

theorem toByte_toNat (s : Svn) : s.toByte.toNat = s.val := by
  have := s.h1; have := s.h36
  simp only [toByte, BitVec.toNat_ofNat]; omega

theorem toByte_inj {a b : Svn} (h : a.toByte = b.toByte) : a = b := by
  apply ext; rw [← toByte_toNat, ← toByte_toNat, h]

end Svn
end Verif
