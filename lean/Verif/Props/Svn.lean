import Verif.Lemmas.Svn

/-! # C03: satellite numbers -/

namespace Verif

/-- **C03** `Svn::try_from(n)` succeeds exactly for `1 ≤ n ≤ 36`, and the value converts back. -/
theorem C03_try_from_iff (n : Int) :
    (1 ≤ n ∧ n ≤ 36 → ∃ s, Svn.tryFrom n = some s ∧ (s.val : Int) = n) ∧
      (¬(1 ≤ n ∧ n ≤ 36) → Svn.tryFrom n = none) := by
  constructor
  · intro h
    refine ⟨⟨n.toNat, by omega, by omega⟩, ?_, by simp; omega⟩
    rw [Svn.tryFrom_eq_some]; simp; omega
  · intro h; simp [Svn.tryFrom, h]

/-- **C03** every value of the type is obtained from its number. -/
theorem C03_try_from_val (s : Svn) : Svn.tryFrom (s.val : Int) = some s := Svn.tryFrom_val s

/-- **C03** `Svn::iter()` does not panic and yields the satellites 1, 2, ..., 36 in this order;
every satellite appears, once. -/
theorem C03_iter :
    Svn.iterRes = .ok Svn.iter ∧ Svn.iter.map Svn.val = List.range' 1 36 ∧
      (∀ s, s ∈ Svn.iter) ∧ Svn.iter.Nodup :=
  ⟨Svn.iterRes_eq, Svn.iter_vals, Svn.mem_iter, Svn.iter_nodup⟩

example : (Svn.tryFrom 36).isSome ∧ Svn.tryFrom 37 = none ∧ Svn.tryFrom 0 = none ∧
    Svn.tryFrom (-1) = none := by decide

end Verif
