import Verif.Prelude.BitsLemmas

/-! # Flat arrays of `d` slots of `n` elements, and circular slot numbering -/

namespace Verif

/-- Elements of slot `i` in a flat array with slots of size `n`. -/
def slotOf {α : Type u} (n : Nat) (l : List α) (i : Nat) : List α := (l.drop (i * n)).take n

/-- Replaces the elements of slot `i`. -/
def setSlot {α : Type u} (n : Nat) (l : List α) (i : Nat) (src : List α) : List α :=
  l.take (i * n) ++ src ++ l.drop (i * n + src.length)

section
variable {α : Type u} {n d : Nat} {l : List α} {i j : Nat} {src : List α}

theorem slot_bound (hi : i < d) : i * n + n ≤ d * n := by
  have : (i + 1) * n ≤ d * n := Nat.mul_le_mul_right n hi
  rw [Nat.add_mul] at this; omega

theorem slotOf_length (hl : l.length = d * n) (hi : i < d) : (slotOf n l i).length = n := by
  have := slot_bound (n := n) hi
  simp only [slotOf, List.length_take, List.length_drop]; omega

theorem slice_slot (hl : l.length = d * n) (hi : i < d) :
    slice l (i * n) ((i + 1) * n) = .ok (slotOf n l i) := by
  have := slot_bound (n := n) hi
  rw [slice_ok (by rw [Nat.add_mul]; omega) (by rw [Nat.add_mul]; omega)]
  simp only [slotOf, Nat.add_mul, Nat.one_mul]
  congr 2; omega

theorem writeSlice_slot (hl : l.length = d * n) (hi : i < d) (hs : src.length = n) :
    writeSlice l (i * n) src = .ok (setSlot n l i src) := by
  have := slot_bound (n := n) hi
  rw [writeSlice_ok (by omega)]; rfl

theorem setSlot_length (hl : l.length = d * n) (hi : i < d) (hs : src.length = n) :
    (setSlot n l i src).length = d * n := by
  have := slot_bound (n := n) hi
  simp only [setSlot, List.length_append, List.length_take, List.length_drop]; omega

theorem slotOf_setSlot_self (hl : l.length = d * n) (hi : i < d) (hs : src.length = n) :
    slotOf n (setSlot n l i src) i = src := by
  have := slot_bound (n := n) hi
  simp only [slotOf, setSlot]
  rw [List.append_assoc, List.drop_append_of_le_length (by simp; omega),
    List.drop_of_length_le (by simp; omega), List.nil_append,
    List.take_append_of_le_length (by omega), List.take_of_length_le (by omega)]

theorem slotOf_setSlot_ne (hl : l.length = d * n) (hi : i < d) (hs : src.length = n)
    (hij : j ≠ i) (hj : j < d) : slotOf n (setSlot n l i src) j = slotOf n l j := by
  have hbi := slot_bound (n := n) hi
  have hbj := slot_bound (n := n) hj
  simp only [slotOf, setSlot]
  rcases Nat.lt_or_gt_of_ne hij with h | h
  · have hb : j * n + n ≤ i * n := slot_bound (n := n) h
    rw [List.append_assoc, List.drop_append_of_le_length (by simp; omega),
      List.take_append_of_le_length (by simp; omega), List.drop_take, List.take_take]
    congr 1; omega
  · have hb : i * n + n ≤ j * n := slot_bound (n := n) h
    rw [List.drop_append, List.drop_of_length_le (by simp; omega), List.nil_append, List.drop_drop]
    congr 2
    simp only [List.length_append, List.length_take]; omega

theorem slotOf_setSlot (hl : l.length = d * n) (hi : i < d) (hs : src.length = n) (hj : j < d) :
    slotOf n (setSlot n l i src) j = if j = i then src else slotOf n l j := by
  split
  · rename_i h; subst h; exact slotOf_setSlot_self hl hi hs
  · rename_i h; exact slotOf_setSlot_ne hl hi hs h hj

theorem slotOf_map {β : Type u} (f : α → β) (l : List α) (i : Nat) :
    slotOf n (l.map f) i = (slotOf n l i).map f := by
  simp only [slotOf, List.map_take, List.map_drop]

theorem mem_of_mem_slotOf {x : α} (h : x ∈ slotOf n l i) : x ∈ l :=
  List.mem_of_mem_drop (List.mem_of_mem_take h)

theorem mem_iff_slotOf (hl : l.length = d * n) {x : α} :
    x ∈ l ↔ ∃ i, i < d ∧ x ∈ slotOf n l i := by
  constructor
  · intro h
    obtain ⟨k, hk, rfl⟩ := List.mem_iff_getElem.1 h
    have hn : 0 < n := by
      rcases Nat.eq_zero_or_pos n with h0 | h0
      · subst h0; rw [Nat.mul_zero] at hl; omega
      · exact h0
    refine ⟨k / n, ?_, ?_⟩
    · rw [Nat.div_lt_iff_lt_mul hn]; omega
    · apply List.mem_of_getElem? (i := k % n)
      rw [slotOf, List.getElem?_take_of_lt (Nat.mod_lt _ hn), List.getElem?_drop]
      rw [Nat.mul_comm, Nat.div_add_mod, List.getElem?_eq_getElem hk]
  · rintro ⟨i, _, h⟩; exact mem_of_mem_slotOf h

theorem slotOf_replicate (x : α) (hi : i < d) :
    slotOf n (List.replicate (d * n) x) i = List.replicate n x := by
  have := slot_bound (n := n) hi
  simp only [slotOf, List.drop_replicate, List.take_replicate]
  congr 1; omega

theorem slotOf_ext {l' : List α} (hl : l.length = d * n) (hl' : l'.length = d * n)
    (h : ∀ i, i < d → slotOf n l i = slotOf n l' i) : l = l' := by
  rcases Nat.eq_zero_or_pos n with h0 | hn
  · subst h0
    simp at hl hl'; rw [hl, hl']
  apply List.ext_getElem?
  intro k
  by_cases hk : k < d * n
  · have hkd : k / n < d := by rw [Nat.div_lt_iff_lt_mul hn]; omega
    have := congrArg (fun x => x[k % n]?) (h _ hkd)
    simp only [slotOf, List.getElem?_take_of_lt (Nat.mod_lt _ hn), List.getElem?_drop] at this
    rw [Nat.mul_comm, Nat.div_add_mod] at this
    exact this
  · rw [List.getElem?_eq_none (by omega), List.getElem?_eq_none (by omega)]

end

/-- Index of the slot that was written `k` slots ago. -/
def pos (d wp k : Nat) : Nat := if k ≤ wp then wp - k else wp + d - k

theorem pos_lt {d wp k : Nat} (hwp : wp < d) (hk : k < d) : pos d wp k < d := by
  unfold pos; split <;> omega

theorem pos_zero (d wp : Nat) : pos d wp 0 = wp := by simp [pos]

theorem pos_inj {d wp k k' : Nat} (hk : k < d) (hk' : k' < d)
    (h : pos d wp k = pos d wp k') : k = k' := by
  unfold pos at h; split at h <;> split at h <;> omega

theorem pos_surj {d wp i : Nat} (hwp : wp < d) (hi : i < d) : ∃ k, k < d ∧ pos d wp k = i := by
  by_cases h : i ≤ wp
  · exact ⟨wp - i, by omega, by unfold pos; split <;> omega⟩
  · exact ⟨wp + d - i, by omega, by unfold pos; split <;> omega⟩

theorem pos_succ {d wp k : Nat} (hwp : wp < d) (hk : k + 1 < d) :
    pos d ((wp + 1) % d) (k + 1) = pos d wp k := by
  have : (wp + 1) % d = if wp + 1 = d then 0 else wp + 1 := by
    split
    · rename_i h; rw [h]; exact Nat.mod_self d
    · exact Nat.mod_eq_of_lt (by omega)
  rw [this]
  unfold pos; split <;> split <;> split <;> omega

theorem pos_mod {d wp k : Nat} (hwp : wp < d) (hk : k < d) : (d + wp - k) % d = pos d wp k := by
  unfold pos; split
  · rw [show d + wp - k = (wp - k) + d by omega, Nat.add_mod_right, Nat.mod_eq_of_lt (by omega)]
  · rw [Nat.mod_eq_of_lt (by omega)]; omega

end Verif
