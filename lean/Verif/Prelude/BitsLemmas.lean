import Verif.Prelude.Bits

/-! # Lemmas about bytes, bits and slices -/

namespace Verif

/-! ## byteBits / bitsOf -/

@[simp] theorem byteBits_length (b : Byte) : (byteBits b).length = 8 := rfl

theorem byteBits_inj {a b : Byte} (h : byteBits a = byteBits b) : a = b := by
  simp only [byteBits, List.cons.injEq, and_true] at h
  obtain ⟨h7, h6, h5, h4, h3, h2, h1, h0⟩ := h
  apply BitVec.eq_of_getLsbD_eq
  intro i hi
  match i, hi with
  | 0, _ => exact h0
  | 1, _ => exact h1
  | 2, _ => exact h2
  | 3, _ => exact h3
  | 4, _ => exact h4
  | 5, _ => exact h5
  | 6, _ => exact h6
  | 7, _ => exact h7

@[simp] theorem bitsOf_nil : bitsOf [] = [] := rfl
@[simp] theorem bitsOf_cons (b : Byte) (bs : List Byte) :
    bitsOf (b :: bs) = byteBits b ++ bitsOf bs := rfl
@[simp] theorem bitsOf_append (a b : List Byte) : bitsOf (a ++ b) = bitsOf a ++ bitsOf b := by
  simp [bitsOf]

@[simp] theorem bitsOf_length (bs : List Byte) : (bitsOf bs).length = 8 * bs.length := by
  induction bs with
  | nil => rfl
  | cons b bs ih => simp [ih]; omega

theorem bitsOf_inj {a b : List Byte} (h : bitsOf a = bitsOf b) : a = b := by
  induction a generalizing b with
  | nil =>
    have := congrArg List.length h
    simp at this
    exact (List.length_eq_zero_iff.mp (by omega)).symm
  | cons x xs ih =>
    cases b with
    | nil => have := congrArg List.length h; simp at this
    | cons y ys =>
      simp only [bitsOf_cons] at h
      have h2 := List.append_inj h (by simp)
      rw [byteBits_inj h2.1, ih h2.2]

theorem bitsOf_take (bs : List Byte) (n : Nat) : (bitsOf bs).take (8 * n) = bitsOf (bs.take n) := by
  induction n generalizing bs with
  | zero => simp
  | succ n ih =>
    cases bs with
    | nil => simp
    | cons b bs =>
      have : 8 * (n + 1) = (byteBits b).length + 8 * n := by simp; omega
      rw [bitsOf_cons, this, List.take_length_add_append, ih]
      simp

theorem bitsOf_drop (bs : List Byte) (n : Nat) : (bitsOf bs).drop (8 * n) = bitsOf (bs.drop n) := by
  induction n generalizing bs with
  | zero => simp
  | succ n ih =>
    cases bs with
    | nil => simp
    | cons b bs =>
      have : 8 * (n + 1) = (byteBits b).length + 8 * n := by simp; omega
      rw [bitsOf_cons, this, List.drop_length_add_append, ih]
      simp

/-! ## loadBe / storeBe -/

@[simp] theorem storeBe_length (n v : Nat) : (storeBe n v).length = n := by
  induction n with
  | zero => rfl
  | succ n ih => simp [storeBe, ih]

theorem foldl_loadBe (bits : List Bool) (a : Nat) :
    bits.foldl (fun a b => 2 * a + b.toNat) a = a * 2 ^ bits.length + loadBe bits := by
  induction bits generalizing a with
  | nil => simp [loadBe]
  | cons b bs ih =>
    simp only [List.foldl_cons, List.length_cons, loadBe]
    rw [ih, ih (2 * 0 + b.toNat)]
    rw [Nat.pow_succ]
    simp only [Nat.mul_zero, Nat.zero_add]
    rw [Nat.add_mul, Nat.add_assoc]
    congr 1
    rw [Nat.mul_comm 2 a, Nat.mul_assoc, Nat.mul_comm 2]

@[simp] theorem loadBe_nil : loadBe [] = 0 := rfl

theorem loadBe_cons (b : Bool) (bs : List Bool) :
    loadBe (b :: bs) = b.toNat * 2 ^ bs.length + loadBe bs := by
  simp only [loadBe, List.foldl_cons]
  rw [foldl_loadBe]; simp [loadBe]

theorem loadBe_append (a b : List Bool) :
    loadBe (a ++ b) = loadBe a * 2 ^ b.length + loadBe b := by
  simp only [loadBe, List.foldl_append]
  rw [foldl_loadBe]; rfl

theorem loadBe_lt (bits : List Bool) : loadBe bits < 2 ^ bits.length := by
  induction bits with
  | nil => simp
  | cons b bs ih =>
    rw [loadBe_cons, List.length_cons, Nat.pow_succ]
    cases b <;> simp <;> omega

theorem storeBe_mod (n v : Nat) : storeBe n (v % 2 ^ n) = storeBe n v := by
  suffices h : ∀ m k, m ≤ k → storeBe m (v % 2 ^ k) = storeBe m v from h n n (Nat.le_refl _)
  intro m k hk
  induction m with
  | zero => rfl
  | succ m ih =>
    simp only [storeBe]
    rw [ih (by omega), Nat.testBit_mod_two_pow]
    simp [show m < k by omega]

theorem loadBe_storeBe (n v : Nat) : loadBe (storeBe n v) = v % 2 ^ n := by
  induction n with
  | zero => simp [storeBe, Nat.mod_one]
  | succ n ih =>
    rw [storeBe, loadBe_cons, ih, storeBe_length, Nat.testBit_eq_decide_div_mod_eq]
    have h := Nat.mod_pow_succ (x := v) (b := 2) (k := n)
    rw [h]
    have h2 : v / 2 ^ n % 2 < 2 := Nat.mod_lt _ (by omega)
    by_cases hc : v / 2 ^ n % 2 = 1
    · simp [hc]; omega
    · have : v / 2 ^ n % 2 = 0 := by omega
      simp [this]

theorem storeBe_loadBe (bits : List Bool) : storeBe bits.length (loadBe bits) = bits := by
  induction bits with
  | nil => rfl
  | cons b bs ih =>
    simp only [List.length_cons, storeBe]
    have hlt := loadBe_lt bs
    have h1 : (loadBe (b :: bs)).testBit bs.length = b := by
      rw [loadBe_cons, Nat.testBit_eq_decide_div_mod_eq, Nat.mul_comm,
        Nat.mul_add_div (Nat.two_pow_pos _), Nat.div_eq_of_lt hlt]
      cases b <;> simp
    rw [h1]
    congr 1
    rw [← storeBe_mod, loadBe_cons, Nat.mul_comm, Nat.mul_add_mod, Nat.mod_eq_of_lt hlt, ih]

theorem storeBe_inj {n a b : Nat} (ha : a < 2 ^ n) (hb : b < 2 ^ n)
    (h : storeBe n a = storeBe n b) : a = b := by
  have := congrArg loadBe h
  rw [loadBe_storeBe, loadBe_storeBe, Nat.mod_eq_of_lt ha, Nat.mod_eq_of_lt hb] at this
  exact this

theorem loadBe_inj {a b : List Bool} (hl : a.length = b.length) (h : loadBe a = loadBe b) :
    a = b := by
  rw [← storeBe_loadBe a, ← storeBe_loadBe b, hl, h]

theorem storeBe_append (m n v : Nat) :
    storeBe (m + n) v = storeBe m (v / 2 ^ n) ++ storeBe n v := by
  induction m with
  | zero => simp [storeBe]
  | succ m ih =>
    rw [Nat.add_right_comm, storeBe, storeBe, ih, List.cons_append]
    congr 1
    rw [Nat.testBit_div_two_pow]

@[simp] theorem storeBe_zero (n : Nat) : storeBe n 0 = List.replicate n false := by
  induction n with
  | zero => rfl
  | succ n ih => simp [storeBe, ih, List.replicate_succ]

/-! ## packing -/

theorem loadBe_byteBits (b : Byte) : loadBe (byteBits b) = b.toNat := by
  have hb : byteBits b = storeBe 8 b.toNat := by
    simp only [byteBits, storeBe, BitVec.testBit_toNat]
  rw [hb, loadBe_storeBe]
  exact Nat.mod_eq_of_lt b.isLt

theorem byteBits_eq_storeBe (b : Byte) : byteBits b = storeBe 8 b.toNat := by
  simp only [byteBits, storeBe, BitVec.testBit_toNat]

theorem packByte_byteBits (b : Byte) : packByte (byteBits b) = b := by
  simp only [packByte, byteBits_length, Nat.sub_self, List.replicate_zero, List.append_nil]
  rw [List.take_of_length_le (by simp), loadBe_byteBits]
  simp

theorem byteBits_packByte {bits : List Bool} (h : bits.length ≤ 8) :
    byteBits (packByte bits) = bits ++ List.replicate (8 - bits.length) false := by
  rw [byteBits_eq_storeBe, packByte, List.take_of_length_le h]
  have hl : (bits ++ List.replicate (8 - bits.length) false).length = 8 := by simp; omega
  have hlt := loadBe_lt (bits ++ List.replicate (8 - bits.length) false)
  rw [hl] at hlt
  rw [BitVec.toNat_ofNat, Nat.mod_eq_of_lt hlt]
  have := storeBe_loadBe (bits ++ List.replicate (8 - bits.length) false)
  rw [hl] at this
  exact this

@[simp] theorem packBytes_nil : packBytes [] = [] := rfl

theorem packBytes_byte_append {a : List Bool} (ha : a.length = 8) (rest : List Bool) :
    packBytes (a ++ rest) = packByte a :: packBytes rest := by
  match a, ha with
  | [_, _, _, _, _, _, _, _], _ => rfl

theorem packBytes_short {a : List Bool} (h0 : a ≠ []) (ha : a.length < 8) :
    packBytes a = [packByte a] := by
  match a, h0, ha with
  | [_], _, _ => rfl
  | [_, _], _, _ => rfl
  | [_, _, _], _, _ => rfl
  | [_, _, _, _], _, _ => rfl
  | [_, _, _, _, _], _, _ => rfl
  | [_, _, _, _, _, _], _, _ => rfl
  | [_, _, _, _, _, _, _], _, _ => rfl

/-- Packing is left inverse of unpacking. -/
theorem packBytes_bitsOf (bs : List Byte) : packBytes (bitsOf bs) = bs := by
  induction bs with
  | nil => rfl
  | cons b bs ih =>
    rw [bitsOf_cons, packBytes_byte_append (by simp), packByte_byteBits, ih]

theorem packBytes_bitsOf_append (bs : List Byte) (rest : List Bool) :
    packBytes (bitsOf bs ++ rest) = bs ++ packBytes rest := by
  induction bs with
  | nil => rfl
  | cons b bs ih =>
    rw [bitsOf_cons, List.append_assoc, packBytes_byte_append (by simp), packByte_byteBits, ih]
    rfl

/-- Number of bytes after packing. -/
theorem packBytes_length (bits : List Bool) : (packBytes bits).length = (bits.length + 7) / 8 := by
  suffices h : ∀ n (bits : List Bool), bits.length ≤ n →
      (packBytes bits).length = (bits.length + 7) / 8 from h _ bits (Nat.le_refl _)
  intro n
  induction n with
  | zero => intro bits h; have := List.length_eq_zero_iff.mp (Nat.le_zero.mp h); subst this; rfl
  | succ n ih =>
    intro bits h
    by_cases h8 : bits.length < 8
    · by_cases h0 : bits = []
      · subst h0; rfl
      · rw [packBytes_short h0 h8]
        have := List.length_pos_iff.mpr h0
        simp; omega
    · have hs : bits = bits.take 8 ++ bits.drop 8 := (List.take_append_drop 8 bits).symm
      have hd := ih (bits.drop 8) (by simp; omega)
      rw [hs, packBytes_byte_append (by simp; omega)]
      simp only [List.length_cons, hd, List.length_drop, List.length_append, List.length_take]
      omega

/-- Unpacking the packed bytes gives the bits followed by zero padding. -/
theorem bitsOf_packBytes (bits : List Bool) :
    bitsOf (packBytes bits) =
      bits ++ List.replicate (8 * ((bits.length + 7) / 8) - bits.length) false := by
  suffices h : ∀ n (bits : List Bool), bits.length ≤ n → bitsOf (packBytes bits) =
      bits ++ List.replicate (8 * ((bits.length + 7) / 8) - bits.length) false from
    h _ bits (Nat.le_refl _)
  intro n
  induction n with
  | zero => intro bits h; have := List.length_eq_zero_iff.mp (Nat.le_zero.mp h); subst this; rfl
  | succ n ih =>
    intro bits h
    by_cases h8 : bits.length < 8
    · by_cases h0 : bits = []
      · subst h0; rfl
      · rw [packBytes_short h0 h8]
        have := List.length_pos_iff.mpr h0
        simp only [bitsOf_cons, bitsOf_nil, List.append_nil]
        rw [byteBits_packByte (by omega)]
        congr 2; omega
    · have hs : bits = bits.take 8 ++ bits.drop 8 := (List.take_append_drop 8 bits).symm
      have hd := ih (bits.drop 8) (by simp; omega)
      have h8l : (bits.take 8).length = 8 := by simp; omega
      have e : packBytes bits = packByte (bits.take 8) :: packBytes (bits.drop 8) := by
        conv => lhs; rw [hs]
        exact packBytes_byte_append h8l _
      rw [e, bitsOf_cons, hd, byteBits_packByte (by omega), h8l]
      simp only [Nat.sub_self, List.replicate_zero, List.append_nil]
      rw [← List.append_assoc, List.take_append_drop]
      congr 2
      simp; omega

theorem bitsOf_packBytes_aligned {bits : List Bool} (h : bits.length % 8 = 0) :
    bitsOf (packBytes bits) = bits := by
  rw [bitsOf_packBytes]
  have : 8 * ((bits.length + 7) / 8) - bits.length = 0 := by omega
  rw [this]; simp

/-! ## slices -/

theorem slice_eq_ok {α : Type u} {l r : List α} {i j : Nat} :
    slice l i j = .ok r ↔ i ≤ j ∧ j ≤ l.length ∧ r = (l.drop i).take (j - i) := by
  unfold slice
  split
  · rename_i h; simp [h.1, h.2, eq_comm]
  · rename_i h; simp; intro a b; exact absurd ⟨a, b⟩ h

theorem slice_ok {α : Type u} {l : List α} {i j : Nat} (h1 : i ≤ j) (h2 : j ≤ l.length) :
    slice l i j = .ok ((l.drop i).take (j - i)) := by
  unfold slice; rw [if_pos ⟨h1, h2⟩]

theorem slice_length {α : Type u} {l r : List α} {i j : Nat} (h : slice l i j = .ok r) :
    r.length = j - i := by
  obtain ⟨h1, h2, rfl⟩ := slice_eq_ok.mp h
  simp; omega

/-- Slicing out the middle piece. -/
theorem slice_mid {α : Type u} (a m b : List α) :
    slice (a ++ m ++ b) a.length (a.length + m.length) = .ok m := by
  rw [slice_ok (by omega) (by simp)]
  rw [List.append_assoc, List.drop_left, Nat.add_sub_cancel_left, List.take_left]

theorem slice_mid' {α : Type u} (a m b : List α) {i j : Nat} (hi : i = a.length)
    (hj : j = a.length + m.length) : slice (a ++ m ++ b) i j = .ok m := by
  subst hi hj; exact slice_mid a m b

theorem index_eq_ok {α : Type u} {l : List α} {i : Nat} {a : α} :
    index l i = .ok a ↔ l[i]? = some a := by
  unfold index; split <;> simp_all

theorem index_ok {α : Type u} {l : List α} {i : Nat} (h : i < l.length) :
    index l i = .ok l[i] := by
  simp [index, List.getElem?_eq_getElem h]

theorem setIndex_eq_ok {α : Type u} {l r : List α} {i : Nat} {v : α} :
    setIndex l i v = .ok r ↔ i < l.length ∧ r = l.set i v := by
  unfold setIndex; split
  · rename_i h; simp [h, eq_comm]
  · rename_i h; simp [h]

theorem setIndex_ok {α : Type u} {l : List α} {i : Nat} {v : α} (h : i < l.length) :
    setIndex l i v = .ok (l.set i v) := by simp [setIndex, h]

theorem writeSlice_ok {α : Type u} {l src : List α} {i : Nat} (h : i + src.length ≤ l.length) :
    writeSlice l i src = .ok (l.take i ++ src ++ l.drop (i + src.length)) := by
  simp [writeSlice, h]

theorem writeSlice_eq_ok {α : Type u} {l src r : List α} {i : Nat} :
    writeSlice l i src = .ok r ↔
      i + src.length ≤ l.length ∧ r = l.take i ++ src ++ l.drop (i + src.length) := by
  unfold writeSlice; split
  · rename_i h; simp [h, eq_comm]
  · rename_i h; simp [h]

theorem writeSlice_length {α : Type u} {l src r : List α} {i : Nat}
    (h : writeSlice l i src = .ok r) : r.length = l.length := by
  obtain ⟨h1, rfl⟩ := writeSlice_eq_ok.mp h
  simp; omega

@[simp] theorem beBytes_length (n v : Nat) : (beBytes n v).length = n := by
  rw [beBytes, packBytes_length, storeBe_length]; omega

theorem bitsOf_beBytes (n v : Nat) : bitsOf (beBytes n v) = storeBe (8 * n) v := by
  rw [beBytes, bitsOf_packBytes_aligned]; rw [storeBe_length]; omega

end Verif
