import Verif.Spec.TeslaSpec
import Verif.Lemmas.Tesla

/-! # Lemmas on key derivation -/

namespace Verif

theorem Chain.keySize_le (c : Chain) : c.keySizeBytes ≤ 32 := by
  have := c.hks; simp at this; omega
theorem Chain.keySize_pos (c : Chain) : 12 ≤ c.keySizeBytes := by
  have := c.hks; simp at this; omega
theorem Chain.tagSize_le (c : Chain) : c.tagSizeBits ≤ 40 := by
  have := c.hts; simp at this; omega
theorem Chain.tagSize_pos (c : Chain) : 20 ≤ c.tagSizeBits := by
  have := c.hts; simp at this; omega

theorem chainHash_length (C : Crypto) (c : Chain) (m : List Byte) : (chainHash C c m).length = 32 := by
  unfold chainHash; split
  · exact C.sha256_len m
  · exact C.sha3_256_len m

namespace Key
variable {C : Crypto}

theorem bytes_length (k : Key) : k.bytes.length = k.chain.keySizeBytes := by
  have := k.chain.keySize_le
  simp only [bytes, List.length_take, k.data.2]; omega

theorem padData_take {src : List Byte} {n : Nat} (h : src.length = n) (hn : n ≤ 32) :
    (padData src).val.take n = src := by
  subst h
  simp only [padData]
  rw [List.take_take, Nat.min_eq_left hn, List.take_left]

theorem storeGst_beBytes (g : Gst) (alpha : Nat) :
    storeGst g ++ beBytes 6 alpha = packBytes (storeBe 12 g.wn ++ storeBe 20 g.tow ++ storeBe 48 alpha) := by
  rw [← packBytes_bitsOf (storeGst g ++ beBytes 6 alpha), bitsOf_append, storeGst_bits, bitsOf_beBytes]

theorem hash_eq (c : Chain) (m : List Byte) : hash C c m = chainHash C c m := rfl

/-- The one-way function as specified. -/
theorem oneWayFunction_eq_ok {k k' : Key} :
    oneWayFunction C k = .ok k' ↔ k'.gst.abs = k.gst.abs - 30 ∧ k'.chain = k.chain ∧
      k' = ⟨padData ((chainHash C k.chain (owfMessage k.chain k.bytes k'.gst)).take k.chain.keySizeBytes),
        k.chain, k'.gst⟩ := by
  unfold oneWayFunction
  rw [Res.bind_eq_ok]
  constructor
  · rintro ⟨prev, h1, h2⟩
    rw [Gst.addSeconds_eq_ok (by omega)] at h1
    simp only [Res.pure_eq, Res.ok.injEq] at h2
    subst h2
    refine ⟨by dsimp only; omega, rfl, ?_⟩
    simp only [hash_eq, owfMessage, List.append_assoc, storeGst_beBytes]
  · rintro ⟨h1, h2, h3⟩
    refine ⟨k'.gst, ?_, ?_⟩
    · rw [Gst.addSeconds_eq_ok (by omega)]; omega
    · rw [h3]
      simp only [hash_eq, owfMessage, List.append_assoc, storeGst_beBytes, Res.pure_eq]

theorem oneWayFunction_bytes {k k' : Key} (h : oneWayFunction C k = .ok k') :
    k'.bytes = (chainHash C k.chain (owfMessage k.chain k.bytes k'.gst)).take k.chain.keySizeBytes := by
  rw [oneWayFunction_eq_ok] at h
  obtain ⟨_, h2, h3⟩ := h
  have hl := k.chain.keySize_le
  rw [bytes, h2]
  conv => lhs; rw [h3]
  exact padData_take (by simp [chainHash_length]; omega) hl

theorem oneWayFunction_returns {k : Key} (h : 30 ≤ k.gst.abs) : ∃ k', oneWayFunction C k = .ok k' := by
  have := k.gst.abs_representable
  obtain ⟨g, hg⟩ := exists_gst (t := k.gst.abs - 30) (by simp only [Representable] at *; omega)
  exact ⟨_, (oneWayFunction_eq_ok (k' := ⟨padData ((chainHash C k.chain (owfMessage k.chain k.bytes g)).take k.chain.keySizeBytes), k.chain, g⟩)).2 ⟨hg, rfl, rfl⟩⟩

theorem derive_succ (k : Key) (n : Nat) :
    derive C k (n + 1) = (oneWayFunction C k >>= fun k' => derive C k' n) := by
  rw [derive]; cases oneWayFunction C k <;> rfl

theorem derive_add (k : Key) (m n : Nat) :
    derive C k (m + n) = (derive C k m >>= fun k' => derive C k' n) := by
  induction m generalizing k with
  | zero => simp [derive]
  | succ m ih =>
    rw [Nat.add_right_comm, derive_succ, derive_succ]
    cases h : oneWayFunction C k with
    | panic w => rfl
    | ok k1 => simp only [Res.ok_bind]; exact ih k1

theorem derive_gst {k k' : Key} {n : Nat} (h : derive C k n = .ok k') :
    k'.chain = k.chain ∧ k'.gst.abs = k.gst.abs - 30 * n := by
  induction n generalizing k with
  | zero => simp only [derive, Res.ok.injEq] at h; subst h; simp
  | succ n ih =>
    rw [derive_succ, Res.bind_eq_ok] at h
    obtain ⟨k1, h1, h2⟩ := h
    have := ih h2
    rw [oneWayFunction_eq_ok] at h1
    refine ⟨by rw [this.1, h1.2.1], by omega⟩

theorem derive_returns {k : Key} {n : Nat} (h : 30 * (n : Int) ≤ k.gst.abs) :
    ∃ k', derive C k n = .ok k' := by
  induction n generalizing k with
  | zero => exact ⟨k, rfl⟩
  | succ n ih =>
    obtain ⟨k1, h1⟩ := oneWayFunction_returns (C := C) (k := k) (by omega)
    have hg := (oneWayFunction_eq_ok.1 h1).1
    obtain ⟨k2, h2⟩ := ih (k := k1) (by omega)
    exact ⟨k2, by rw [derive_succ, h1]; exact h2⟩

theorem derive_derives {k k' : Key} {n : Nat} (h : derive C k n = .ok k') :
    Derives C k.chain n (k.gst, k.bytes) (k'.gst, k'.bytes) := by
  induction n generalizing k with
  | zero => simp only [derive, Res.ok.injEq] at h; subst h; exact .zero _
  | succ n ih =>
    rw [derive_succ, Res.bind_eq_ok] at h
    obtain ⟨k1, h1, h2⟩ := h
    have hg := oneWayFunction_eq_ok.1 h1
    have := ih h2
    rw [oneWayFunction_bytes h1, hg.2.1] at this
    exact .succ n _ k1.gst _ _ hg.1 this

end Key

theorem Derives.time {C : Crypto} {c : Chain} {n : Nat} {x y : Gst × List Byte}
    (h : Derives C c n x y) : y.1.abs = x.1.abs - 30 * n := by
  induction h with
  | zero => simp
  | succ n g prev k x hp _ ih => simp only at *; omega

/-- Derivation is a function. -/
theorem Derives.det {C : Crypto} {c : Chain} {n : Nat} {x y z : Gst × List Byte}
    (h : Derives C c n x y) (h' : Derives C c n x z) : y = z := by
  induction h with
  | zero => cases h'; rfl
  | succ n g prev k x hp _ ih =>
    cases h' with
    | succ _ _ prev' _ _ hp' h'' =>
      have : prev = prev' := Gst.abs_inj (by omega)
      subst this
      exact ih h''

theorem Derives.trans {C : Crypto} {c : Chain} {m n : Nat} {x y z : Gst × List Byte}
    (h : Derives C c m x y) (h' : Derives C c n y z) : Derives C c (m + n) x z := by
  induction h with
  | zero => simpa using h'
  | succ m g prev k x hp _ ih =>
    rw [Nat.add_right_comm]
    exact .succ _ _ prev _ _ hp (ih h')

theorem Derives.length {C : Crypto} {c : Chain} {n : Nat} {x y : Gst × List Byte}
    (h : Derives C c n x y) (hx : x.2.length = c.keySizeBytes) : y.2.length = c.keySizeBytes := by
  induction h with
  | zero => exact hx
  | succ n g prev k x hp _ ih =>
    apply ih
    have := c.keySize_le
    simp [chainHash_length]; omega

/-- Two different keys of one instant that derive to the same key exhibit a collision. -/
theorem Derives.collision {C : Crypto} {c : Chain} {n : Nat} {g : Gst} {k₁ k₂ : List Byte}
    {y : Gst × List Byte} (h₁ : Derives C c n (g, k₁) y) (h₂ : Derives C c n (g, k₂) y)
    (hl : k₁.length = k₂.length) (hne : k₁ ≠ k₂) : DerivationsCollide C c n g k₁ k₂ := by
  induction n generalizing g k₁ k₂ with
  | zero => cases h₁; cases h₂; exact absurd rfl hne
  | succ n ih =>
    cases h₁ with
    | succ _ _ p1 _ _ hp1 h1 =>
      cases h₂ with
      | succ _ _ p2 _ _ hp2 h2 =>
        have : p1 = p2 := Gst.abs_inj (by omega)
        subst this
        by_cases heq : (chainHash C c (owfMessage c k₁ p1)).take c.keySizeBytes
            = (chainHash C c (owfMessage c k₂ p1)).take c.keySizeBytes
        · refine ⟨0, g, p1, k₁, k₂, by omega, .zero _, .zero _, hp1, ?_, heq⟩
          intro hm
          exact hne (List.append_inj hm hl).1
        · obtain ⟨j, g', pr, a₁, a₂, hj, d1, d2, e⟩ := ih h1 h2 (by simp [chainHash_length]) heq
          exact ⟨j + 1, g', pr, a₁, a₂, by omega, .succ _ _ p1 _ _ hp1 d1, .succ _ _ p1 _ _ hp1 d2, e⟩

end Verif
