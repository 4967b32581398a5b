import Verif.Model.Text
import Verif.Prelude.BitsLemmas

namespace Verif

/-- Characters as code points. -/
def codes (l : List Byte) : List Nat := l.map (·.toNat)

@[simp] theorem codes_append (a b : List Byte) : codes (a ++ b) = codes a ++ codes b := by simp [codes]
@[simp] theorem codes_cons (a : Byte) (b : List Byte) : codes (a :: b) = a.toNat :: codes b := rfl
@[simp] theorem codes_nil : codes [] = [] := rfl

/-- Only printable ASCII characters other than the space. -/
def Plain (l : List Byte) : Prop := ∀ b ∈ l, 33 ≤ b.toNat ∧ b.toNat < 127

theorem Plain.append {a b : List Byte} (ha : Plain a) (hb : Plain b) : Plain (a ++ b) := by
  intro x hx
  rcases List.mem_append.1 hx with h | h
  · exact ha x h
  · exact hb x h

theorem utf8Go_ascii {l : List Byte} (h : ∀ b ∈ l, b.toNat < 128) : ∀ n, l.length ≤ n → utf8Go n l = some (codes l) := by
  induction l with
  | nil => intro n _; cases n <;> rfl
  | cons b l ih =>
    intro n hn
    cases n with
    | zero => simp at hn
    | succ n =>
      unfold utf8Go
      rw [if_pos (h b (by simp)), ih (fun x hx => h x (by simp [hx])) n (by simpa using hn)]
      rfl

theorem utf8_ascii {l : List Byte} (h : ∀ b ∈ l, b.toNat < 128) : utf8 l = some (codes l) :=
  utf8Go_ascii h _ (Nat.le_refl _)

theorem strLen_ascii {l : List Byte} (h : ∀ b ∈ l, b.toNat < 128) : strLen (codes l) = l.length := by
  induction l with
  | nil => rfl
  | cons b l ih =>
    have := ih (fun x hx => h x (by simp [hx]))
    unfold strLen at this ⊢
    simp only [codes_cons, List.map_cons, List.sum_cons, this, List.length_cons]
    rw [utf8Len, if_pos (h b (by simp))]
    omega

theorem not_whitespace_of_plain {c : Nat} (h1 : 33 ≤ c) (h2 : c < 127) : isWhitespace c = false := by
  unfold isWhitespace
  simp only [Bool.or_eq_false_iff, Bool.and_eq_false_iff, decide_eq_false_iff_not, beq_eq_false_iff_ne]
  omega

theorem splitWhitespace_plain {w : List Byte} (h : Plain w) (rest : List Nat) :
    ∀ cur, splitWhitespace cur (codes w ++ rest) = splitWhitespace (cur ++ codes w) rest := by
  induction w with
  | nil => intro cur; simp
  | cons b w ih =>
    intro cur
    have hb := h b (by simp)
    simp only [codes_cons, List.cons_append]
    rw [splitWhitespace, if_neg (by rw [not_whitespace_of_plain hb.1 hb.2]; simp), ih (fun x hx => h x (by simp [hx]))]
    simp

/-- A word followed by a space. -/
theorem splitWhitespace_word {w : List Byte} (h : Plain w) (hne : w ≠ []) (rest : List Nat) :
    splitWhitespace [] (codes w ++ 32 :: rest) = codes w :: splitWhitespace [] rest := by
  rw [splitWhitespace_plain h]
  rw [splitWhitespace, if_pos (by decide), if_neg (by simpa [codes] using hne)]
  simp

/-- The last word. -/
theorem splitWhitespace_last {w : List Byte} (h : Plain w) (hne : w ≠ []) :
    splitWhitespace [] (codes w) = [codes w] := by
  have := splitWhitespace_plain h [] []
  simp only [List.append_nil, List.nil_append] at this
  rw [this, splitWhitespace, if_neg (by simpa [codes] using hne)]

/-! ## Decimal numbers -/

/-- ASCII digits. -/
def Digits (l : List Byte) : Prop := ∀ b ∈ l, 48 ≤ b.toNat ∧ b.toNat ≤ 57

theorem Digits.plain {l : List Byte} (h : Digits l) : Plain l := fun b hb => by have := h b hb; omega

theorem ofNat_toNat_lt {n : Nat} (h : n < 256) : (BitVec.ofNat 8 n).toNat = n := by
  rw [BitVec.toNat_ofNat]; exact Nat.mod_eq_of_lt h

theorem decimal_digits (n : Nat) : Digits (decimal n) := by
  induction n using Nat.strongRecOn with
  | ind n ih =>
    unfold decimal
    split
    · intro b hb
      simp only [List.mem_singleton] at hb
      subst hb
      rw [ofNat_toNat_lt (by omega)]; omega
    · intro b hb
      rcases List.mem_append.1 hb with hb | hb
      · exact ih (n / 10) (by omega) b hb
      · simp only [List.mem_singleton] at hb
        subst hb
        rw [ofNat_toNat_lt (by omega)]; omega

theorem decimal_ne_nil (n : Nat) : decimal n ≠ [] := by
  unfold decimal
  split <;> simp

theorem decimal_length {k : Nat} : ∀ {n : Nat}, n < 10 ^ (k + 1) → (decimal n).length ≤ k + 1 := by
  induction k with
  | zero =>
    intro n h
    unfold decimal
    rw [if_pos (by simpa using h)]; simp
  | succ k ih =>
    intro n h
    unfold decimal
    split
    · simp
    · have := ih (n := n / 10) (by rw [Nat.pow_succ] at h; omega)
      simp; omega

theorem parseDigits_append {lim : Nat} {a b : List Nat} {acc : Nat} :
    parseDigits lim acc (a ++ b) = (parseDigits lim acc a).bind fun x => parseDigits lim x b := by
  induction a generalizing acc with
  | nil => rfl
  | cons c a ih =>
    simp only [List.cons_append, parseDigits]
    split
    · split
      · split
        · exact ih
        · rfl
      · rfl
    · rfl

theorem parseDigits_decimal {lim : Nat} (n : Nat) (h : n < lim) : parseDigits lim 0 (codes (decimal n)) = some n := by
  induction n using Nat.strongRecOn with
  | ind n ih =>
    unfold decimal
    split
    · simp only [codes_cons, codes_nil, parseDigits]
      rw [ofNat_toNat_lt (by omega), if_pos (by omega), if_pos (by omega), if_pos (by omega)]
      congr 1; omega
    · rw [codes_append, parseDigits_append, ih (n / 10) (by omega) (by omega)]
      simp only [Option.bind_some, codes_cons, codes_nil, parseDigits]
      rw [ofNat_toNat_lt (by omega), if_pos (by omega), if_pos (by omega), if_pos (by omega)]
      congr 1; omega

/-- Parsing a number that was printed. -/
theorem parseUint_decimal {lim n : Nat} (h : n < lim) : parseUint lim (codes (decimal n)) = some n := by
  have hd := decimal_digits n
  have hp := parseDigits_decimal n h
  have hne := decimal_ne_nil n
  generalize decimal n = l at hd hp hne
  cases l with
  | nil => exact absurd rfl hne
  | cons b l =>
    have hb := hd b (by simp)
    unfold parseUint
    split
    · rename_i h; simp at h
    · rename_i h; simp only [codes_cons, List.cons.injEq] at h; omega
    · rename_i h; simp only [codes_cons, List.cons.injEq] at h; omega
    · exact hp

/-! ## Hexadecimal -/

theorem hexDigit_spec : ∀ n : Fin 16, hexVal (hexDigit n.val).toNat = some n.val ∧ 33 ≤ (hexDigit n.val).toNat ∧ (hexDigit n.val).toNat < 127 := by
  decide

theorem hexEncode_plain (l : List Byte) : Plain (hexEncode l) := by
  intro b hb
  unfold hexEncode at hb
  simp only [List.mem_flatMap, List.mem_cons, List.not_mem_nil, or_false] at hb
  obtain ⟨a, _, rfl | rfl⟩ := hb
  · exact (hexDigit_spec ⟨a.toNat / 16, by have := a.isLt; omega⟩).2
  · exact (hexDigit_spec ⟨a.toNat % 16, by omega⟩).2

theorem hexEncode_length (l : List Byte) : (hexEncode l).length = 2 * l.length := by
  unfold hexEncode
  induction l with
  | nil => rfl
  | cons a l ih => simp only [List.flatMap_cons, List.length_append, ih, List.length_cons, List.length_nil]; omega

theorem hexDecode_encode (l : List Byte) : hexDecode (codes (hexEncode l)) = some l := by
  induction l with
  | nil => rfl
  | cons a l ih =>
    have h1 := (hexDigit_spec ⟨a.toNat / 16, by have := a.isLt; omega⟩).1
    have h2 := (hexDigit_spec ⟨a.toNat % 16, by omega⟩).1
    have : codes (hexEncode (a :: l)) = (hexDigit (a.toNat / 16)).toNat :: (hexDigit (a.toNat % 16)).toNat :: codes (hexEncode l) := rfl
    rw [this, hexDecode, h1, h2, ih]
    simp only [Option.some.injEq, List.cons.injEq, and_true]
    apply BitVec.eq_of_toNat_eq
    rw [BitVec.toNat_ofNat]
    have := a.isLt
    omega

theorem hexDecodeTo_encode {n : Nat} (b : Bytes n) : hexDecodeTo n (codes (hexEncode b.val)) = .ok b := by
  unfold hexDecodeTo
  rw [hexDecode_encode]
  simp only
  rw [dif_pos b.property]

end Verif
