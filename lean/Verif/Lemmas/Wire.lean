import Verif.Spec.WireSpec
import Verif.Lemmas.Protobuf
import Verif.Lemmas.TextExact

/-! # The decoder reads the wire format -/

namespace Verif.Wire
open Pb (unvarintGo unvarint unkey skipGroup skipField)

theorem Base128.length {l : List Byte} {n : Nat} (h : Base128 l n) : 1 ≤ l.length := by
  cases h <;> simp

theorem unvarintGo_iff : ∀ (l : List Byte) (count n : Nat) (rest : List Byte), count ≤ 9 →
    (unvarintGo count l = some (n, rest) ↔
      ∃ pre, l = pre ++ rest ∧ Base128 pre n ∧ count + pre.length ≤ 10 ∧ n < 2 ^ (64 - 7 * count)) := by
  intro l
  induction l with
  | nil =>
    intro count n rest hc
    simp only [unvarintGo, reduceCtorEq, false_iff]
    rintro ⟨pre, h, hb, _⟩
    have := hb.length
    have := congrArg List.length h
    simp at this
    omega
  | cons b l ih =>
    intro count n rest hc
    rw [unvarintGo]
    by_cases hb : b.toNat < 128
    · rw [if_pos hb]
      have key : (∃ pre, b :: l = pre ++ rest ∧ Base128 pre n ∧ count + pre.length ≤ 10 ∧ n < 2 ^ (64 - 7 * count)) ↔
          b.toNat = n ∧ l = rest ∧ n < 2 ^ (64 - 7 * count) := by
        constructor
        · rintro ⟨pre, h, hp, hl, hn⟩
          cases hp with
          | last _ =>
            simp only [List.cons_append, List.nil_append, List.cons.injEq] at h
            obtain ⟨rfl, rfl⟩ := h
            exact ⟨rfl, rfl, hn⟩
          | more h1 _ =>
            simp only [List.cons_append, List.cons.injEq] at h
            obtain ⟨rfl, _⟩ := h
            omega
        · rintro ⟨rfl, rfl, hn⟩
          exact ⟨[b], rfl, .last hb, by simp; omega, hn⟩
      rw [key]
      have hsmall : b.toNat < 2 ^ (64 - 7 * count) ↔ ¬ (count = 9 ∧ 2 ≤ b.toNat) := by
        by_cases h9 : count = 9
        · subst h9
          simp only [true_and, Nat.not_le]
        · have h1 : 2 ^ 8 ≤ 2 ^ (64 - 7 * count) := Nat.pow_le_pow_right (by decide) (by omega)
          constructor
          · rintro _ ⟨h, _⟩; exact h9 h
          · intro _; omega
      by_cases h9 : count = 9 ∧ 2 ≤ b.toNat
      · rw [if_pos h9]
        simp only [reduceCtorEq, false_iff]
        rintro ⟨rfl, _, hn⟩
        exact hsmall.1 hn h9
      · rw [if_neg h9]
        simp only [Option.some.injEq, Prod.mk.injEq]
        constructor
        · rintro ⟨rfl, rfl⟩; exact ⟨rfl, rfl, hsmall.2 h9⟩
        · rintro ⟨rfl, rfl, _⟩; exact ⟨rfl, rfl⟩
    · rw [if_neg hb]
      by_cases h9 : count = 9
      · rw [if_pos h9]
        simp only [reduceCtorEq, false_iff]
        rintro ⟨pre, h, hp, hl, hn⟩
        cases hp with
        | last h1 =>
          simp only [List.cons_append, List.nil_append, List.cons.injEq] at h
          obtain ⟨rfl, _⟩ := h
          exact hb h1
        | more _ h2 =>
          have := h2.length
          simp only [List.length_cons] at hl
          omega
      · rw [if_neg h9]
        have hpow : 2 ^ (64 - 7 * count) = 128 * 2 ^ (64 - 7 * (count + 1)) := by
          rw [show 64 - 7 * count = 7 + (64 - 7 * (count + 1)) by omega, Nat.pow_add]
        simp only [Option.map_eq_some_iff, Prod.exists, Prod.mk.injEq]
        constructor
        · rintro ⟨m, r, h1, rfl, rfl⟩
          obtain ⟨pre, rfl, hp, hl, hn⟩ := (ih (count + 1) m r (by omega)).1 h1
          refine ⟨b :: pre, rfl, ?_, by simp only [List.length_cons]; omega, ?_⟩
          · rw [show m * 128 + (b.toNat - 128) = b.toNat - 128 + 128 * m by omega]
            exact .more (by omega) hp
          · have := b.isLt
            omega
        · rintro ⟨pre, h, hp, hl, hn⟩
          cases hp with
          | last h1 =>
            simp only [List.cons_append, List.nil_append, List.cons.injEq] at h
            obtain ⟨rfl, _⟩ := h
            exact absurd h1 hb
          | @more b' l' m h1 h2 =>
            simp only [List.cons_append, List.cons.injEq] at h
            obtain ⟨rfl, rfl⟩ := h
            refine ⟨m, rest, (ih (count + 1) m rest (by omega)).2 ⟨l', rfl, h2, ?_, by omega⟩, by omega, rfl⟩
            simp only [List.length_cons] at hl
            omega

theorem unvarint_iff {l : List Byte} {n : Nat} {rest : List Byte} :
    unvarint l = some (n, rest) ↔ ∃ pre, l = pre ++ rest ∧ Varint pre n := by
  unfold unvarint Varint
  rw [unvarintGo_iff l 0 n rest (by decide)]
  constructor
  · rintro ⟨pre, h1, h2, h3, h4⟩; exact ⟨pre, h1, h2, by omega, h4⟩
  · rintro ⟨pre, h1, h2, h3, h4⟩; exact ⟨pre, h1, h2, by omega, h4⟩

theorem Varint.pos {l : List Byte} {n : Nat} (h : Varint l n) : 1 ≤ l.length := h.1.length

theorem unkey_iff {l : List Byte} {num wire : Nat} {rest : List Byte} :
    unkey l = some (num, wire, rest) ↔ ∃ k, l = k ++ rest ∧ Key k num wire := by
  unfold unkey
  cases hv : unvarint l with
  | none =>
    simp only [reduceCtorEq, false_iff]
    rintro ⟨k, hk, h1, _⟩
    rw [unvarint_iff.2 ⟨k, hk, h1⟩] at hv
    cases hv
  | some x =>
    obtain ⟨n, r⟩ := x
    obtain ⟨pre, hl, hn⟩ := unvarint_iff.1 hv
    have key : ∀ k, l = k ++ rest → Key k num wire → n = 8 * num + wire ∧ r = rest := by
      rintro k hk ⟨h1, _⟩
      have h2 := unvarint_iff.2 ⟨k, hk, h1⟩
      rw [hv] at h2
      simp only [Option.some.injEq, Prod.mk.injEq] at h2
      exact h2
    dsimp only
    by_cases h1 : 2 ^ 32 ≤ n
    · rw [if_pos h1]
      simp only [reduceCtorEq, false_iff]
      rintro ⟨k, hk, hkey⟩
      obtain ⟨rfl, _⟩ := key k hk hkey
      have := hkey.2.2.2
      omega
    · rw [if_neg h1]
      by_cases h2 : 5 < n % 8
      · rw [if_pos h2]
        simp only [reduceCtorEq, false_iff]
        rintro ⟨k, hk, hkey⟩
        obtain ⟨rfl, _⟩ := key k hk hkey
        have := hkey.2.1
        omega
      · rw [if_neg h2]
        by_cases h3 : n / 8 = 0
        · rw [if_pos h3]
          simp only [reduceCtorEq, false_iff]
          rintro ⟨k, hk, hkey⟩
          obtain ⟨rfl, _⟩ := key k hk hkey
          have := hkey.2.1
          have := hkey.2.2.1
          omega
        · rw [if_neg h3]
          simp only [Option.some.injEq, Prod.mk.injEq]
          constructor
          · rintro ⟨rfl, rfl, rfl⟩
            refine ⟨pre, hl, ?_, by omega, by omega, by omega⟩
            rw [show 8 * (n / 8) + n % 8 = n by omega]
            exact hn
          · rintro ⟨k, hk, hkey⟩
            obtain ⟨rfl, rfl⟩ := key k hk hkey
            have := hkey.2.1
            exact ⟨by omega, by omega, rfl⟩

theorem Key.pos {l : List Byte} {n t : Nat} (h : Key l n t) : 1 ≤ l.length := h.1.pos

theorem Key.ne_nil {l : List Byte} {n t : Nat} (h : Key l n t) : l ≠ [] := by
  have := h.pos
  intro h0; rw [h0] at this; simp at this

/-! ## Skipping -/

theorem skipGroup_iff {skip : Nat → Nat → List Byte → Option (List Byte)} {P : Nat → List Byte → Data → Prop}
    (hskip : ∀ wire num l rest, skip wire num l = some rest ↔ ∃ p x, l = p ++ rest ∧ x.type = wire ∧ P num p x) (num : Nat) :
    ∀ (fuel : Nat) (l rest : List Byte), l.length ≤ fuel →
      (skipGroup skip num fuel l = some rest ↔ ∃ body es last, FieldsOf P body es ∧ Key last num 4 ∧ l = body ++ last ++ rest) := by
  intro fuel
  induction fuel with
  | zero =>
    intro l rest hl
    simp only [skipGroup, reduceCtorEq, false_iff]
    rintro ⟨body, es, last, _, hk, rfl⟩
    have := hk.pos
    simp only [List.length_append] at hl
    omega
  | succ fuel ih =>
    intro l rest hl
    rw [skipGroup]
    cases hu : unkey l with
    | none =>
      simp only [reduceCtorEq, false_iff]
      rintro ⟨body, es, last, hf, hk, rfl⟩
      cases hf with
      | nil =>
        rw [unkey_iff.2 ⟨last, (rfl : [] ++ last ++ rest = last ++ rest), hk⟩] at hu
        cases hu
      | @cons k p l' num' x es' h1 h2 h3 =>
        rw [show unkey (k ++ p ++ l' ++ last ++ rest) = some (num', x.type, p ++ (l' ++ (last ++ rest))) from
          unkey_iff.2 ⟨k, by simp only [List.append_assoc], h1⟩] at hu
        cases hu
    | some y =>
      obtain ⟨num', wire, r⟩ := y
      obtain ⟨k, rfl, hk⟩ := unkey_iff.1 hu
      dsimp only
      -- the reading of the key is the one of the specification
      have nilcase : ∀ last, Key last num 4 → k ++ r = last ++ rest → num' = num ∧ wire = 4 ∧ r = rest := by
        intro last h1 h2
        have := unkey_iff.2 ⟨last, h2, h1⟩
        rw [hu] at this
        simpa using this
      have conscase : ∀ {k' p l' : List Byte} {n : Nat} {x : Data} {last : List Byte}, Key k' n x.type →
          k ++ r = (k' ++ p ++ l') ++ last ++ rest → num' = n ∧ wire = x.type ∧ r = p ++ l' ++ last ++ rest := by
        intro k' p l' n x last h1 h2
        have : unkey (k ++ r) = some (n, x.type, p ++ l' ++ last ++ rest) :=
          unkey_iff.2 ⟨k', by rw [h2]; simp only [List.append_assoc], h1⟩
        rw [hu] at this
        simpa using this
      by_cases hw : wire = 4
      · rw [if_pos hw]
        by_cases hn : num' = num
        · rw [if_pos hn]
          subst hn hw
          constructor
          · intro h; cases h
            exact ⟨[], [], k, .nil, hk, rfl⟩
          · rintro ⟨body, es, last, hf, hkl, he⟩
            cases hf with
            | nil => rw [(nilcase last hkl he).2.2]
            | @cons k' p l' n x es' h1 h2 h3 =>
              have := (conscase h1 he).2.1
              cases x <;> simp [Data.type] at this
        · rw [if_neg hn]
          simp only [reduceCtorEq, false_iff]
          rintro ⟨body, es, last, hf, hkl, he⟩
          cases hf with
          | nil => exact hn (nilcase last hkl he).1
          | @cons k' p l' n x es' h1 h2 h3 =>
            have := (conscase h1 he).2.1
            rw [hw] at this
            cases x <;> simp [Data.type] at this
      · rw [if_neg hw]
        have hkl := hk.pos
        simp only [List.length_append] at hl
        cases hs : skip wire num' r with
        | none =>
          simp only [reduceCtorEq, false_iff]
          rintro ⟨body, es, last, hf, hkl, he⟩
          cases hf with
          | nil => exact hw (nilcase last hkl he).2.1
          | @cons k' p l' n x es' h1 h2 h3 =>
            obtain ⟨rfl, rfl, rfl⟩ := conscase h1 he
            rw [(hskip _ _ _ (l' ++ last ++ rest)).2 ⟨p, x, by simp only [List.append_assoc], rfl, h2⟩] at hs
            cases hs
        | some r' =>
          obtain ⟨p, x, rfl, rfl, hp⟩ := (hskip _ _ _ _).1 hs
          dsimp only
          rw [ih r' rest (by simp only [List.length_append] at hl; omega)]
          constructor
          · rintro ⟨body, es, last, hf, hkl, rfl⟩
            exact ⟨k ++ p ++ body, ⟨num', x⟩ :: es, last, .cons hk hp hf, hkl, by simp only [List.append_assoc]⟩
          · rintro ⟨body, es, last, hf, hkl, he⟩
            cases hf with
            | nil => exact absurd (nilcase last hkl he).2.1 hw
            | @cons k' p' l' n y es' h1 h2 h3 =>
              obtain ⟨e1, e2, e3⟩ := conscase h1 he
              have := (hskip x.type num' (p ++ r') (l' ++ last ++ rest)).2 ⟨p', y, by rw [e3]; simp only [List.append_assoc], e2.symm, by rw [e1]; exact h2⟩
              rw [hs] at this
              exact ⟨l', es', last, h3, hkl, Option.some.inj this⟩

theorem unvarint_none {l : List Byte} (h : unvarint l = none) : ¬ ∃ pre rest n, l = pre ++ rest ∧ Varint pre n := by
  rintro ⟨pre, rest, n, hl, hv⟩
  rw [unvarint_iff.2 ⟨pre, hl, hv⟩] at h
  cases h

theorem skipField_iff : ∀ (depth wire num : Nat) (l rest : List Byte),
    (skipField depth wire num l = some rest ↔ ∃ p x, l = p ++ rest ∧ x.type = wire ∧ depth ≠ 0 ∧ Payload depth num p x) := by
  intro depth
  induction depth with
  | zero =>
    intro wire num l rest
    simp [skipField]
  | succ depth ih =>
    intro wire num l rest
    -- split by wire type
    have other : ∀ w, (∀ x : Data, x.type ≠ w) → (¬ ∃ p x, l = p ++ rest ∧ x.type = w ∧ depth + 1 ≠ 0 ∧ Payload (depth + 1) num p x) := by
      rintro w hw ⟨p, x, _, h, _⟩
      exact hw x h
    match wire with
    | 0 =>
      simp only [skipField, Option.map_eq_some_iff]
      constructor
      · rintro ⟨⟨n, r⟩, h, rfl⟩
        obtain ⟨pre, rfl, hv⟩ := unvarint_iff.1 h
        exact ⟨pre, .varint n, rfl, rfl, by omega, by unfold Payload; exact hv⟩
      · rintro ⟨p, x, rfl, ht, _, hp⟩
        cases x <;> simp [Data.type] at ht
        rename_i n
        unfold Payload at hp
        exact ⟨(n, rest), unvarint_iff.2 ⟨p, rfl, hp⟩, rfl⟩
    | 1 =>
      simp only [skipField]
      constructor
      · intro h
        split at h
        · rename_i h8
          cases h
          exact ⟨l.take 8, .fixed64 (l.take 8), by simp, rfl, by omega, by unfold Payload; exact ⟨rfl, by simp; omega⟩⟩
        · cases h
      · rintro ⟨p, x, rfl, ht, _, hp⟩
        cases x <;> simp [Data.type] at ht
        unfold Payload at hp
        obtain ⟨rfl, h8⟩ := hp
        rw [if_pos (by simp [h8]), ← h8, List.drop_left]
    | 2 =>
      simp only [skipField]
      cases hv : unvarint l with
      | none =>
        simp only [reduceCtorEq, false_iff]
        rintro ⟨p, x, rfl, ht, _, hp⟩
        cases x <;> simp [Data.type] at ht
        unfold Payload at hp
        obtain ⟨len, h1, rfl⟩ := hp
        exact unvarint_none hv ⟨len, _, _, by rw [List.append_assoc], h1⟩
      | some y =>
        obtain ⟨n, r⟩ := y
        obtain ⟨pre, rfl, hn⟩ := unvarint_iff.1 hv
        dsimp only
        constructor
        · intro h
          split at h
          · rename_i hr
            cases h
            refine ⟨pre ++ r.take n, .bytes (r.take n), by rw [List.append_assoc, List.take_append_drop], rfl, by omega, ?_⟩
            unfold Payload
            exact ⟨pre, by rw [List.length_take, Nat.min_eq_left hr]; exact hn, rfl⟩
          · cases h
        · rintro ⟨p, x, he, ht, _, hp⟩
          cases x <;> simp [Data.type] at ht
          rename_i b
          unfold Payload at hp
          obtain ⟨len, h1, rfl⟩ := hp
          have : unvarint (pre ++ r) = some (b.length, b ++ rest) := unvarint_iff.2 ⟨len, by rw [he, List.append_assoc], h1⟩
          rw [hv] at this
          simp only [Option.some.injEq, Prod.mk.injEq] at this
          obtain ⟨rfl, rfl⟩ := this
          rw [if_pos (by simp), List.drop_left]
    | 3 =>
      simp only [skipField]
      rw [skipGroup_iff (P := fun n q y => depth ≠ 0 ∧ Payload depth n q y) (fun w n l r => ih w n l r) num l.length l rest (Nat.le_refl _)]
      constructor
      · rintro ⟨body, es, last, h1, h2, rfl⟩
        refine ⟨body ++ last, .group, rfl, rfl, by omega, ?_⟩
        unfold Payload
        exact ⟨body, es, last, h1, h2, rfl⟩
      · rintro ⟨p, x, rfl, ht, _, hp⟩
        cases x <;> simp [Data.type] at ht
        unfold Payload at hp
        obtain ⟨body, es, last, h1, h2, rfl⟩ := hp
        exact ⟨body, es, last, h1, h2, rfl⟩
    | 4 =>
      simp only [skipField, reduceCtorEq, false_iff]
      exact other 4 (by intro x; cases x <;> simp [Data.type])
    | 5 =>
      simp only [skipField]
      constructor
      · intro h
        split at h
        · rename_i h8
          cases h
          exact ⟨l.take 4, .fixed32 (l.take 4), by simp, rfl, by omega, by unfold Payload; exact ⟨rfl, by simp; omega⟩⟩
        · cases h
      · rintro ⟨p, x, rfl, ht, _, hp⟩
        cases x <;> simp [Data.type] at ht
        unfold Payload at hp
        obtain ⟨rfl, h8⟩ := hp
        rw [if_pos (by simp [h8]), ← h8, List.drop_left]
    | w + 6 =>
      simp only [skipField, reduceCtorEq, false_iff]
      exact other _ (by intro x; cases x <;> simp [Data.type] <;> omega)

/-! ## Types -/

/-- The codec reads contents of the type `T`, changing values as `R` says. -/
structure Reads (c : Pb.Codec) (T : Ty) (R : Nat → Pb.Val → Data → Pb.Val → Prop) (need : Nat) : Prop where
  merge : ∀ {d v l v' rest}, need ≤ d → c.Ok v →
    (c.merge d v l = some (v', rest) ↔ ∃ p x, l = p ++ rest ∧ x.type = c.wire ∧ (∀ num, Payload d num p x) ∧ R d v x v')
  type : ∀ {d v x}, need ≤ d → c.Ok v → ((∃ v', R d v x v') ↔ T d x)
  wire : ∀ {d x}, T d x → x.type = c.wire
  notGroup : c.wire ≠ 3

theorem Reads.mono {c : Pb.Codec} {T : Ty} {R : Nat → Pb.Val → Data → Pb.Val → Prop} {m n : Nat} (h : Reads c T R m) (hmn : m ≤ n) : Reads c T R n where
  merge := fun hd hv => h.merge (Nat.le_trans hmn hd) hv
  type := fun hd hv => h.type (Nat.le_trans hmn hd) hv
  wire := h.wire
  notGroup := h.notGroup

/-- A number. -/
def numR (f : Nat → Nat) (_ : Nat) (_ : Pb.Val) (x : Data) (v' : Pb.Val) : Prop := ∃ n, x = .varint n ∧ v' = .num (f n)

theorem reads_num {c : Pb.Codec} {T : Ty} (f : Nat → Nat) (hm : c.merge = fun _ _ l => (unvarint l).map (fun x => (.num (f x.1), x.2)))
    (hw : c.wire = 0) (hT : T = fun _ x => ∃ n, x = .varint n) : Reads c T (numR f) 0 where
  merge := by
    intro d v l v' rest _ _
    rw [hm, hw]
    simp only [Option.map_eq_some_iff, Prod.exists, Prod.mk.injEq]
    constructor
    · rintro ⟨n, r, h, rfl, rfl⟩
      obtain ⟨pre, rfl, hv⟩ := unvarint_iff.1 h
      exact ⟨pre, .varint n, rfl, rfl, fun _ => by unfold Payload; exact hv, n, rfl, rfl⟩
    · rintro ⟨p, x, rfl, _, hp, n, rfl, rfl⟩
      have := hp 0
      unfold Payload at this
      exact ⟨n, rest, unvarint_iff.2 ⟨p, rfl, this⟩, rfl, rfl⟩
  type := by
    intro d v x _ _
    rw [hT]
    unfold numR
    constructor
    · rintro ⟨_, n, h, _⟩; exact ⟨n, h⟩
    · rintro ⟨n, h⟩; exact ⟨_, n, h, rfl⟩
  wire := by
    intro d x h
    rw [hT] at h
    obtain ⟨n, rfl⟩ := h
    exact hw.symm
  notGroup := by rw [hw]; decide

theorem reads_uint32 : Reads Pb.uint32 uint32 (numR (· % 2 ^ 32)) 0 := reads_num _ rfl rfl rfl
theorem reads_uint64 : Reads Pb.uint64 uint64 (numR id) 0 := reads_num _ rfl rfl rfl
theorem reads_int32 {k : Nat} : Reads (Pb.int32 k) int32 (numR (· % 2 ^ 32)) 0 := reads_num _ rfl rfl rfl
theorem reads_bool : Reads Pb.bool bool (numR fun n => if n = 0 then 0 else 1) 0 := reads_num _ rfl rfl rfl

/-- Eight bytes. -/
def doubleR (_ : Nat) (_ : Pb.Val) (x : Data) (v' : Pb.Val) : Prop := ∃ b, x = .fixed64 b ∧ v' = .bytes b

theorem reads_double : Reads Pb.double double doubleR 0 where
  merge := by
    intro d v l v' rest _ _
    show (if 8 ≤ l.length then some (Pb.Val.bytes (l.take 8), l.drop 8) else none) = some (v', rest) ↔ _
    constructor
    · intro h
      split at h
      · rename_i h8
        cases h
        exact ⟨l.take 8, .fixed64 (l.take 8), by simp, rfl, fun _ => by unfold Payload; exact ⟨rfl, by simp; omega⟩, _, rfl, rfl⟩
      · cases h
    · rintro ⟨p, x, rfl, _, hp, b, rfl, rfl⟩
      have := hp 0
      unfold Payload at this
      obtain ⟨rfl, h8⟩ := this
      rw [if_pos (by simp [h8]), ← h8, List.drop_left, List.take_left]
  type := by
    intro d v x _ _
    constructor
    · rintro ⟨_, b, h, _⟩; exact ⟨b, h⟩
    · rintro ⟨b, h⟩; exact ⟨_, b, h, rfl⟩
  wire := by rintro d x ⟨b, rfl⟩; rfl
  notGroup := by decide

/-- A byte string. -/
def bytesR (_ : Nat) (_ : Pb.Val) (x : Data) (v' : Pb.Val) : Prop := ∃ b, x = .bytes b ∧ v' = .bytes b

theorem delimited_iff {l b rest : List Byte} :
    (∃ n r, unvarint l = some (n, r) ∧ n ≤ r.length ∧ b = r.take n ∧ rest = r.drop n) ↔ ∃ len, l = len ++ b ++ rest ∧ Varint len b.length := by
  constructor
  · rintro ⟨n, r, h, hn, rfl, rfl⟩
    obtain ⟨pre, rfl, hv⟩ := unvarint_iff.1 h
    exact ⟨pre, by rw [List.append_assoc, List.take_append_drop], by rw [List.length_take, Nat.min_eq_left hn]; exact hv⟩
  · rintro ⟨len, rfl, hv⟩
    exact ⟨b.length, b ++ rest, unvarint_iff.2 ⟨len, by rw [List.append_assoc], hv⟩, by simp, by rw [List.take_left], by rw [List.drop_left]⟩

theorem bytes_merge_iff {d : Nat} {v v' : Pb.Val} {l rest : List Byte} :
    Pb.bytes.merge d v l = some (v', rest) ↔ ∃ len b, l = len ++ b ++ rest ∧ Varint len b.length ∧ v' = .bytes b := by
  show (match unvarint l with
    | none => none
    | some (n, rest) => if n ≤ rest.length then some (Pb.Val.bytes (rest.take n), rest.drop n) else none) = some (v', rest) ↔ _
  constructor
  · intro h
    cases hv : unvarint l with
    | none => rw [hv] at h; cases h
    | some y =>
      obtain ⟨n, r⟩ := y
      rw [hv] at h
      dsimp only at h
      split at h
      · rename_i hn
        simp only [Option.some.injEq, Prod.mk.injEq] at h
        obtain ⟨len, h1, h2⟩ := delimited_iff.1 ⟨n, r, hv, hn, rfl, h.2.symm⟩
        exact ⟨len, _, h1, h2, h.1.symm⟩
      · cases h
  · rintro ⟨len, b, h1, h2, rfl⟩
    obtain ⟨n, r, h3, h4, h5, h6⟩ := delimited_iff.2 ⟨len, h1, h2⟩
    rw [h3]
    dsimp only
    rw [if_pos h4, h5, h6]

theorem reads_bytes : Reads Pb.bytes bytes bytesR 0 where
  merge := by
    intro d v l v' rest _ _
    rw [bytes_merge_iff]
    constructor
    · rintro ⟨len, b, rfl, hv, rfl⟩
      exact ⟨len ++ b, .bytes b, rfl, rfl, fun _ => by unfold Payload; exact ⟨len, hv, rfl⟩, b, rfl, rfl⟩
    · rintro ⟨p, x, rfl, _, hp, b, rfl, rfl⟩
      have := hp 0
      unfold Payload at this
      obtain ⟨len, hv, rfl⟩ := this
      exact ⟨len, b, rfl, hv, rfl⟩
  type := by
    intro d v x _ _
    constructor
    · rintro ⟨_, b, h, _⟩; exact ⟨b, h⟩
    · rintro ⟨b, h⟩; exact ⟨_, b, h, rfl⟩
  wire := by rintro d x ⟨b, rfl⟩; rfl
  notGroup := by decide

/-- A text. -/
def stringR (_ : Nat) (_ : Pb.Val) (x : Data) (v' : Pb.Val) : Prop := ∃ b s, x = .bytes b ∧ Utf8Of b s ∧ v' = .bytes b

theorem utf8_isSome {b : List Byte} : (utf8 b).isSome = true ↔ ∃ s, Utf8Of b s := by
  rw [Option.isSome_iff_exists]
  constructor
  · rintro ⟨a, h⟩
    obtain ⟨s, hs, _⟩ := utf8_iff.1 h
    exact ⟨s, hs⟩
  · rintro ⟨s, hs⟩
    exact ⟨_, utf8_iff.2 ⟨s, hs, rfl⟩⟩

theorem reads_string : Reads Pb.string string stringR 0 where
  merge := by
    intro d v l v' rest _ _
    show (match Pb.bytes.merge d v l with
      | some (.bytes b, rest) => if (utf8 b).isSome then some (Pb.Val.bytes b, rest) else none
      | _ => none) = some (v', rest) ↔ _
    constructor
    · intro h
      split at h
      · rename_i b r hm
        split at h
        · rename_i hu
          cases h
          obtain ⟨len, b', rfl, hv, hb⟩ := bytes_merge_iff.1 hm
          cases hb
          obtain ⟨s, hs⟩ := utf8_isSome.1 hu
          exact ⟨len ++ b, .bytes b, rfl, rfl, fun _ => by unfold Payload; exact ⟨len, hv, rfl⟩, b, s, rfl, hs, rfl⟩
        · cases h
      · cases h
    · rintro ⟨p, x, rfl, _, hp, b, s, rfl, hs, rfl⟩
      have := hp 0
      unfold Payload at this
      obtain ⟨len, hv, rfl⟩ := this
      rw [bytes_merge_iff.2 ⟨len, b, rfl, hv, rfl⟩]
      dsimp only
      rw [if_pos (utf8_isSome.2 ⟨s, hs⟩)]
  type := by
    intro d v x _ _
    constructor
    · rintro ⟨_, b, s, h, hs, _⟩; exact ⟨b, s, h, hs⟩
    · rintro ⟨b, s, h, hs⟩; exact ⟨_, b, s, h, hs, rfl⟩
  wire := by rintro d x ⟨b, s, rfl, _⟩; rfl
  notGroup := by decide

end Verif.Wire
