import Verif.Lemmas.Text
import Verif.Spec.LineGrammar

/-! # The text functions of the model, against the specification of the line grammar -/

namespace Verif

/-- Code points. -/
def points (s : List Char) : List Nat := s.map Char.toNat

@[simp] theorem points_nil : points [] = [] := rfl
@[simp] theorem points_cons (c : Char) (s : List Char) : points (c :: s) = c.toNat :: points s := rfl
@[simp] theorem points_append (a b : List Char) : points (a ++ b) = points a ++ points b := by simp [points]

theorem points_inj {a b : List Char} (h : points a = points b) : a = b :=
  List.map_inj_right (fun x y h => by
    apply Char.ext
    exact UInt32.toNat_inj.1 h) |>.1 h

theorem toNat_ofNat_valid {n : Nat} (h : n.isValidChar) : (Char.ofNat n).toNat = n := by
  rw [Char.ofNat, dif_pos h]
  rfl

/-! ## UTF-8 -/

theorem byte_eq {b : Byte} {n : Nat} (h : b.toNat = n % 256) : b = (UInt8.ofNat n).toBitVec := by
  apply BitVec.eq_of_toNat_eq
  rw [h]
  simp

theorem toNat_ofNat8 (n : Nat) : ((UInt8.ofNat n).toBitVec).toNat = n % 256 := by simp

theorem char_valid (c : Char) : c.toNat < 0xd800 ∨ (0xdfff < c.toNat ∧ c.toNat < 0x110000) := c.valid

theorem utf8Go_encode : ∀ (s : List Char) (n : Nat), ((s.flatMap String.utf8EncodeChar)).length ≤ n →
    utf8Go n ((s.flatMap String.utf8EncodeChar).map (·.toBitVec)) = some (points s) := by
  intro s
  induction s with
  | nil => intro n _; cases n <;> rfl
  | cons c s ih =>
    intro n hn
    rw [List.flatMap_cons, List.length_append] at hn
    rw [List.flatMap_cons, List.map_append]
    have hv := char_valid c
    have hdef := String.utf8EncodeChar.eq_1 c
    have hcv : c.toNat = c.val.toNat := rfl
    cases n with
    | zero =>
      rw [hdef] at hn
      exfalso
      revert hn
      split
      · simp
      · split
        · simp
        · split <;> simp
    | succ n =>
      rw [points_cons]
      rw [hcv] at hv ⊢
      clear hcv
      generalize c.val.toNat = v at hv hdef ⊢
      by_cases h1 : v ≤ 127
      · rw [if_pos h1] at hdef
        rw [hdef] at hn ⊢
        simp only [List.length_cons, List.length_nil] at hn
        simp only [List.map_cons, List.map_nil, List.cons_append, List.nil_append]
        unfold utf8Go
        rw [toNat_ofNat8, if_pos (by omega), ih n (by omega)]
        simp only [Option.map_some, Option.some.injEq, List.cons.injEq, and_true]
        omega
      rw [if_neg h1] at hdef
      by_cases h2 : v ≤ 2047
      · rw [if_pos h2] at hdef
        rw [hdef] at hn ⊢
        simp only [List.length_cons, List.length_nil] at hn
        simp only [List.map_cons, List.map_nil, List.cons_append, List.nil_append]
        unfold utf8Go
        simp only [toNat_ofNat8, isCont]
        rw [if_neg (by omega), if_pos (by omega), if_pos (by simp only [Bool.and_eq_true, decide_eq_true_eq]; omega), ih n (by omega)]
        simp only [Option.map_some, Option.some.injEq, List.cons.injEq, and_true]
        omega
      rw [if_neg h2] at hdef
      by_cases h3 : v ≤ 65535
      · rw [if_pos h3] at hdef
        rw [hdef] at hn ⊢
        simp only [List.length_cons, List.length_nil] at hn
        simp only [List.map_cons, List.map_nil, List.cons_append, List.nil_append]
        unfold utf8Go
        simp only [toNat_ofNat8, isCont]
        rw [if_neg (by omega), if_neg (by omega), if_pos (by omega), if_pos (by
          simp only [Bool.and_eq_true, Bool.not_eq_true', Bool.and_eq_false_iff, decide_eq_true_eq, decide_eq_false_iff_not]; omega), ih n (by omega)]
        simp only [Option.map_some, Option.some.injEq, List.cons.injEq, and_true]
        omega
      · rw [if_neg h3] at hdef
        rw [hdef] at hn ⊢
        simp only [List.length_cons, List.length_nil] at hn
        simp only [List.map_cons, List.map_nil, List.cons_append, List.nil_append]
        unfold utf8Go
        simp only [toNat_ofNat8, isCont]
        rw [if_neg (by omega), if_neg (by omega), if_neg (by omega), if_pos (by omega), if_pos (by
          simp only [Bool.and_eq_true, decide_eq_true_eq]; omega), ih n (by omega)]
        simp only [Option.map_some, Option.some.injEq, List.cons.injEq, and_true]
        omega

theorem encode_of {v : Nat} (hv : v.isValidChar) : String.utf8EncodeChar (Char.ofNat v) =
    if v ≤ 127 then [UInt8.ofNat v]
    else if v ≤ 2047 then [UInt8.ofNat (v / 64 % 32 + 192), UInt8.ofNat (v % 64 + 128)]
    else if v ≤ 65535 then [UInt8.ofNat (v / 4096 % 16 + 224), UInt8.ofNat (v / 64 % 64 + 128), UInt8.ofNat (v % 64 + 128)]
    else [UInt8.ofNat (v / 262144 % 8 + 240), UInt8.ofNat (v / 4096 % 64 + 128), UInt8.ofNat (v / 64 % 64 + 128),
      UInt8.ofNat (v % 64 + 128)] := by
  have h := String.utf8EncodeChar.eq_1 (Char.ofNat v)
  rw [show (Char.ofNat v).val.toNat = v from toNat_ofNat_valid hv] at h
  exact h

theorem utf8Go_decode : ∀ (n : Nat) (l : List Byte) (cs : List Nat), utf8Go n l = some cs →
    ∃ s : List Char, Utf8Of l s ∧ cs = points s := by
  intro n
  induction n with
  | zero =>
    intro l cs h
    cases l with
    | nil => simp only [utf8Go, Option.some.injEq] at h; subst h; exact ⟨[], rfl, rfl⟩
    | cons b l => simp [utf8Go] at h
  | succ n ih =>
    intro l cs h
    have step : ∀ (pre rest : List Byte) (v : Nat) (t : List Nat), v.isValidChar →
        pre = (String.utf8EncodeChar (Char.ofNat v)).map (·.toBitVec) → utf8Go n rest = some t →
        ∃ s : List Char, Utf8Of (pre ++ rest) s ∧ v :: t = points s := by
      intro pre rest v t hv hp ht
      obtain ⟨s, h1, h2⟩ := ih rest t ht
      refine ⟨Char.ofNat v :: s, ?_, ?_⟩
      · unfold Utf8Of at h1 ⊢
        rw [List.flatMap_cons, List.map_append, ← hp, ← h1]
      · rw [points_cons, toNat_ofNat_valid hv, h2]
    cases l with
    | nil => simp only [utf8Go, Option.some.injEq] at h; subst h; exact ⟨[], rfl, rfl⟩
    | cons b l =>
      have hb := b.isLt
      unfold utf8Go at h
      split at h
      · rename_i h1
        cases ht : utf8Go n l with
        | none => rw [ht] at h; cases h
        | some t =>
          rw [ht] at h
          cases h
          have hv : b.toNat.isValidChar := .inl (by omega)
          refine step [b] l b.toNat t hv ?_ ht
          rw [encode_of hv, if_pos (by omega)]
          simp only [List.map_cons, List.map_nil, List.cons.injEq, and_true]
          exact byte_eq (by omega)
      split at h
      · rename_i h1 h2
        cases l with
        | nil => cases h
        | cons c l =>
          dsimp only at h
          split at h
          · rename_i hc
            cases ht : utf8Go n l with
            | none => rw [ht] at h; cases h
            | some t =>
              rw [ht] at h
              cases h
              simp only [isCont, Bool.and_eq_true, decide_eq_true_eq] at hc
              have hv : ((b.toNat - 0xc0) * 64 + (c.toNat - 0x80)).isValidChar := .inl (by omega)
              refine step [b, c] l _ t hv ?_ ht
              rw [encode_of hv, if_neg (by omega), if_pos (by omega)]
              simp only [List.map_cons, List.map_nil, List.cons.injEq, and_true]
              exact ⟨byte_eq (by omega), byte_eq (by omega)⟩
          · cases h
      split at h
      · rename_i h1 h2 h3
        cases l with
        | nil => cases h
        | cons c l =>
          cases l with
          | nil => cases h
          | cons d l =>
            dsimp only at h
            split at h
            · rename_i hc
              cases ht : utf8Go n l with
              | none => rw [ht] at h; cases h
              | some t =>
                rw [ht] at h
                cases h
                simp only [isCont, Bool.and_eq_true, Bool.not_eq_true', Bool.and_eq_false_iff, decide_eq_true_eq, decide_eq_false_iff_not] at hc
                have hv : ((b.toNat - 0xe0) * 4096 + (c.toNat - 0x80) * 64 + (d.toNat - 0x80)).isValidChar := by
                  unfold Nat.isValidChar; omega
                refine step [b, c, d] l _ t hv ?_ ht
                rw [encode_of hv, if_neg (by omega), if_neg (by omega), if_pos (by omega)]
                simp only [List.map_cons, List.map_nil, List.cons.injEq, and_true]
                exact ⟨byte_eq (by omega), byte_eq (by omega), byte_eq (by omega)⟩
            · cases h
      split at h
      · rename_i h1 h2 h3 h4
        cases l with
        | nil => cases h
        | cons c l =>
          cases l with
          | nil => cases h
          | cons d l =>
            cases l with
            | nil => cases h
            | cons e l =>
              dsimp only at h
              split at h
              · rename_i hc
                cases ht : utf8Go n l with
                | none => rw [ht] at h; cases h
                | some t =>
                  rw [ht] at h
                  cases h
                  simp only [isCont, Bool.and_eq_true, decide_eq_true_eq] at hc
                  have hv : ((b.toNat - 0xf0) * 262144 + (c.toNat - 0x80) * 4096 + (d.toNat - 0x80) * 64 + (e.toNat - 0x80)).isValidChar := by
                    unfold Nat.isValidChar; omega
                  refine step [b, c, d, e] l _ t hv ?_ ht
                  rw [encode_of hv, if_neg (by omega), if_neg (by omega), if_neg (by omega)]
                  simp only [List.map_cons, List.map_nil, List.cons.injEq, and_true]
                  exact ⟨byte_eq (by omega), byte_eq (by omega), byte_eq (by omega), byte_eq (by omega)⟩
              · cases h
      · cases h

/-- `from_utf8` is exact. -/
theorem utf8_iff {l : List Byte} {cs : List Nat} : utf8 l = some cs ↔ ∃ s : List Char, Utf8Of l s ∧ cs = points s := by
  refine ⟨utf8Go_decode _ l cs, ?_⟩
  rintro ⟨s, h, rfl⟩
  unfold utf8
  rw [h]
  exact utf8Go_encode s _ (by rw [List.length_map]; omega)

theorem Utf8Of.unique {l : List Byte} {s s' : List Char} (h : Utf8Of l s) (h' : Utf8Of l s') : s = s' := by
  have h1 := utf8_iff.2 ⟨s, h, rfl⟩
  rw [utf8_iff.2 ⟨s', h', rfl⟩] at h1
  exact (points_inj (Option.some.inj h1)).symm

theorem strLen_points (s : List Char) : strLen (points s) = (s.flatMap String.utf8EncodeChar).length := by
  induction s with
  | nil => rfl
  | cons c s ih =>
    rw [List.flatMap_cons, List.length_append, ← ih]
    unfold strLen
    rw [points_cons, List.map_cons, List.sum_cons]
    congr 1
    rw [String.utf8EncodeChar.eq_1]
    rw [show c.toNat = c.val.toNat from rfl]
    unfold utf8Len
    generalize c.val.toNat = v
    by_cases h1 : v < 128
    · rw [if_pos h1, if_pos (show v ≤ 127 by omega)]; rfl
    · rw [if_neg h1, if_neg (show ¬ v ≤ 127 by omega)]
      by_cases h2 : v < 2048
      · rw [if_pos h2, if_pos (show v ≤ 2047 by omega)]; rfl
      · rw [if_neg h2, if_neg (show ¬ v ≤ 2047 by omega)]
        by_cases h3 : v < 65536
        · rw [if_pos h3, if_pos (show v ≤ 65535 by omega)]; rfl
        · rw [if_neg h3, if_neg (show ¬ v ≤ 65535 by omega)]; rfl

/-! ## Words -/

theorem white_iff (c : Char) : isWhitespace c.toNat = true ↔ White c := by
  unfold isWhitespace White
  generalize c.toNat = n
  simp only [Bool.or_eq_true, Bool.and_eq_true, decide_eq_true_eq, beq_iff_eq, List.mem_cons, List.not_mem_nil, or_false]
  omega

theorem splitWhitespace_words : ∀ (s cur : List Char), (∀ c ∈ cur, ¬ White c) →
    ∃ ws : List (List Char), splitWhitespace (points cur) (points s) = ws.map points ∧ Words (cur ++ s) ws := by
  intro s
  induction s with
  | nil =>
    intro cur hcur
    rw [points_nil]
    unfold splitWhitespace
    split
    · rename_i h
      have : cur = [] := points_inj h
      subst this
      exact ⟨[], rfl, .nil (by simp)⟩
    · rename_i h
      refine ⟨[cur], rfl, ?_⟩
      have := Words.cons (sep := []) (w := cur) (rest := []) (ws := []) (by simp) (by rintro rfl; exact h rfl) hcur (by simp) (.nil (by simp))
      simpa using this
  | cons c s ih =>
    intro cur hcur
    rw [points_cons]
    unfold splitWhitespace
    by_cases hw : White c
    · rw [if_pos ((white_iff c).2 hw)]
      obtain ⟨ws, h1, h2⟩ := ih [] (by simp)
      rw [points_nil] at h1
      rw [List.nil_append] at h2
      have h2' : Words (c :: s) ws := by
        cases h2 with
        | nil h => exact .nil (fun x hx => by
            rcases List.mem_cons.1 hx with rfl | hx
            · exact hw
            · exact h x hx)
        | @cons sep w rest ws hs hne hnw hr hrest =>
          have := Words.cons (sep := c :: sep) (fun x hx => by
            rcases List.mem_cons.1 hx with rfl | hx
            · exact hw
            · exact hs x hx) hne hnw hr hrest
          simpa using this
      split
      · rename_i h
        have : cur = [] := points_inj h
        subst this
        exact ⟨ws, h1, h2'⟩
      · rename_i h
        refine ⟨cur :: ws, by rw [h1]; rfl, ?_⟩
        have := Words.cons (sep := []) (w := cur) (rest := c :: s) (ws := ws) (by simp) (by rintro rfl; exact h rfl) hcur
          (fun x hx => by simp only [List.head?_cons, Option.some.injEq] at hx; subst hx; exact hw) h2'
        simpa using this
    · rw [if_neg (fun h => hw ((white_iff c).1 h))]
      obtain ⟨ws, h1, h2⟩ := ih (cur ++ [c]) (by
        intro x hx
        rcases List.mem_append.1 hx with hx | hx
        · exact hcur x hx
        · simp only [List.mem_singleton] at hx; subst hx; exact hw)
      refine ⟨ws, ?_, by simpa using h2⟩
      rw [← h1, points_append]
      rfl

/-- The words of a text are determined by it. -/
theorem Words.unique {s : List Char} {ws ws' : List (List Char)} (h : Words s ws) : Words s ws' → ws = ws' := by
  have white_pre : ∀ {a b a' b' : List Char}, (∀ c ∈ a, White c) → (∀ c ∈ a', White c) → (∀ c, b.head? = some c → ¬ White c) →
      (∀ c, b'.head? = some c → ¬ White c) → a ++ b = a' ++ b' → a = a' ∧ b = b' := by
    intro a
    induction a with
    | nil =>
      intro b a' b' _ ha' hb _ h
      cases a' with
      | nil => exact ⟨rfl, h⟩
      | cons c a' =>
        rw [List.nil_append] at h
        exact absurd (ha' c (by simp)) (hb c (by rw [h]; rfl))
    | cons x a ih =>
      intro b a' b' ha ha' hb hb' h
      cases a' with
      | nil =>
        rw [List.nil_append] at h
        exact absurd (ha x (by simp)) (hb' x (by rw [← h]; rfl))
      | cons y a' =>
        simp only [List.cons_append, List.cons.injEq] at h
        obtain ⟨rfl, h⟩ := h
        obtain ⟨rfl, rfl⟩ := ih (fun c hc => ha c (by simp [hc])) (fun c hc => ha' c (by simp [hc])) hb hb' h
        exact ⟨rfl, rfl⟩
  have black_pre : ∀ {a b a' b' : List Char}, (∀ c ∈ a, ¬ White c) → (∀ c ∈ a', ¬ White c) → (∀ c, b.head? = some c → White c) →
      (∀ c, b'.head? = some c → White c) → a ++ b = a' ++ b' → a = a' ∧ b = b' := by
    intro a
    induction a with
    | nil =>
      intro b a' b' _ ha' hb _ h
      cases a' with
      | nil => exact ⟨rfl, h⟩
      | cons c a' =>
        rw [List.nil_append] at h
        exact absurd (hb c (by rw [h]; rfl)) (ha' c (by simp))
    | cons x a ih =>
      intro b a' b' ha ha' hb hb' h
      cases a' with
      | nil =>
        rw [List.nil_append] at h
        exact absurd (hb' x (by rw [← h]; rfl)) (ha x (by simp))
      | cons y a' =>
        simp only [List.cons_append, List.cons.injEq] at h
        obtain ⟨rfl, h⟩ := h
        obtain ⟨rfl, rfl⟩ := ih (fun c hc => ha c (by simp [hc])) (fun c hc => ha' c (by simp [hc])) hb hb' h
        exact ⟨rfl, rfl⟩
  have headw : ∀ {w rest : List Char}, w ≠ [] → (∀ c ∈ w, ¬ White c) → ∀ c, (w ++ rest).head? = some c → ¬ White c := by
    intro w rest hne hw c hc
    cases w with
    | nil => exact absurd rfl hne
    | cons x w =>
      simp only [List.cons_append, List.head?_cons, Option.some.injEq] at hc
      subst hc; exact hw _ (by simp)
  induction h generalizing ws' with
  | nil hs =>
    intro h'
    generalize hsep : (‹List Char› : List Char) = t at hs h'
    cases h' with
    | nil _ => rfl
    | @cons sep w rest ws hs' hne hnw hr hrest =>
      cases w with
      | nil => exact absurd rfl hne
      | cons x w => exact absurd (hs x (by simp)) (hnw x (by simp))
  | @cons sep w rest ws hs hne hnw hr hrest ih =>
    intro h'
    generalize ht : sep ++ w ++ rest = t at h'
    cases h' with
    | nil hs' =>
      subst ht
      cases w with
      | nil => exact absurd rfl hne
      | cons x w => exact absurd (hs' x (by simp)) (hnw x (by simp))
    | @cons sep' w' rest' ws' hs' hne' hnw' hr' hrest' =>
      rw [List.append_assoc, List.append_assoc] at ht
      obtain ⟨h1, h2⟩ := white_pre hs hs' (headw hne hnw) (headw hne' hnw') ht
      obtain ⟨rfl, rfl⟩ := black_pre hnw hnw' hr hr' h2
      rw [ih hrest']

theorem splitWhitespace_iff {s : List Char} {ws : List (List Char)} :
    splitWhitespace [] (points s) = ws.map points ↔ Words s ws := by
  obtain ⟨ws0, h1, h2⟩ := splitWhitespace_words s [] (by simp)
  rw [points_nil] at h1
  rw [List.nil_append] at h2
  constructor
  · intro h
    rw [h1] at h
    have : ws0 = ws := (List.map_inj_right (fun _ _ h => points_inj h)).1 h
    exact this ▸ h2
  · intro h
    rw [h1, h2.unique h]

/-! ## Numbers -/

theorem digitChar_toNat : ∀ d : Fin 10, (Nat.digitChar d.val).toNat = 48 + d.val := by decide

theorem parseDigits_iff {lim : Nat} : ∀ (w : List Char) (acc n : Nat), acc < lim →
    (parseDigits lim acc (points w) = some n ↔
      ∃ ds : List (Fin 10), w = ds.map (fun d => Nat.digitChar d.val) ∧ n = ds.foldl (fun n d => 10 * n + d.val) acc ∧ n < lim) := by
  intro w
  induction w with
  | nil =>
    intro acc n hacc
    simp only [points_nil, parseDigits, Option.some.injEq]
    constructor
    · rintro rfl; exact ⟨[], rfl, rfl, hacc⟩
    · rintro ⟨ds, h1, rfl, _⟩
      cases ds with
      | nil => rfl
      | cons d ds => cases h1
  | cons c w ih =>
    intro acc n hacc
    have mono : ∀ (ds : List (Fin 10)) (a : Nat), a ≤ ds.foldl (fun n d => 10 * n + d.val) a := by
      intro ds
      induction ds with
      | nil => intro a; exact Nat.le_refl _
      | cons d ds ih => intro a; rw [List.foldl_cons]; exact Nat.le_trans (by omega) (ih _)
    rw [points_cons]
    unfold parseDigits
    constructor
    · intro h
      split at h
      · rename_i hc
        split at h
        · split at h
          · rename_i h2 h3
            obtain ⟨ds, rfl, hn, hl⟩ := (ih _ _ h3).1 h
            refine ⟨⟨c.toNat - 48, by omega⟩ :: ds, ?_, ?_, hl⟩
            · rw [List.map_cons]
              congr 1
              apply Char.ext
              apply UInt32.toNat_inj.1
              have := digitChar_toNat ⟨c.toNat - 48, by omega⟩
              rw [show 48 + (⟨c.toNat - 48, by omega⟩ : Fin 10).val = c.toNat by dsimp only; omega] at this
              exact this.symm
            · rw [List.foldl_cons, hn, Nat.mul_comm]
          · cases h
        · cases h
      · cases h
    · rintro ⟨ds, h1, hn, hl⟩
      cases ds with
      | nil => cases h1
      | cons d ds =>
        rw [List.map_cons, List.cons.injEq] at h1
        obtain ⟨rfl, rfl⟩ := h1
        rw [List.foldl_cons] at hn
        have h3 := mono ds (10 * acc + d.val)
        rw [digitChar_toNat]
        have hd := d.isLt
        rw [if_pos (by omega), if_pos (by omega), if_pos (by omega)]
        exact (ih _ _ (by omega)).2 ⟨ds, rfl, by rw [hn]; congr 1; omega, hl⟩

/-- `str::parse` is exact. -/
theorem parseUint_iff {lim : Nat} (hlim : 0 < lim) {w : List Char} {n : Nat} : parseUint lim (points w) = some n ↔ Number lim w n := by
  have hplus : ∀ d : Fin 10, Nat.digitChar d.val ≠ '+' := by decide
  have hp : ∀ c : Char, c.toNat = 43 → c = '+' := by
    intro c hc
    apply Char.ext
    apply UInt32.toNat_inj.1
    exact hc
  unfold Number digitsValue
  cases w with
  | nil =>
    simp only [points_nil, parseUint]
    constructor
    · intro h; cases h
    · rintro ⟨ds, hne, h | h, _⟩
      · cases ds with
        | nil => exact absurd rfl hne
        | cons d ds => cases h
      · cases h
  | cons c w =>
    by_cases hc : c = '+'
    · subst hc
      cases w with
      | nil =>
        constructor
        · intro h; cases h
        · rintro ⟨ds, hne, h | h, _⟩
          · cases ds with
            | nil => cases h
            | cons d ds =>
              rw [List.map_cons, List.cons.injEq] at h
              exact absurd h.1.symm (hplus d)
          · cases ds with
            | nil => exact absurd rfl hne
            | cons d ds => cases h
      | cons c' w =>
        have : parseUint lim (points ('+' :: c' :: w)) = parseDigits lim 0 (points (c' :: w)) := rfl
        rw [this, parseDigits_iff _ _ _ hlim]
        constructor
        · rintro ⟨ds, h1, h2, h3⟩
          refine ⟨ds, ?_, .inr (by rw [h1]), h2, h3⟩
          rintro rfl; cases h1
        · rintro ⟨ds, hne, h | h, h2, h3⟩
          · cases ds with
            | nil => cases h
            | cons d ds =>
              rw [List.map_cons, List.cons.injEq] at h
              exact absurd h.1.symm (hplus d)
          · exact ⟨ds, (List.cons.inj h).2, h2, h3⟩
    · have : parseUint lim (points (c :: w)) = parseDigits lim 0 (points (c :: w)) := by
        rw [points_cons]
        unfold parseUint
        split
        · rename_i h; cases h
        · rename_i h; exact absurd (hp c (List.cons.inj h).1) hc
        · rename_i h; exact absurd (hp c (List.cons.inj h).1) hc
        · rfl
      rw [this, parseDigits_iff _ _ _ hlim]
      constructor
      · rintro ⟨ds, h1, h2, h3⟩
        refine ⟨ds, ?_, .inl h1, h2, h3⟩
        rintro rfl; cases h1
      · rintro ⟨ds, hne, h | h, h2, h3⟩
        · exact ⟨ds, h, h2, h3⟩
        · exact absurd (List.cons.inj h).1 hc

theorem Number.unique {lim : Nat} {w : List Char} {n n' : Nat} (h : Number lim w n) (h' : Number lim w n') : n = n' := by
  have hlim : 0 < lim := by obtain ⟨_, _, _, _, h⟩ := h; omega
  have h1 := (parseUint_iff hlim).2 h
  rw [(parseUint_iff hlim).2 h'] at h1
  exact (Option.some.inj h1).symm

/-! ## Hexadecimal -/

theorem hexVal_iff {c : Char} {x : Nat} : hexVal c.toNat = some x ↔ HexDigit c x := by
  have key : ∀ x, x < 16 → hexVal (Nat.digitChar x).toNat = some x ∧ hexVal (Nat.digitChar x).toUpper.toNat = some x := by decide
  have ext : ∀ {a b : Char}, a.toNat = b.toNat → a = b := by
    intro a b h
    apply Char.ext
    exact UInt32.toNat_inj.1 h
  constructor
  · intro h
    unfold hexVal at h
    have d1 : ∀ x, x < 10 → (Nat.digitChar x).toNat = 48 + x := by decide
    have d2 : ∀ x, x < 16 → 10 ≤ x → (Nat.digitChar x).toNat = 87 + x := by decide
    have d3 : ∀ x, x < 16 → 10 ≤ x → (Nat.digitChar x).toUpper.toNat = 55 + x := by decide
    split at h
    · cases h
      exact ⟨by omega, .inl (ext (by rw [d1 _ (by omega)]; omega))⟩
    split at h
    · cases h
      exact ⟨by omega, .inl (ext (by rw [d2 _ (by omega) (by omega)]; omega))⟩
    split at h
    · cases h
      exact ⟨by omega, .inr (ext (by rw [d3 _ (by omega) (by omega)]; omega))⟩
    · cases h
  · rintro ⟨hx, rfl | rfl⟩
    · exact (key x hx).1
    · exact (key x hx).2

/-- `hex::decode` is exact. -/
theorem hexDecode_iff : ∀ {w : List Char} {l : List Byte}, hexDecode (points w) = some l ↔ HexOf w l
  | [], l => by
    simp only [points_nil, hexDecode, Option.some.injEq]
    constructor
    · rintro rfl; exact .nil
    · intro h; cases h; rfl
  | [c], l => by
    simp only [points_cons, points_nil, hexDecode]
    constructor
    · intro h; cases h
    · intro h; cases h
  | a :: b :: w, l => by
    simp only [points_cons]
    unfold hexDecode
    constructor
    · intro h
      split at h
      · rename_i x y l' h1 h2 h3
        cases h
        exact .cons (hexVal_iff.1 h1) (hexVal_iff.1 h2) (hexDecode_iff.1 h3)
      · cases h
    · intro h
      cases h with
      | cons h1 h2 h3 => rw [hexVal_iff.2 h1, hexVal_iff.2 h2, hexDecode_iff.2 h3]

theorem HexOf.length {w : List Char} {l : List Byte} (h : HexOf w l) : w.length = 2 * l.length := by
  induction h with
  | nil => rfl
  | cons _ _ _ ih => simp only [List.length_cons]; omega

theorem HexOf.size {w : List Char} {l : List Byte} (h : HexOf w l) : (w.flatMap String.utf8EncodeChar).length = 2 * l.length := by
  have key : ∀ x, x < 16 → (String.utf8EncodeChar (Nat.digitChar x)).length = 1 ∧ (String.utf8EncodeChar (Nat.digitChar x).toUpper).length = 1 := by
    decide
  have dig : ∀ {c : Char} {x : Nat}, HexDigit c x → (String.utf8EncodeChar c).length = 1 := by
    rintro c x ⟨hx, rfl | rfl⟩
    · exact (key x hx).1
    · exact (key x hx).2
  induction h with
  | nil => rfl
  | cons h1 h2 _ ih =>
    simp only [List.flatMap_cons, List.length_append, List.length_cons, dig h1, dig h2, ih]
    omega

theorem HexOf.unique {w : List Char} {l l' : List Byte} (h : HexOf w l) (h' : HexOf w l') : l = l' := by
  have h1 := hexDecode_iff.2 h
  rw [hexDecode_iff.2 h'] at h1
  exact (Option.some.inj h1).symm

end Verif
