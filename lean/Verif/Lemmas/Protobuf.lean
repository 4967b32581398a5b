import Verif.Model.Protobuf

/-! # Lemmas about the protobuf codec: decoding inverts encoding -/

namespace Verif.Pb

theorem unvarintGo_varint (n : Nat) : ∀ (count : Nat) (rest : List Byte), count ≤ 9 → n < 2 ^ (64 - 7 * count) →
    unvarintGo count (varint n ++ rest) = some (n, rest) := by
  induction n using Nat.strongRecOn with
  | _ n ih =>
    intro count rest hc hn
    unfold varint
    by_cases h : n < 128
    · have hb : (BitVec.ofNat 8 n).toNat = n := by rw [BitVec.toNat_ofNat]; exact Nat.mod_eq_of_lt (by omega)
      simp only [h, if_true, List.singleton_append, unvarintGo, hb]
      rw [if_neg]
      rintro ⟨rfl, h2⟩
      have : n < 2 := hn
      omega
    · have hb : (BitVec.ofNat 8 (n % 128 + 128)).toNat = n % 128 + 128 := by
        rw [BitVec.toNat_ofNat]; exact Nat.mod_eq_of_lt (by omega)
      have hc9 : count ≠ 9 := by
        rintro rfl
        have : n < 2 := hn
        omega
      simp only [h, if_false, List.cons_append, unvarintGo, hb, show ¬ (n % 128 + 128 < 128) by omega, hc9]
      rw [ih (n / 128) (Nat.div_lt_self (by omega) (by decide)) (count + 1) rest (by omega) ?_]
      · simp only [Option.map_some, Option.some.injEq, Prod.mk.injEq, and_true]
        omega
      · have e : 64 - 7 * count = (64 - 7 * (count + 1)) + 7 := by omega
        rw [e, Nat.pow_add] at hn
        exact Nat.div_lt_of_lt_mul (by rw [Nat.mul_comm]; exact hn)

theorem unvarint_varint {n : Nat} (h : n < 2 ^ 64) (rest : List Byte) : unvarint (varint n ++ rest) = some (n, rest) :=
  unvarintGo_varint n 0 rest (by decide) h

theorem unvarintGo_lt (l : List Byte) : ∀ (count : Nat) (n : Nat) (rest : List Byte), count ≤ 9 →
    unvarintGo count l = some (n, rest) → n < 2 ^ (64 - 7 * count) := by
  induction l with
  | nil => intro _ _ _ _ h; cases h
  | cons b l ih =>
    intro count n rest hc h
    unfold unvarintGo at h
    split at h
    · split at h
      · cases h
      · cases h
        rename_i h1 h2
        by_cases h9 : count = 9
        · subst h9
          have h3 : ¬ 2 ≤ b.toNat := fun h3 => h2 ⟨rfl, h3⟩
          show b.toNat < 2
          omega
        · exact Nat.lt_of_lt_of_le (show b.toNat < 2 ^ 7 from h1) (Nat.pow_le_pow_right (by decide) (by omega))
    · split at h
      · cases h
      · rename_i h1 h9
        rw [Option.map_eq_some_iff] at h
        obtain ⟨⟨m, r⟩, h2, h3⟩ := h
        rw [Prod.mk.injEq] at h3
        obtain ⟨h3, rfl⟩ := h3
        dsimp only at h3
        have := ih (count + 1) m r (by omega) h2
        have hb := b.isLt
        have e : 64 - 7 * count = (64 - 7 * (count + 1)) + 7 := by omega
        rw [e, Nat.pow_add, ← h3]
        generalize 2 ^ (64 - 7 * (count + 1)) = P at *
        omega

theorem unvarint_lt {l rest : List Byte} {n : Nat} (h : unvarint l = some (n, rest)) : n < 2 ^ 64 :=
  unvarintGo_lt l 0 n rest (by decide) h

theorem varint_ne_nil (n : Nat) : varint n ≠ [] := by
  unfold varint; split <;> simp

theorem varint_pos (n : Nat) : 1 ≤ (varint n).length := by
  unfold varint; split <;> simp

theorem unkey_key {num wire : Nat} (h1 : 1 ≤ num) (h2 : num < 2 ^ 29) (hw : wire ≤ 5) (rest : List Byte) :
    unkey (key num wire ++ rest) = some (num, wire, rest) := by
  unfold unkey key
  rw [unvarint_varint (by omega)]
  dsimp only
  rw [if_neg (by omega), if_neg (by omega), if_neg (by omega)]
  congr 2
  · omega
  · congr 1; omega

/-- What the proofs need of a codec. -/
structure Codec.Lawful (c : Codec) (need : Nat) : Prop where
  wire : c.wire ≤ 5
  present : ∀ {v}, c.Ok v → v ≠ .absent
  default_ok : c.Ok c.default
  merge_ok : ∀ {d v l v' rest}, c.Ok v → c.merge d v l = some (v', rest) → c.Ok v'
  round : ∀ {d v} (rest : List Byte), need ≤ d → c.Ok v → (c.enc v).length < 2 ^ 64 → c.merge d c.default (c.enc v ++ rest) = some (v, rest)

theorem uint32_lawful : uint32.Lawful 0 where
  wire := by decide
  present := by rintro _ ⟨n, rfl, _⟩ h; cases h
  default_ok := ⟨0, rfl, by decide⟩
  merge_ok := by
    intro d v l v' rest _ h
    simp only [uint32, Option.map_eq_some_iff] at h
    obtain ⟨x, _, h⟩ := h
    cases h
    exact ⟨_, rfl, Nat.mod_lt _ (by decide)⟩
  round := by
    rintro d _ rest _ ⟨n, rfl, hn⟩ _
    simp only [uint32]
    rw [unvarint_varint (by omega)]
    simp only [Option.map_some, Nat.mod_eq_of_lt hn]

theorem uint64_lawful : uint64.Lawful 0 where
  wire := by decide
  present := by rintro _ ⟨n, rfl, _⟩ h; cases h
  default_ok := ⟨0, rfl, by decide⟩
  merge_ok := by
    intro d v l v' rest _ h
    simp only [uint64, Option.map_eq_some_iff] at h
    obtain ⟨x, hx, h⟩ := h
    cases h
    exact ⟨_, rfl, unvarint_lt hx⟩
  round := by
    rintro d _ rest _ ⟨n, rfl, hn⟩ _
    simp only [uint64]
    rw [unvarint_varint hn]
    rfl

theorem int32_lawful {k : Nat} (hk : k < 2 ^ 32) : (int32 k).Lawful 0 where
  wire := Nat.zero_le _
  present := by rintro _ ⟨n, rfl, _⟩ h; cases h
  default_ok := ⟨k, rfl, hk⟩
  merge_ok := by
    intro d v l v' rest _ h
    simp only [int32, Option.map_eq_some_iff] at h
    obtain ⟨x, _, h⟩ := h
    cases h
    exact ⟨_, rfl, Nat.mod_lt _ (by decide)⟩
  round := by
    rintro d _ rest _ ⟨n, rfl, hn⟩ _
    simp only [int32]
    rw [unvarint_varint (by split <;> omega)]
    simp only [Option.map_some]
    congr 3
    split <;> omega

theorem bool_lawful : bool.Lawful 0 where
  wire := by decide
  present := by rintro _ ⟨n, rfl, _⟩ h; cases h
  default_ok := ⟨0, rfl, by decide⟩
  merge_ok := by
    intro d v l v' rest _ h
    simp only [bool, Option.map_eq_some_iff] at h
    obtain ⟨x, _, h⟩ := h
    cases h
    exact ⟨_, rfl, by split <;> decide⟩
  round := by
    rintro d _ rest _ ⟨n, rfl, hn⟩ _
    simp only [bool]
    rw [unvarint_varint (by omega)]
    simp only [Option.map_some]
    congr 3
    split <;> omega

theorem double_lawful : double.Lawful 0 where
  wire := by decide
  present := by rintro _ ⟨n, rfl, _⟩ h; cases h
  default_ok := ⟨_, rfl, by simp⟩
  merge_ok := by
    intro d v l v' rest _ h
    simp only [double] at h
    split at h
    · cases h
      exact ⟨_, rfl, by rw [List.length_take]; omega⟩
    · cases h
  round := by
    rintro d _ rest _ ⟨b, rfl, hb⟩ _
    simp only [double, List.length_append, hb]
    rw [if_pos (by omega), List.take_left' hb, List.drop_left' hb]

theorem bytes_lawful : bytes.Lawful 0 where
  wire := by decide
  present := by rintro _ ⟨n, rfl⟩ h; cases h
  default_ok := ⟨_, rfl⟩
  merge_ok := by
    intro d v l v' rest _ h
    simp only [bytes] at h
    split at h
    · cases h
    · split at h
      · cases h; exact ⟨_, rfl⟩
      · cases h
  round := by
    rintro d _ rest _ ⟨b, rfl⟩ hl
    simp only [bytes, List.length_append] at hl ⊢
    rw [List.append_assoc, unvarint_varint (by omega)]
    dsimp only
    rw [if_pos (by rw [List.length_append]; omega), List.take_left, List.drop_left]

theorem string_lawful : string.Lawful 0 where
  wire := by decide
  present := by rintro _ ⟨n, rfl, _⟩ h; cases h
  default_ok := ⟨_, rfl, by decide⟩
  merge_ok := by
    intro d v l v' rest _ h
    simp only [string] at h
    split at h
    · split at h
      · rename_i hu
        cases h
        exact ⟨_, rfl, hu⟩
      · cases h
    · cases h
  round := by
    rintro d _ rest hd ⟨b, rfl, hu⟩ hl
    have := bytes_lawful.round (d := d) (v := .bytes b) rest hd ⟨b, rfl⟩ hl
    simp only [string]
    rw [show bytes.merge d (.bytes []) (bytes.enc (.bytes b) ++ rest) = some (.bytes b, rest) from this]
    dsimp only
    rw [if_pos hu]

/-! ## Messages -/

/-- Conditions on the fields of a message. -/
structure FieldsOk (fs : List Field) (need : Nat) : Prop where
  nums : fs.Pairwise (fun a b => a.num ≠ b.num)
  range : ∀ f ∈ fs, 1 ≤ f.num ∧ f.num < 2 ^ 29
  lawful : ∀ f ∈ fs, f.codec.Lawful need

theorem Field.default_ok {f : Field} {need : Nat} (h : f.codec.Lawful need) : f.Ok f.default := by
  unfold Field.Ok Field.default
  cases f.card with
  | required => exact h.default_ok
  | optional => exact .inl rfl
  | repeated => exact ⟨[], rfl, by simp⟩

theorem Field.merge_ok {f : Field} {need : Nat} (h : f.codec.Lawful need) {d w : Nat} {v v' : Val} {l rest : List Byte} (hv : f.Ok v)
    (hm : f.merge d w v l = some (v', rest)) : f.Ok v' := by
  unfold Field.merge at hm
  unfold Field.Ok at hv ⊢
  split at hm
  · cases hm
  · cases hc : f.card with
    | required => rw [hc] at hm hv; exact h.merge_ok hv hm
    | optional =>
      rw [hc] at hm hv
      refine .inr ?_
      have : f.codec.Ok v' := by
        rcases hv with rfl | ⟨hne, hv⟩
        · exact h.merge_ok h.default_ok hm
        · cases v with
          | absent => exact absurd rfl hne
          | _ => exact h.merge_ok hv hm
      exact ⟨h.present this, this⟩
    | repeated =>
      rw [hc] at hm hv
      obtain ⟨xs, rfl, hxs⟩ := hv
      dsimp only at hm
      cases hx : f.codec.merge d f.codec.default l with
      | none => rw [hx] at hm; cases hm
      | some p =>
        obtain ⟨x, r⟩ := p
        rw [hx] at hm
        cases hm
        refine ⟨_, rfl, ?_⟩
        intro y hy
        rcases List.mem_append.1 hy with hy | hy
        · exact hxs y hy
        · rw [List.mem_singleton] at hy
          subst hy
          exact h.merge_ok h.default_ok hx

/-- The values of a record. -/
def RecOk (fs : List Field) (vs : List Val) : Prop := vs.length = fs.length ∧ ∀ x ∈ fs.zip vs, x.1.Ok x.2

theorem RecOk.get {fs : List Field} {vs : List Val} (h : RecOk fs vs) {i : Nat} {f : Field} {v : Val} (hf : fs[i]? = some f)
    (hv : vs[i]? = some v) : f.Ok v := by
  apply h.2 (f, v)
  rw [List.mem_iff_getElem?]
  exact ⟨i, by rw [List.getElem?_zip_eq_some]; exact ⟨hf, hv⟩⟩

theorem RecOk.of_get {fs : List Field} {vs : List Val} (hl : vs.length = fs.length)
    (h : ∀ (i : Nat) (f : Field) (v : Val), fs[i]? = some f → vs[i]? = some v → f.Ok v) : RecOk fs vs := by
  refine ⟨hl, ?_⟩
  rintro ⟨f, v⟩ hx
  obtain ⟨i, hi⟩ := List.mem_iff_getElem?.1 hx
  rw [List.getElem?_zip_eq_some] at hi
  exact h i f v hi.1 hi.2

theorem RecOk.default {fs : List Field} {need : Nat} (h : FieldsOk fs need) : RecOk fs (fs.map Field.default) := by
  refine .of_get (by simp) ?_
  intro i f v hf hv
  rw [List.getElem?_map, hf] at hv
  cases hv
  exact Field.default_ok (h.lawful f (List.mem_of_getElem? hf))

theorem RecOk.mergeField {fs : List Field} {need : Nat} (h : FieldsOk fs need) {d num wire : Nat} {vs vs' : List Val} {l rest : List Byte}
    (hv : RecOk fs vs) (hm : mergeField fs d num wire vs l = some (vs', rest)) : RecOk fs vs' := by
  unfold Pb.mergeField at hm
  split at hm
  · rw [Option.map_eq_some_iff] at hm
    obtain ⟨_, _, hm⟩ := hm
    cases hm
    exact hv
  · rename_i i _
    split at hm
    · rename_i f v hf hgv
      rw [Option.map_eq_some_iff] at hm
      obtain ⟨⟨x, r⟩, hx, hm⟩ := hm
      cases hm
      refine .of_get (by rw [List.length_set]; exact hv.1) ?_
      intro j f' v' hf' hv'
      rw [List.getElem?_set] at hv'
      split at hv'
      · rename_i hij
        subst hij
        split at hv'
        · cases hv'
          rw [hf] at hf'; cases hf'
          exact Field.merge_ok (h.lawful f (List.mem_of_getElem? hf)) (hv.get hf hgv) hx
        · cases hv'
      · exact hv.get hf' hv'
    · cases hm

theorem RecOk.mergeLoop {fs : List Field} {need : Nat} (h : FieldsOk fs need) {d : Nat} : ∀ (fuel : Nat) {vs vs' : List Val} {l : List Byte},
    RecOk fs vs → mergeLoop fs d fuel vs l = some vs' → RecOk fs vs' := by
  intro fuel
  induction fuel with
  | zero =>
    intro vs vs' l hv hm
    cases l with
    | nil => unfold Pb.mergeLoop at hm; cases hm; exact hv
    | cons => unfold Pb.mergeLoop at hm; cases hm
  | succ fuel ih =>
    intro vs vs' l hv hm
    cases l with
    | nil => unfold Pb.mergeLoop at hm; cases hm; exact hv
    | cons b l =>
      unfold Pb.mergeLoop at hm
      split at hm
      · cases hm
      · split at hm
        · cases hm
        · rename_i hx
          exact ih (RecOk.mergeField h hv hx) hm

/-- `findIdx?` finds the field itself. -/
theorem findIdx_num {pre post : List Field} {f : Field} (h : (pre ++ f :: post).Pairwise (fun a b => a.num ≠ b.num)) :
    (pre ++ f :: post).findIdx? (fun g => g.num == f.num) = some pre.length := by
  rw [List.findIdx?_append]
  have h1 : pre.findIdx? (fun g => g.num == f.num) = none := by
    rw [List.findIdx?_eq_none_iff]
    intro g hg
    have := (List.pairwise_append.1 h).2.2 g hg f (by simp)
    simpa using this
  rw [h1, List.findIdx?_cons]
  simp

theorem mergeLoop_succ {fs : List Field} {d fuel : Nat} {vs : List Val} {l : List Byte} (h : l ≠ []) :
    mergeLoop fs d (fuel + 1) vs l =
      match unkey l with
      | none => none
      | some (num, wire, rest) =>
        match mergeField fs d num wire vs rest with
        | none => none
        | some (vs, rest) => mergeLoop fs d fuel vs rest := by
  cases l with
  | nil => exact absurd rfl h
  | cons b l =>
    rw [mergeLoop]
    · rfl
    · exact h

theorem Field.enc_required {f : Field} (h : f.card = .required) (v : Val) : f.enc v = key f.num f.codec.wire ++ f.codec.enc v := by
  unfold Field.enc; rw [h]

theorem Field.enc_optional {f : Field} (h : f.card = .optional) {v : Val} (hv : v ≠ .absent) :
    f.enc v = key f.num f.codec.wire ++ f.codec.enc v := by
  unfold Field.enc; rw [h]
  cases v with
  | absent => exact absurd rfl hv
  | _ => rfl

theorem Field.enc_absent {f : Field} (h : f.card = .optional) : f.enc .absent = [] := by
  unfold Field.enc; rw [h]

theorem Field.enc_repeated {f : Field} (h : f.card = .repeated) (l : List Val) :
    f.enc (.list l) = l.flatMap (fun v => key f.num f.codec.wire ++ f.codec.enc v) := by
  unfold Field.enc; rw [h]

/-- One field, then the rest. -/
theorem mergeLoop_step {fs pre post : List Field} {f : Field} (hfs : fs = pre ++ f :: post) {need : Nat} (h : FieldsOk fs need)
    {d fuel : Nat} {vpre vpost : List Val} {v v' : Val} (hl : vpre.length = pre.length) {x rest : List Byte}
    (hm : f.merge d f.codec.wire v (x ++ rest) = some (v', rest))
    (hfuel : (key f.num f.codec.wire ++ x ++ rest).length ≤ fuel) :
    mergeLoop fs d fuel (vpre ++ v :: vpost) (key f.num f.codec.wire ++ x ++ rest) =
      mergeLoop fs d (fuel - 1) (vpre ++ v' :: vpost) rest := by
  have hk : 1 ≤ (key f.num f.codec.wire).length := varint_pos _
  rw [List.length_append, List.length_append] at hfuel
  obtain ⟨fuel, rfl⟩ : ∃ n, fuel = n + 1 := ⟨fuel - 1, by omega⟩
  have hf : f ∈ fs := by rw [hfs]; simp
  have hb : key f.num f.codec.wire ++ x ++ rest ≠ [] := by
    intro h0
    have := congrArg List.length h0
    simp only [List.length_append, List.length_nil] at this
    omega
  rw [mergeLoop_succ hb, List.append_assoc, unkey_key (h.range f hf).1 (h.range f hf).2 (h.lawful f hf).wire]
  dsimp only
  have hmf : mergeField fs d f.num f.codec.wire (vpre ++ v :: vpost) (x ++ rest) = some (vpre ++ v' :: vpost, rest) := by
    unfold mergeField
    have hn := h.nums
    rw [hfs] at hn ⊢
    rw [findIdx_num hn]
    dsimp only
    rw [List.getElem?_append_right (Nat.le_refl _), Nat.sub_self, ← hl, List.getElem?_append_right (Nat.le_refl _), Nat.sub_self]
    simp only [List.getElem?_cons_zero, hm, Option.map_some]
    rw [List.set_append_right _ _ (Nat.le_refl _), Nat.sub_self, List.set_cons_zero]
  rw [hmf]
  rfl

theorem mergeLoop_encode {fs : List Field} {need : Nat} (h : FieldsOk fs need) {d : Nat} (hd : need ≤ d) :
    ∀ (post : List Field) (pre : List Field) (vpre vpost : List Val) (fuel : Nat), fs = pre ++ post → vpre.length = pre.length →
      RecOk post vpost → (encodeFields post vpost).length < 2 ^ 64 → (encodeFields post vpost).length ≤ fuel →
      mergeLoop fs d fuel (vpre ++ post.map Field.default) (encodeFields post vpost) = some (vpre ++ vpost) := by
  intro post
  induction post with
  | nil =>
    intro pre vpre vpost fuel hfs hl hok _ _
    have : vpost = [] := List.length_eq_zero_iff.1 hok.1
    subst this
    simp only [encodeFields, List.map_nil]
    cases fuel <;> rfl
  | cons f post ih =>
    intro pre vpre vpost fuel hfs hl hok hlt hfuel
    cases vpost with
    | nil => simp [RecOk] at hok
    | cons v vpost =>
      have hf : f ∈ fs := by rw [hfs]; simp
      have hlaw := h.lawful f hf
      have hv : f.Ok v := hok.get (i := 0) rfl rfl
      have hok' : RecOk post vpost := ⟨by simpa using hok.1, fun x hx => hok.2 x (by simp [hx])⟩
      have hrest : ∀ (vpre' : List Val) (fuel : Nat), vpre'.length = pre.length + 1 → (encodeFields post vpost).length ≤ fuel →
          mergeLoop fs d fuel (vpre' ++ post.map Field.default) (encodeFields post vpost) = some (vpre' ++ vpost) := by
        intro vpre' fuel h1 h2
        refine ih (pre ++ [f]) vpre' vpost fuel (by rw [hfs]; simp) (by simpa using h1) hok' ?_ h2
        simp only [encodeFields, List.length_append] at hlt
        omega
      rw [List.map_cons]
      simp only [encodeFields] at hlt hfuel ⊢
      have hcons : ∀ (w : Val), vpre ++ w :: post.map Field.default = (vpre ++ [w]) ++ post.map Field.default := by intro w; simp
      have hcons' : vpre ++ v :: vpost = (vpre ++ [v]) ++ vpost := by simp
      have hk : 1 ≤ (key f.num f.codec.wire).length := varint_pos _
      unfold Field.Ok at hv
      cases hcard : f.card with
      | required =>
        rw [hcard] at hv
        rw [Field.enc_required hcard] at hlt hfuel ⊢
        simp only at hv
        have hdef : f.default = f.codec.default := by unfold Field.default; rw [hcard]
        simp only [List.length_append] at hlt hfuel
        rw [mergeLoop_step hfs h hl (v' := v) ?_ (by simp only [List.length_append]; omega), hcons, hrest _ _ (by simp [hl]) (by omega),
          ← hcons']
        unfold Field.merge
        rw [if_neg (by simp), hcard, hdef]
        exact hlaw.round _ hd hv (by omega)
      | optional =>
        rw [hcard] at hv
        simp only at hv
        have hdef : f.default = .absent := by unfold Field.default; rw [hcard]
        by_cases hva : v = .absent
        · subst hva
          rw [Field.enc_absent hcard] at hfuel ⊢
          rw [List.nil_append] at hfuel ⊢
          rw [hdef, hcons, hrest _ _ (by simp [hl]) hfuel, ← hcons']
        · obtain ⟨_, hv⟩ := hv.resolve_left hva
          rw [Field.enc_optional hcard hva] at hlt hfuel ⊢
          simp only [List.length_append] at hlt hfuel
          rw [mergeLoop_step hfs h hl (v' := v) ?_ (by simp only [List.length_append]; omega), hcons, hrest _ _ (by simp [hl]) (by omega),
            ← hcons']
          unfold Field.merge
          rw [if_neg (by simp), hcard, hdef]
          exact hlaw.round _ hd hv (by omega)
      | repeated =>
        rw [hcard] at hv
        have hdef : f.default = .list [] := by unfold Field.default; rw [hcard]
        obtain ⟨l, rfl, hl'⟩ := hv
        rw [Field.enc_repeated hcard] at hlt hfuel ⊢
        simp only [List.length_append] at hlt hfuel
        rw [hdef]
        have loop : ∀ (l done : List Val) (fuel : Nat), (∀ x ∈ l, f.codec.Ok x) →
            (l.flatMap (fun v => key f.num f.codec.wire ++ f.codec.enc v)).length < 2 ^ 64 →
            (l.flatMap (fun v => key f.num f.codec.wire ++ f.codec.enc v)).length + (encodeFields post vpost).length ≤ fuel →
            mergeLoop fs d fuel (vpre ++ .list done :: post.map Field.default)
              (l.flatMap (fun v => key f.num f.codec.wire ++ f.codec.enc v) ++ encodeFields post vpost) =
              some (vpre ++ .list (done ++ l) :: vpost) := by
          intro l
          induction l with
          | nil =>
            intro done fuel _ _ h2
            simp only [List.flatMap_nil, List.nil_append, List.append_nil, List.length_nil, Nat.zero_add] at h2 ⊢
            rw [hcons, hrest _ _ (by simp [hl]) h2]
            simp
          | cons x l ih2 =>
            intro done fuel hx h1 h2
            simp only [List.flatMap_cons, List.length_append] at h1 h2
            rw [List.flatMap_cons, List.append_assoc]
            rw [mergeLoop_step hfs h hl (v' := .list (done ++ [x])) ?_ (by simp only [List.length_append]; omega),
              ih2 (done ++ [x]) _ (fun y hy => hx y (by simp [hy])) (by omega) (by omega)]
            · simp
            · unfold Field.merge
              rw [if_neg (by simp), hcard]
              dsimp only
              rw [hlaw.round _ hd (hx x (by simp)) (by omega)]
        have := loop l [] fuel hl' (by omega) hfuel
        simpa using this

theorem message_lawful {fs : List Field} {need : Nat} (h : FieldsOk fs need) : (message fs).Lawful (need + 1) where
  wire := (by decide : 2 ≤ 5)
  present := by rintro _ ⟨vs, rfl, _⟩ h; cases h
  default_ok := ⟨_, rfl, RecOk.default h⟩
  merge_ok := by
    rintro d _ l v' rest ⟨vs, rfl, hv⟩ hm
    simp only [message] at hm
    cases d with
    | zero => cases hm
    | succ d =>
      dsimp only at hm
      split at hm
      · cases hm
      · split at hm
        · rw [Option.map_eq_some_iff] at hm
          obtain ⟨vs', hm, h2⟩ := hm
          cases h2
          exact ⟨_, rfl, RecOk.mergeLoop h _ hv hm⟩
        · cases hm
  round := by
    rintro d _ rest hd ⟨vs, rfl, hv⟩ hl
    cases d with
    | zero => omega
    | succ d =>
      simp only [message, List.length_append] at hl ⊢
      rw [List.append_assoc, unvarint_varint (by omega)]
      dsimp only
      rw [if_pos (by rw [List.length_append]; omega), List.take_left, List.drop_left]
      have := mergeLoop_encode h (d := d) (by omega) fs [] [] vs (encodeFields fs vs).length (by simp) rfl hv (by omega) (Nat.le_refl _)
      simp only [List.nil_append] at this
      rw [this]
      rfl

theorem Codec.Lawful.mono {c : Codec} {m n : Nat} (h : c.Lawful m) (hmn : m ≤ n) : c.Lawful n :=
  { h with round := fun rest hd => h.round rest (Nat.le_trans hmn hd) }

end Verif.Pb
