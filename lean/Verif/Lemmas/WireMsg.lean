import Verif.Lemmas.Wire
import Verif.Lemmas.Prost

/-! # Messages: the decoder reads the fields of the wire format -/

namespace Verif.Wire
open Pb (unvarintGo unvarint unkey skipGroup skipField mergeField mergeLoop)

/-- A field with its type and how it changes values. -/
structure Sem where
  f : Pb.Field
  T : Ty
  R : Nat → Pb.Val → Data → Pb.Val → Prop

/-- How a field of a message changes its value. -/
def Sem.Upd (s : Sem) (d : Nat) (v : Pb.Val) (x : Data) (v' : Pb.Val) : Prop :=
  match s.f.card with
  | .required => s.R d v x v'
  | .optional =>
    match v with
    | .absent => s.R d s.f.codec.default x v'
    | v => s.R d v x v'
  | .repeated => ∃ y xs, s.R d s.f.codec.default x y ∧ v = .list xs ∧ v' = .list (xs ++ [y])

/-- A field is merged into the values. -/
inductive Step (ss : List Sem) (d : Nat) (vs : List Pb.Val) (e : Elem) : List Pb.Val → Prop
  | skip : (∀ s ∈ ss, s.f.num ≠ e.num) → Step ss d vs e vs
  | field {i : Nat} {s : Sem} {v v' : Pb.Val} : ss[i]? = some s → s.f.num = e.num → vs[i]? = some v → s.Upd d v e.data v' →
    Step ss d vs e (vs.set i v')

/-- The fields are merged into the values, in order. -/
inductive Steps (ss : List Sem) (d : Nat) : List Pb.Val → List Elem → List Pb.Val → Prop
  | nil {vs : List Pb.Val} : Steps ss d vs [] vs
  | cons {vs vs' vs'' : List Pb.Val} {e : Elem} {es : List Elem} : Step ss d vs e vs' → Steps ss d vs' es vs'' → Steps ss d vs (e :: es) vs''

theorem Steps.trans {ss : List Sem} {d : Nat} {vs vs' vs'' : List Pb.Val} {es es' : List Elem} (h : Steps ss d vs es vs') (h' : Steps ss d vs' es' vs'') :
    Steps ss d vs (es ++ es') vs'' := by
  induction h with
  | nil => exact h'
  | cons h1 _ ih => exact .cons h1 (ih h')

/-- The fields of a message and their types. -/
structure Describes (ss : List Sem) (fs : List Pb.Field) (table : List (Nat × Ty)) (need : Nat) : Prop where
  fields : fs = ss.map Sem.f
  table : table = ss.map fun s => (s.f.num, s.T)
  ok : Pb.FieldsOk fs need
  reads : ∀ s ∈ ss, Reads s.f.codec s.T s.R need
  pos : 1 ≤ need

theorem payload_plain {d num p} {x : Data} (hx : x.type ≠ 3) (h : Payload d num p x) (num' : Nat) : Payload d num' p x := by
  cases x with
  | group => exact absurd rfl hx
  | _ => unfold Payload at h ⊢; exact h

section
variable {ss : List Sem} {fs : List Pb.Field} {table : List (Nat × Ty)} {need : Nat}

theorem Sem.field_iff {s : Sem} (h : Reads s.f.codec s.T s.R need) (hlaw : s.f.codec.Lawful need) {d num wire : Nat} (hd : need ≤ d) {v v' : Pb.Val}
    (hv : s.f.Ok v) {l rest : List Byte} :
    s.f.merge d wire v l = some (v', rest) ↔ ∃ p x, l = p ++ rest ∧ x.type = wire ∧ Payload d num p x ∧ s.Upd d v x v' := by
  -- the merge of the codec
  have key : ∀ {v v' : Pb.Val}, s.f.codec.Ok v → (wire = s.f.codec.wire ∧ s.f.codec.merge d v l = some (v', rest) ↔
      ∃ p x, l = p ++ rest ∧ x.type = wire ∧ Payload d num p x ∧ s.R d v x v') := by
    intro v v' hv
    rw [h.merge hd hv]
    constructor
    · rintro ⟨rfl, p, x, h1, h2, h3, h4⟩
      exact ⟨p, x, h1, h2, h3 num, h4⟩
    · rintro ⟨p, x, h1, h2, h3, h4⟩
      have hw := h.wire ((h.type hd hv).1 ⟨_, h4⟩)
      exact ⟨by rw [← h2, hw], p, x, h1, hw, payload_plain (by rw [hw]; exact h.notGroup) h3, h4⟩
  unfold Pb.Field.merge Sem.Upd
  unfold Pb.Field.Ok at hv
  cases hc : s.f.card with
  | required =>
    rw [hc] at hv
    dsimp only at hv ⊢
    rw [← key hv]
    by_cases hw : wire = s.f.codec.wire
    · simp [hw]
    · simp [hw]
  | optional =>
    rw [hc] at hv
    dsimp only at hv ⊢
    by_cases ha : v = .absent
    · subst ha
      dsimp only
      rw [← key hlaw.default_ok]
      by_cases hw : wire = s.f.codec.wire
      · simp [hw]
      · simp [hw]
    · have hok : s.f.codec.Ok v := by
        rcases hv with hv | hv
        · exact absurd hv ha
        · exact hv.2
      have k := key (v' := v') hok
      by_cases hw : wire = s.f.codec.wire
      · rw [if_neg (by simp [hw])]
        simp only [hw, true_and] at k
        cases v with
        | absent => exact absurd rfl ha
        | num n => rw [hw]; exact k
        | bytes b => rw [hw]; exact k
        | list b => rw [hw]; exact k
      · rw [if_pos hw]
        simp only [hw, false_and, false_iff] at k
        cases v with
        | absent => exact absurd rfl ha
        | num n => simpa using k
        | bytes b => simpa using k
        | list b => simpa using k
  | repeated =>
    rw [hc] at hv
    obtain ⟨xs, rfl, _⟩ := hv
    dsimp only
    have k : ∀ y, _ := fun y => key (v' := y) hlaw.default_ok
    constructor
    · intro hm
      by_cases hw : wire = s.f.codec.wire
      · rw [if_neg (by simp [hw])] at hm
        cases hx : s.f.codec.merge d s.f.codec.default l with
        | none => rw [hx] at hm; cases hm
        | some z =>
          obtain ⟨y, r⟩ := z
          rw [hx] at hm
          simp only [Option.some.injEq, Prod.mk.injEq] at hm
          obtain ⟨rfl, rfl⟩ := hm
          obtain ⟨p, x, h1, h2, h3, h4⟩ := (k y).1 ⟨hw, hx⟩
          exact ⟨p, x, h1, h2, h3, y, xs, h4, rfl, rfl⟩
      · rw [if_pos hw] at hm; cases hm
    · rintro ⟨p, x, h1, h2, h3, y, xs', h4, hxs, rfl⟩
      cases hxs
      obtain ⟨hw, hx⟩ := (k y).2 ⟨p, x, h1, h2, h3, h4⟩
      rw [if_neg (by simp [hw]), hx]

theorem Sem.upd_type {s : Sem} (h : Reads s.f.codec s.T s.R need) (hlaw : s.f.codec.Lawful need) {d : Nat} (hd : need ≤ d) {v : Pb.Val} {x : Data}
    (hv : s.f.Ok v) : (∃ v', s.Upd d v x v') ↔ s.T d x := by
  unfold Sem.Upd
  unfold Pb.Field.Ok at hv
  cases hc : s.f.card with
  | required =>
    rw [hc] at hv
    exact h.type hd hv
  | optional =>
    rw [hc] at hv
    by_cases ha : v = .absent
    · subst ha
      exact h.type hd hlaw.default_ok
    · have hok : s.f.codec.Ok v := by
        rcases hv with hv | hv
        · exact absurd hv ha
        · exact hv.2
      cases v with
      | absent => exact absurd rfl ha
      | num n => exact h.type hd hok
      | bytes n => exact h.type hd hok
      | list n => exact h.type hd hok
  | repeated =>
    rw [hc] at hv
    obtain ⟨xs, rfl, _⟩ := hv
    rw [← h.type hd hlaw.default_ok]
    constructor
    · rintro ⟨_, y, _, h1, _⟩; exact ⟨y, h1⟩
    · rintro ⟨y, h1⟩; exact ⟨_, y, xs, h1, rfl, rfl⟩

theorem Describes.mem (hD : Describes ss fs table need) {s : Sem} (hs : s ∈ ss) : s.f ∈ fs := by
  rw [hD.fields]; exact List.mem_map_of_mem hs

theorem Describes.findIdx (hD : Describes ss fs table need) {i : Nat} {s : Sem} (hi : ss[i]? = some s) :
    fs.findIdx? (fun g => g.num == s.f.num) = some i := by
  have hf : fs[i]? = some s.f := by rw [hD.fields, List.getElem?_map, hi]; rfl
  obtain ⟨hlt, he⟩ := List.getElem?_eq_some_iff.1 hf
  have hsplit : fs = fs.take i ++ s.f :: fs.drop (i + 1) := by
    rw [← he]
    simp
  have hn := hD.ok.nums
  rw [hsplit] at hn
  have := Pb.findIdx_num hn
  rw [← hsplit] at this
  rw [this, List.length_take, Nat.min_eq_left (Nat.le_of_lt hlt)]

theorem Describes.num_inj (hD : Describes ss fs table need) {i j : Nat} {s t : Sem} (hi : ss[i]? = some s) (hj : ss[j]? = some t)
    (h : s.f.num = t.f.num) : i = j := by
  have h1 := hD.findIdx hi
  have h2 := hD.findIdx hj
  rw [h, h2] at h1
  exact (Option.some.inj h1).symm

theorem mergeField_iff (hD : Describes ss fs table need) {d num wire : Nat} (hd : need ≤ d) {vs vs' : List Pb.Val} (hvs : Pb.RecOk fs vs)
    {l rest : List Byte} :
    mergeField fs d num wire vs l = some (vs', rest) ↔
      ∃ p x, l = p ++ rest ∧ x.type = wire ∧ Payload d num p x ∧ Step ss d vs ⟨num, x⟩ vs' := by
  have hpos := hD.pos
  unfold mergeField
  cases hx : fs.findIdx? (fun f => f.num == num) with
  | none =>
    dsimp only
    have hno : ∀ s ∈ ss, s.f.num ≠ num := by
      intro s hs hn
      rw [List.findIdx?_eq_none_iff] at hx
      have := hx s.f (hD.mem hs)
      simp [hn] at this
    simp only [Option.map_eq_some_iff, Prod.mk.injEq]
    constructor
    · rintro ⟨r, h, rfl, rfl⟩
      obtain ⟨p, x, h1, h2, _, h4⟩ := (skipField_iff ..).1 h
      exact ⟨p, x, h1, h2, h4, .skip hno⟩
    · rintro ⟨p, x, h1, h2, h3, h4⟩
      refine ⟨rest, (skipField_iff ..).2 ⟨p, x, h1, h2, by omega, h3⟩, ?_, rfl⟩
      cases h4 with
      | skip _ => rfl
      | field hi hn _ _ => exact absurd hn (hno _ (List.mem_of_getElem? hi))
  | some i =>
    dsimp only
    obtain ⟨f, hf, _⟩ := List.findIdx?_eq_some_iff_getElem.1 hx
    have hi : ∃ s, ss[i]? = some s := by
      have : i < ss.length := by rw [hD.fields] at f; simpa using f
      exact ⟨_, List.getElem?_eq_getElem this⟩
    obtain ⟨s, hi⟩ := hi
    have hs : s ∈ ss := List.mem_of_getElem? hi
    have hfi : fs[i]? = some s.f := by rw [hD.fields, List.getElem?_map, hi]; rfl
    have hnum : s.f.num = num := by
      have h1 : fs[i]? = some fs[i] := List.getElem?_eq_getElem f
      rw [hfi] at h1
      have h2 := Option.some.inj h1
      rw [← h2] at hf
      simpa using hf
    have hv : ∃ v, vs[i]? = some v := by
      have : i < vs.length := by rw [hvs.1]; exact f
      exact ⟨_, List.getElem?_eq_getElem this⟩
    obtain ⟨v, hv⟩ := hv
    rw [hfi, hv]
    dsimp only
    have hok : s.f.Ok v := hvs.get hfi hv
    have hstep : ∀ x, Step ss d vs ⟨num, x⟩ vs' ↔ ∃ v', s.Upd d v x v' ∧ vs' = vs.set i v' := by
      intro x
      constructor
      · intro h
        cases h with
        | skip hno => exact absurd hnum (hno s hs)
        | @field j t w w' h1 h2 h3 h4 =>
          have : i = j := hD.num_inj hi h1 (by rw [hnum, h2])
          subst this
          rw [hi] at h1
          cases h1
          rw [hv] at h3
          cases h3
          exact ⟨w', h4, rfl⟩
      · rintro ⟨v', h1, rfl⟩
        exact .field hi hnum hv h1
    simp only [Option.map_eq_some_iff, Prod.exists, Prod.mk.injEq]
    constructor
    · rintro ⟨v', r, h, rfl, rfl⟩
      obtain ⟨p, x, h1, h2, h3, h4⟩ := (Sem.field_iff (hD.reads s hs) (hD.ok.lawful _ (hD.mem hs)) hd hok (num := num)).1 h
      exact ⟨p, x, h1, h2, h3, (hstep x).2 ⟨v', h4, rfl⟩⟩
    · rintro ⟨p, x, h1, h2, h3, h4⟩
      obtain ⟨v', h5, rfl⟩ := (hstep x).1 h4
      exact ⟨v', rest, (Sem.field_iff (hD.reads s hs) (hD.ok.lawful _ (hD.mem hs)) hd hok (num := num)).2 ⟨p, x, h1, h2, h3, h5⟩, rfl, rfl⟩

theorem mergeLoop_iff (hD : Describes ss fs table need) {d : Nat} (hd : need ≤ d) : ∀ (fuel : Nat) {vs vs' : List Pb.Val} {l : List Byte},
    Pb.RecOk fs vs → l.length ≤ fuel → (mergeLoop fs d fuel vs l = some vs' ↔ ∃ es, Fields d l es ∧ Steps ss d vs es vs') := by
  have nilcase : ∀ {vs vs' : List Pb.Val}, (some vs = some vs' ↔ ∃ es, Fields d [] es ∧ Steps ss d vs es vs') := by
    intro vs vs'
    constructor
    · intro h; cases h; exact ⟨[], .nil, .nil⟩
    · rintro ⟨es, h1, h2⟩
      have hgen : ∀ {l : List Byte} {es : List Elem}, FieldsOf (Payload d) l es → l = [] → es = [] := by
        intro l es h hl
        cases h with
        | nil => rfl
        | cons hk _ _ =>
          have := hk.pos
          have := congrArg List.length hl
          simp only [List.length_append, List.length_nil] at this
          omega
      have := hgen h1 rfl
      subst this
      cases h2
      rfl
  intro fuel
  induction fuel with
  | zero =>
    intro vs vs' l hvs hl
    have : l = [] := List.length_eq_zero_iff.1 (by omega)
    subst this
    rw [mergeLoop]
    exact nilcase
  | succ fuel ih =>
    intro vs vs' l hvs hl
    by_cases hnil : l = []
    · subst hnil
      rw [mergeLoop]
      exact nilcase
    · rw [Pb.mergeLoop_succ hnil]
      cases hu : unkey l with
      | none =>
        simp only [reduceCtorEq, false_iff]
        rintro ⟨es, h1, _⟩
        cases h1 with
        | nil => exact hnil rfl
        | @cons k p l' num x es' hk _ _ =>
          rw [show unkey (k ++ p ++ l') = some (num, x.type, p ++ l') from unkey_iff.2 ⟨k, by rw [List.append_assoc], hk⟩] at hu
          cases hu
      | some y =>
        obtain ⟨num, wire, r⟩ := y
        obtain ⟨k, rfl, hk⟩ := unkey_iff.1 hu
        dsimp only
        have hkp := hk.pos
        rw [List.length_append] at hl
        have conscase : ∀ {k' p l' : List Byte} {n : Nat} {x : Data}, Key k' n x.type →
            k ++ r = k' ++ p ++ l' → num = n ∧ wire = x.type ∧ r = p ++ l' := by
          intro k' p l' n x h1 h2
          have : unkey (k ++ r) = some (n, x.type, p ++ l') := unkey_iff.2 ⟨k', by rw [h2]; simp only [List.append_assoc], h1⟩
          rw [hu] at this
          simpa using this
        constructor
        · intro h
          cases hm : mergeField fs d num wire vs r with
          | none => rw [hm] at h; cases h
          | some z =>
            obtain ⟨vs1, r1⟩ := z
            rw [hm] at h
            dsimp only at h
            obtain ⟨p, x, rfl, rfl, h3, h4⟩ := (mergeField_iff hD hd hvs).1 hm
            rw [List.length_append] at hl
            obtain ⟨es, h5, h6⟩ := (ih (Pb.RecOk.mergeField hD.ok hvs hm) (by omega)).1 h
            exact ⟨⟨num, x⟩ :: es, by rw [← List.append_assoc]; exact .cons hk h3 h5, .cons h4 h6⟩
        · rintro ⟨es, h1, h2⟩
          have hgen : ∀ {l : List Byte} {es : List Elem}, FieldsOf (Payload d) l es → l = k ++ r →
              ∃ p x l' es', r = p ++ l' ∧ x.type = wire ∧ Payload d num p x ∧ FieldsOf (Payload d) l' es' ∧ es = ⟨num, x⟩ :: es' := by
            intro l es h hl
            cases h with
            | nil => exact absurd hl.symm hnil
            | @cons k' p l' n x es' q1 q2 q3 =>
              obtain ⟨rfl, rfl, rfl⟩ := conscase q1 hl.symm
              exact ⟨p, x, l', es', rfl, rfl, q2, q3, rfl⟩
          obtain ⟨p, x, l', es', rfl, hw, h3, h4, rfl⟩ := hgen h1 rfl
          cases h2 with
          | cons h5 h6 =>
            have hm := (mergeField_iff hD hd hvs).2 ⟨p, x, (rfl : p ++ l' = p ++ l'), hw, h3, h5⟩
            rw [hm]
            rw [List.length_append] at hl
            exact (ih (Pb.RecOk.mergeField hD.ok hvs hm) (by omega)).2 ⟨es', h4, h6⟩

theorem Step.ok (hD : Describes ss fs table need) {d : Nat} (hd : need ≤ d) {vs vs' : List Pb.Val} (hvs : Pb.RecOk fs vs) {num : Nat} {p : List Byte}
    {x : Data} (hp : Payload d num p x) (h : Step ss d vs ⟨num, x⟩ vs') : Pb.RecOk fs vs' :=
  Pb.RecOk.mergeField hD.ok hvs ((mergeField_iff hD hd hvs).2 ⟨p, x, (List.append_nil p).symm, rfl, hp, h⟩)

theorem step_typed (hD : Describes ss fs table need) {d : Nat} (hd : need ≤ d) {vs : List Pb.Val} (hvs : Pb.RecOk fs vs) (e : Elem) :
    (∃ vs', Step ss d vs e vs') ↔ ∀ T, (e.num, T) ∈ table → T d e.data := by
  rw [hD.table]
  constructor
  · rintro ⟨vs', h⟩ T hT
    obtain ⟨t, ht, hT⟩ := List.mem_map.1 hT
    simp only [Prod.mk.injEq] at hT
    obtain ⟨hn, rfl⟩ := hT
    cases h with
    | skip hno => exact absurd hn (hno t ht)
    | @field i s v v' hi hn' hv hu =>
      obtain ⟨j, hj⟩ := List.mem_iff_getElem?.1 ht
      have := hD.num_inj hi hj (by rw [hn', hn])
      subst this
      rw [hi] at hj
      obtain rfl := Option.some.inj hj
      have hfi : fs[i]? = some s.f := by rw [hD.fields, List.getElem?_map, hi]; rfl
      exact (Sem.upd_type (hD.reads s ht) (hD.ok.lawful _ (hD.mem ht)) hd (hvs.get hfi hv)).1 ⟨_, hu⟩
  · intro h
    by_cases hno : ∀ s ∈ ss, s.f.num ≠ e.num
    · exact ⟨vs, .skip hno⟩
    · have : ∃ s ∈ ss, s.f.num = e.num := by
        apply Classical.byContradiction
        intro hc
        exact hno fun s hs hn => hc ⟨s, hs, hn⟩
      obtain ⟨s, hs, hn⟩ := this
      obtain ⟨i, hi⟩ := List.mem_iff_getElem?.1 hs
      have hfi : fs[i]? = some s.f := by rw [hD.fields, List.getElem?_map, hi]; rfl
      have hv : ∃ v, vs[i]? = some v := by
        have h1 : i < fs.length := (List.getElem?_eq_some_iff.1 hfi).1
        have : i < vs.length := by rw [hvs.1]; exact h1
        exact ⟨_, List.getElem?_eq_getElem this⟩
      obtain ⟨v, hv⟩ := hv
      obtain ⟨v', hu⟩ := (Sem.upd_type (hD.reads s hs) (hD.ok.lawful _ (hD.mem hs)) hd (hvs.get hfi hv)).2
        (h s.T (by rw [List.mem_map]; exact ⟨s, hs, by rw [hn]⟩))
      exact ⟨_, .field hi hn hv hu⟩

theorem steps_typed (hD : Describes ss fs table need) {d : Nat} (hd : need ≤ d) {l : List Byte} {es : List Elem} (h : Fields d l es) :
    ∀ {vs : List Pb.Val}, Pb.RecOk fs vs → ((∃ vs', Steps ss d vs es vs') ↔ Typed table d es) := by
  induction h with
  | nil =>
    intro vs _
    constructor
    · intro _ e he; cases he
    · intro _; exact ⟨vs, .nil⟩
  | @cons k p l num x es hk hp _ ih =>
    intro vs hvs
    constructor
    · rintro ⟨vs', h⟩
      cases h with
      | cons h1 h2 =>
        intro e he
        rcases List.mem_cons.1 he with rfl | he
        · exact (step_typed hD hd hvs _).1 ⟨_, h1⟩
        · exact (ih (Step.ok hD hd hvs hp h1)).1 ⟨_, h2⟩ e he
    · intro h
      obtain ⟨vs1, h1⟩ := (step_typed hD hd hvs ⟨num, x⟩).2 (h _ (by simp))
      obtain ⟨vs2, h2⟩ := (ih (Step.ok hD hd hvs hp h1)).2 (fun e he => h e (by simp [he]))
      exact ⟨vs2, .cons h1 h2⟩

/-- How a message inside a field changes the values. -/
def msgR (ss : List Sem) (d : Nat) (v : Pb.Val) (x : Data) (v' : Pb.Val) : Prop :=
  ∃ b es vs vs', 1 ≤ d ∧ x = .bytes b ∧ v = .list vs ∧ v' = .list vs' ∧ Fields (d - 1) b es ∧ Steps ss (d - 1) vs es vs'

theorem reads_message (hD : Describes ss fs table need) : Reads (Pb.message fs) (message table) (msgR ss) (need + 1) where
  merge := by
    intro d v l v' rest hd hv
    obtain ⟨d, rfl⟩ : ∃ k, d = k + 1 := ⟨d - 1, by omega⟩
    obtain ⟨vs, rfl, hlen, hz⟩ := hv
    have hvs : Pb.RecOk fs vs := ⟨hlen, hz⟩
    show (match unvarint l with
      | none => none
      | some (n, rest) =>
        if n ≤ rest.length then (mergeLoop fs d n vs (rest.take n)).map (fun vs => (Pb.Val.list vs, rest.drop n)) else none) = some (v', rest) ↔ _
    constructor
    · intro h
      cases hu : unvarint l with
      | none => rw [hu] at h; cases h
      | some y =>
        obtain ⟨n, r⟩ := y
        rw [hu] at h
        dsimp only at h
        split at h
        · rename_i hn
          rw [Option.map_eq_some_iff] at h
          obtain ⟨vs', hm, h⟩ := h
          simp only [Prod.mk.injEq] at h
          obtain ⟨rfl, hr⟩ := h
          obtain ⟨len, h1, h2⟩ := delimited_iff.1 ⟨n, r, hu, hn, rfl, hr.symm⟩
          obtain ⟨es, h3, h4⟩ := (mergeLoop_iff hD (by omega) n hvs (by rw [List.length_take]; omega)).1 hm
          refine ⟨len ++ r.take n, .bytes (r.take n), h1, rfl, fun _ => ?_, ?_⟩
          · unfold Payload; exact ⟨len, h2, rfl⟩
          · exact ⟨_, es, vs, vs', by omega, rfl, rfl, rfl, h3, h4⟩
        · cases h
    · rintro ⟨p, x, rfl, _, hp, b, es, vs1, vs', _, rfl, h1, rfl, h3, h4⟩
      cases h1
      have := hp 0
      unfold Payload at this
      obtain ⟨len, h5, rfl⟩ := this
      obtain ⟨n, r, h6, h7, h8, h9⟩ := delimited_iff.2 ⟨len, (rfl : len ++ b ++ rest = len ++ b ++ rest), h5⟩
      rw [h6]
      dsimp only
      have hm := (mergeLoop_iff hD (d := d) (by omega) n hvs (by rw [h8, List.length_take]; omega)).2 ⟨es, h3, h4⟩
      rw [if_pos h7, ← h8, hm, ← h9]
      rfl
  type := by
    intro d v x hd hv
    obtain ⟨d, rfl⟩ : ∃ k, d = k + 1 := ⟨d - 1, by omega⟩
    obtain ⟨vs, rfl, hlen, hz⟩ := hv
    have hvs : Pb.RecOk fs vs := ⟨hlen, hz⟩
    show _ ↔ ∃ b es, x = .bytes b ∧ Fields d b es ∧ Typed table d es
    constructor
    · rintro ⟨_, b, es, vs1, vs', _, rfl, h1, rfl, h3, h4⟩
      cases h1
      exact ⟨b, es, rfl, h3, (steps_typed hD (by omega) h3 hvs).1 ⟨_, h4⟩⟩
    · rintro ⟨b, es, rfl, h3, h4⟩
      obtain ⟨vs', h5⟩ := (steps_typed hD (by omega) h3 hvs).2 h4
      exact ⟨_, b, es, vs, vs', by omega, rfl, rfl, rfl, h3, h5⟩
  wire := by
    intro d x h
    unfold message at h
    cases d with
    | zero => exact h.elim
    | succ d =>
      obtain ⟨b, es, rfl, _⟩ := h
      rfl
  notGroup := (by decide : 2 ≠ 3)

end

end Verif.Wire
