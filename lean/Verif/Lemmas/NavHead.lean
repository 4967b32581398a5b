import Verif.Lemmas.NavStore
import Verif.Lemmas.Subframe

/-! # Lemmas: contents of the slots of the navigation data store -/

namespace Verif
open CollectSubframe (snoc_induction)

/-! ## Updates by kind -/

namespace NavKind

/-- Position of the field number `i`. -/
def off (kd : NavKind) (i : Nat) : Nat := ((kd.fields.take i).map NavField.len).sum

/-- Update of the entry of one kind by a call. -/
def upd (kd : NavKind) (c : InavCall) : Option Upd :=
  match kd with
  | .ced => NavItem.cedUpd c.word
  | .timing => NavItem.timingUpd c.word c.band

/-- Empty entry. -/
def newItem : NavKind → NavItem
  | .ced => NavItem.newCed
  | .timing => NavItem.newTiming

theorem newItem_svn (kd : NavKind) : kd.newItem.svn = none := by cases kd <;> rfl

theorem newItem_authbits (kd : NavKind) : kd.newItem.authbits = 0 := by cases kd <;> rfl

theorem type_eq (c : InavCall) : c.type = NavItem.wordType c.word := by
  simp [InavCall.type, NavItem.wordType, NavItem.wbits]

theorem fits (kd : NavKind) {c : InavCall} {u : Upd} (h : kd.upd c = some u) : u.Fits kd.nbits kd.fields.length := by
  cases kd
  · exact NavItem.cedUpd_fits h
  · exact NavItem.timingUpd_fits h

/-- A call updates the field that it carries. -/
theorem upd_some (kd : NavKind) {c : InavCall} {u : Upd} (h : kd.upd c = some u) :
    ∃ f, kd.fields[u.idx]? = some f ∧ kd.carries c f = true ∧ u.lo = kd.off u.idx ∧
      u.hi = kd.off u.idx + f.len ∧ u.src = f.bits c ∧
      ∀ i f', kd.fields[i]? = some f' → kd.carries c f' = true → i = u.idx := by
  cases kd with
  | ced =>
    simp only [upd, NavItem.cedUpd, ← type_eq] at h
    split at h <;> cases h <;> rename_i ht <;>
      exact ⟨_, rfl, by simp [carries, ht], rfl, rfl, rfl, by
        intro i f' h1 h2
        rcases i with _ | _ | _ | _ | _ | i <;> simp [fields] at h1 <;> subst h1 <;> simp_all [carries]⟩
  | timing =>
    simp only [upd, NavItem.timingUpd, ← type_eq] at h
    split at h <;> cases h <;> rename_i ht hb <;>
      exact ⟨_, rfl, by simp [carries, ht, hb], rfl, rfl, rfl, by
        intro i f' h1 h2
        rcases i with _ | _ | i <;> simp [fields] at h1 <;> subst h1 <;> simp_all [carries]⟩

theorem upd_none (kd : NavKind) {c : InavCall} (h : kd.upd c = none) : ∀ f ∈ kd.fields, kd.carries c f = false := by
  cases kd with
  | ced =>
    simp only [upd, NavItem.cedUpd, ← type_eq] at h
    split at h <;> first | cases h | skip
    simp only [fields, carries]
    simp_all
  | timing =>
    simp only [upd, NavItem.timingUpd, ← type_eq] at h
    split at h <;> first | cases h | skip
    rename_i h1 h2
    intro f hf
    simp only [fields, List.mem_cons, List.not_mem_nil, or_false] at hf
    simp only [carries, Bool.and_eq_false_iff, beq_eq_false_iff_ne, Bool.or_eq_false_iff]
    rcases hf with rfl | rfl
    · by_cases ht : c.type = 6
      · right; exact ⟨by decide, fun hb => h1 ht hb⟩
      · left; exact ht
    · by_cases ht : c.type = 10
      · right; exact ⟨by decide, fun hb => h2 ht hb⟩
      · left; exact ht

theorem off_lt (kd : NavKind) {i j : Nat} {f f' : NavField} (hi : kd.fields[i]? = some f) (hj : kd.fields[j]? = some f')
    (h : i < j) : kd.off i + f.len ≤ kd.off j := by
  cases kd
  · rcases i with _ | _ | _ | _ | _ | i <;> rcases j with _ | _ | _ | _ | _ | j <;> simp [fields] at hi hj <;>
      subst hi <;> subst hj <;> first | omega | decide
  · rcases i with _ | _ | i <;> rcases j with _ | _ | j <;> simp [fields] at hi hj <;>
      subst hi <;> subst hj <;> first | omega | decide

theorem off_le (kd : NavKind) {i : Nat} {f : NavField} (hi : kd.fields[i]? = some f) : kd.off i + f.len ≤ kd.nbits := by
  cases kd
  · rcases i with _ | _ | _ | _ | _ | i <;> simp [fields] at hi <;> subst hi <;> decide
  · rcases i with _ | _ | i <;> simp [fields] at hi <;> subst hi <;> decide

theorem latest_snoc (kd : NavKind) (p : List InavCall) (c : InavCall) (v : Svn) (f : NavField) :
    kd.latest (p ++ [c]) v f = if c.svn = v ∧ kd.carries c f = true then some c else kd.latest p v f := by
  unfold latest
  rw [List.filter_append]
  by_cases h : c.svn = v ∧ kd.carries c f = true
  · rw [if_pos h]; simp [h.1, h.2]
  · rw [if_neg h]
    have : (c.svn == v && kd.carries c f) = false := by
      rw [← Bool.not_eq_true, Bool.and_eq_true, beq_iff_eq]
      exact h
    simp [this]

theorem latestAny_snoc (kd : NavKind) (p : List InavCall) (c : InavCall) (v : Svn) :
    kd.latestAny (p ++ [c]) v = if c.svn = v ∧ kd.fields.any (fun f => kd.carries c f) = true then some c else kd.latestAny p v := by
  unfold latestAny
  rw [List.filter_append]
  by_cases h : c.svn = v ∧ kd.fields.any (fun f => kd.carries c f) = true
  · rw [if_pos h]; simp [h.1, h.2]
  · rw [if_neg h]
    have : (c.svn == v && kd.fields.any (fun f => kd.carries c f)) = false := by
      rw [← Bool.not_eq_true, Bool.and_eq_true, beq_iff_eq]
      exact h
    simp [this]

end NavKind

/-! ## Well formed items -/

/-- Sizes and ranges of an entry. -/
structure NavItem.Wf (kd : NavKind) (x : NavItem) : Prop where
  data : x.data.length = kd.nbits + 3
  age : x.age.length = kd.fields.length
  le : ∀ a ∈ x.age, a ≤ 255

/-- The bits of field number `i` of an entry. -/
def NavItem.seg (kd : NavKind) (x : NavItem) (i : Nat) (f : NavField) : List Bool := (x.data.drop (kd.off i)).take f.len

namespace NavItem

theorem wf_new (kd : NavKind) : kd.newItem.Wf kd := by
  cases kd
  · exact ⟨by simp [NavKind.newItem, newCed, new, NavKind.nbits, -List.reduceReplicate],
      by simp [NavKind.newItem, newCed, new, NavKind.fields, -List.reduceReplicate],
      by intro a ha; simp only [NavKind.newItem, newCed, new] at ha; have := List.eq_of_mem_replicate ha; omega⟩
  · exact ⟨by simp [NavKind.newItem, newTiming, new, NavKind.nbits, -List.reduceReplicate],
      by simp [NavKind.newItem, newTiming, new, NavKind.fields, -List.reduceReplicate],
      by intro a ha; simp only [NavKind.newItem, newTiming, new] at ha; have := List.eq_of_mem_replicate ha; omega⟩

theorem Wf.older {kd : NavKind} {x : NavItem} (h : x.Wf kd) : x.older.Wf kd :=
  ⟨h.data, by simp [NavItem.older, h.age], by intro a ha; simp only [NavItem.older, List.mem_map] at ha; obtain ⟨b, _, rfl⟩ := ha; omega⟩

theorem Wf.add {kd : NavKind} {x : NavItem} (h : x.Wf kd) (m : Nat) : (x.addAuthbits m).Wf kd := ⟨h.data, h.age, h.le⟩

theorem Wf.core {kd : NavKind} {x : NavItem} (h : x.Wf kd) : x.core.Wf kd := ⟨h.data, h.age, h.le⟩

theorem Wf.assign {kd : NavKind} {x : NavItem} (h : x.Wf kd) (v : Svn) : (x.assign v).Wf kd := by
  unfold NavItem.assign
  split
  · split
    · exact h
    · exact ⟨h.data, by simp [NavItem.reset, h.age], by intro a ha; simp [NavItem.reset] at ha; omega⟩
  · exact ⟨h.data, h.age, h.le⟩

theorem assign_age (x : NavItem) (v : Svn) : (x.assign v).age = x.age ∧ (x.svn = some v ∨ x.svn = none) ∨
    (x.assign v).age = x.age.map (fun _ => 255) := by
  unfold NavItem.assign
  split
  · rename_i s hs
    split
    · rename_i h; subst h; exact .inl ⟨rfl, .inl hs⟩
    · exact .inr rfl
  · rename_i hs; exact .inl ⟨rfl, .inr hs⟩

theorem assign_same {x : NavItem} {v : Svn} (h : x.svn = some v) : x.assign v = x := by
  unfold NavItem.assign; rw [h]; simp

theorem Wf.copyWord {kd : NavKind} {x : NavItem} (h : x.Wf kd) {u : Upd} (hu : u.Fits kd.nbits kd.fields.length) :
    (x.copyWord u.lo u.hi u.src u.idx).Wf kd := by
  refine ⟨?_, ?_, ?_⟩
  · rw [copyWord_data _ _ _ _ _ hu.le]
    have := h.data; have := hu.le; have := hu.hi; have := hu.len
    simp only [List.length_append, List.length_take, List.length_drop]; omega
  · rw [copyWord_age]; simpa using h.age
  · rw [copyWord_age]
    intro a ha
    rcases List.mem_or_eq_of_mem_set ha with h' | h'
    · exact h.le a h'
    · omega

theorem Wf.feedUpd {kd : NavKind} {x : NavItem} (h : x.Wf kd) (c : InavCall) : (x.feedUpd (kd.upd c) c.svn).Wf kd := by
  unfold NavItem.feedUpd
  split
  · rename_i u hu; exact (h.assign _).copyWord (kd.fits hu)
  · exact h.assign _

theorem Wf.maxAge {kd : NavKind} {x : NavItem} (h : x.Wf kd) : x.maxAge ≤ 255 := maxAge_le.2 h.le

/-- Segments after copying a word. -/
theorem seg_copyWord {kd : NavKind} {x : NavItem} (h : x.Wf kd) {c : InavCall} {u : Upd} (hu : kd.upd c = some u)
    {i : Nat} {f : NavField} (hf : kd.fields[i]? = some f) :
    (x.copyWord u.lo u.hi u.src u.idx).seg kd i f = if i = u.idx then f.bits c else x.seg kd i f := by
  obtain ⟨f', h1, h2, h3, h4, h5, h6⟩ := kd.upd_some hu
  have hfit := kd.fits hu
  have hd := h.data
  have hle := hfit.hi
  unfold seg
  rw [copyWord_data _ _ _ _ _ hfit.le]
  have hlen : u.src.length = u.hi - u.lo := hfit.len
  split
  · rename_i hi
    subst hi
    rw [hf] at h1; cases h1
    rw [← h3, List.append_assoc, List.drop_append_of_le_length (by simp; omega),
      List.drop_eq_nil_of_le (by simp; omega), List.nil_append, List.take_append_of_le_length (by omega), h5,
      List.take_of_length_le]
    rw [← h5, hlen, h4, h3]; omega
  · rename_i hi
    have hol := kd.off_le hf
    rcases Nat.lt_or_gt_of_ne hi with hlt | hgt
    · have := kd.off_lt hf h1 hlt
      rw [List.append_assoc, List.drop_append_of_le_length (by simp; omega), List.take_append_of_le_length (by simp; omega),
        List.drop_take, List.take_take]
      congr 1; omega
    · have := kd.off_lt h1 hf hgt
      rw [List.drop_append, List.drop_eq_nil_of_le (by simp; omega), List.nil_append, List.drop_drop]
      congr 2
      simp only [List.length_append, List.length_take]
      omega

theorem seg_assign {kd : NavKind} (x : NavItem) (v : Svn) (i : Nat) (f : NavField) : (x.assign v).seg kd i f = x.seg kd i f := by
  unfold seg; rw [assign_data]

theorem seg_of_data {kd : NavKind} {x y : NavItem} (h : x.messageBits kd.nbits = y.messageBits kd.nbits) {i : Nat} {f : NavField}
    (hf : kd.fields[i]? = some f) : x.seg kd i f = y.seg kd i f := by
  have ho := kd.off_le hf
  have e : ∀ z : NavItem, z.seg kd i f = ((z.messageBits kd.nbits).drop (kd.off i)).take f.len := by
    intro z
    unfold seg messageBits
    rw [List.drop_take, List.take_take]; congr 1; omega
  rw [e, e, h]

end NavItem

/-! ## Choice of the location -/

/-- The location chosen for a satellite is its own entry; if it has none, an unassigned one; if there
is none, one with the largest age. -/
theorem updSel_cases {svn : Svn} (f : NavItem → NavItem) {s : List NavItem} (hne : s ≠ []) (hage : ∀ x ∈ s, x.maxAge ≤ 255) :
    ∃ i x, s[i]? = some x ∧ updSel svn f s = s.set i (f x) ∧
      (x.svn = some svn ∨ ((∀ y ∈ s, y.svn ≠ some svn) ∧
        (x.svn = none ∨ (∀ y ∈ s, y.svn ≠ none ∧ y.maxAge ≤ x.maxAge)))) := by
  obtain ⟨i, m, h1, hi, h2⟩ := updSel_nonempty (svn := svn) (f := f) hne
  obtain ⟨i', m', h1', hi', h3, h4, _⟩ := argmaxLast_spec (l := s.map (NavItem.placeKey svn)) (by simpa using hne)
  rw [h1] at h1'; cases h1'
  rw [List.getElem_map] at h3
  refine ⟨i, s[i], by rw [List.getElem?_eq_getElem hi], by rw [h2, modify_eq_set f s i hi], ?_⟩
  have hk : ∀ y ∈ s, y.placeKey svn ≤ s[i].placeKey svn := by
    intro y hy; rw [h3]; exact h4 _ (List.mem_map_of_mem hy)
  have hx := hage s[i] (List.getElem_mem hi)
  by_cases hs : s[i].svn = some svn
  · exact .inl hs
  · refine .inr ⟨?_, ?_⟩
    · intro y hy hys
      have h := hk y hy
      have : s[i].placeKey svn ≤ 256 := by
        unfold NavItem.placeKey
        split
        · rename_i t ht
          rw [if_neg (by intro hc; subst hc; exact hs ht)]; omega
        · omega
      have : y.placeKey svn = 257 := by unfold NavItem.placeKey; simp [hys]
      omega
    · by_cases hn : s[i].svn = none
      · exact .inl hn
      · refine .inr ?_
        have hxk : s[i].placeKey svn = s[i].maxAge := by
          unfold NavItem.placeKey
          split
          · rename_i t ht
            rw [if_neg (by intro hc; subst hc; exact hs ht)]
          · rename_i ht; exact absurd ht hn
        intro y hy
        have h := hk y hy
        rw [hxk] at h
        by_cases hyn : y.svn = none
        · have : y.placeKey svn = 256 := by unfold NavItem.placeKey; simp [hyn]
          omega
        · refine ⟨hyn, ?_⟩
          have : y.maxAge ≤ y.placeKey svn := by
            unfold NavItem.placeKey
            split
            · split
              · have := hage y hy; omega
              · omega
            · rename_i ht; exact absurd ht hyn
          omega

/-! ## Slots by kind -/

namespace NavSlot

theorem step_items (n : Nat) (h : Option NavSlot) (c : InavCall) (kd : NavKind) :
    (step n h c).items kd = updSel c.svn (NavItem.feedUpd (kd.upd c) c.svn) ((base n c.gst.subframe h).items kd) := by
  cases kd <;> rfl

@[simp] theorem step_gst (n : Nat) (h : Option NavSlot) (c : InavCall) : (step n h c).gst = c.gst.subframe := rfl

/-- Base of the next subframe: empty, the same, or older. -/
theorem base_items (n : Nat) (g : Gst) (h : Option NavSlot) (kd : NavKind) :
    (h = none ∧ (base n g h).items kd = List.replicate n kd.newItem) ∨
      (∃ s, h = some s ∧ ((s.gst = g ∧ (base n g h).items kd = s.items kd) ∨
        (s.gst ≠ g ∧ (base n g h).items kd = (s.items kd).map NavItem.older))) := by
  cases h with
  | none => left; refine ⟨rfl, ?_⟩; cases kd <;> rfl
  | some s =>
    right
    refine ⟨s, rfl, ?_⟩
    by_cases hg : s.gst = g
    · left; refine ⟨hg, ?_⟩; simp [base, hg]
    · right; refine ⟨hg, ?_⟩; cases kd <;> simp [base, hg, items]

/-- No two entries of a slot are for the same satellite. -/
def Distinct (s : List NavItem) : Prop :=
  ∀ (i j : Nat) (x y : NavItem) (v : Svn), s[i]? = some x → s[j]? = some y → x.svn = some v → y.svn = some v → i = j

/-- Shape of a list of entries. -/
structure Good (n : Nat) (kd : NavKind) (s : List NavItem) : Prop where
  len : s.length = n
  wf : ∀ x ∈ s, x.Wf kd
  distinct : Distinct s

theorem Good.replicate (n : Nat) (kd : NavKind) : Good n kd (List.replicate n kd.newItem) := by
  refine ⟨by simp, ?_, ?_⟩
  · intro x hx; rw [List.eq_of_mem_replicate hx]; exact NavItem.wf_new kd
  · intro i j x y v hx _ hxv _
    have := List.eq_of_mem_replicate (List.mem_of_getElem? hx)
    subst this
    rw [NavKind.newItem_svn] at hxv; cases hxv

theorem Distinct.map {s : List NavItem} (h : Distinct s) {f : NavItem → NavItem} (hf : ∀ x, (f x).svn = x.svn) :
    Distinct (s.map f) := by
  intro i j x y v hx hy hxv hyv
  simp only [List.getElem?_map, Option.map_eq_some_iff] at hx hy
  obtain ⟨x', hx', rfl⟩ := hx
  obtain ⟨y', hy', rfl⟩ := hy
  rw [hf] at hxv hyv
  exact h i j x' y' v hx' hy' hxv hyv

theorem Good.older {n : Nat} {kd : NavKind} {s : List NavItem} (h : Good n kd s) : Good n kd (s.map NavItem.older) := by
  refine ⟨by simp [h.len], ?_, h.distinct.map (fun _ => rfl)⟩
  intro x hx
  obtain ⟨y, hy, rfl⟩ := List.mem_map.1 hx
  exact (h.wf y hy).older

theorem Good.core {n : Nat} {kd : NavKind} {s : List NavItem} (h : Good n kd s) : Good n kd (s.map NavItem.core) := by
  refine ⟨by simp [h.len], ?_, h.distinct.map (fun _ => rfl)⟩
  intro x hx
  obtain ⟨y, hy, rfl⟩ := List.mem_map.1 hx
  exact (h.wf y hy).core

theorem Good.add {n : Nat} {kd : NavKind} {s : List NavItem} (h : Good n kd s) (a : NavItem → Nat) :
    Good n kd (s.map (fun x => x.addAuthbits (a x))) := by
  refine ⟨by simp [h.len], ?_, h.distinct.map (fun _ => rfl)⟩
  intro x hx
  obtain ⟨y, hy, rfl⟩ := List.mem_map.1 hx
  exact (h.wf y hy).add _

/-- Update of a slot by a call, with the choice of location spelt out. -/
theorem Good.upd {n : Nat} (hn : 0 < n) {kd : NavKind} {s : List NavItem} (h : Good n kd s) (c : InavCall) :
    ∃ i x, s[i]? = some x ∧ updSel c.svn (NavItem.feedUpd (kd.upd c) c.svn) s = s.set i (NavItem.feedUpd (kd.upd c) c.svn x) ∧
      (x.svn = some c.svn ∨ ((∀ y ∈ s, y.svn ≠ some c.svn) ∧
        (x.svn = none ∨ (∀ y ∈ s, y.svn ≠ none ∧ y.maxAge ≤ x.maxAge)))) ∧
      Good n kd (updSel c.svn (NavItem.feedUpd (kd.upd c) c.svn) s) := by
  have hne : s ≠ [] := by
    intro hc; have := h.len; subst hc; simp at this; omega
  obtain ⟨i, x, hx, hu, hc⟩ := updSel_cases (svn := c.svn) (NavItem.feedUpd (kd.upd c) c.svn) hne (fun x hx => (h.wf x hx).maxAge)
  refine ⟨i, x, hx, hu, hc, ?_⟩
  have hi : i < s.length := (List.getElem?_eq_some_iff.1 hx).1
  rw [hu]
  refine ⟨by simp [h.len], ?_, ?_⟩
  · intro y hy
    rcases List.mem_or_eq_of_mem_set hy with h' | rfl
    · exact h.wf y h'
    · exact (h.wf x (List.mem_of_getElem? hx)).feedUpd c
  · intro j k y z v hy hz hyv hzv
    rw [List.getElem?_set] at hy hz
    have key : ∀ j y, s[j]? = some y → y.svn = some c.svn → i = j := by
      intro j y hy hyv
      rcases hc with hc | ⟨hc, _⟩
      · exact h.distinct i j x y c.svn hx hy hc hyv
      · exact absurd hyv (hc y (List.mem_of_getElem? hy))
    split at hy <;> split at hz
    · omega
    · rename_i hij _
      simp only [Option.some.injEq] at hy
      subst hy
      rw [NavItem.feedUpd_svn] at hyv; cases hyv
      have := key k z hz hzv; omega
    · rename_i hij _
      simp only [Option.some.injEq] at hz
      subst hz
      rw [NavItem.feedUpd_svn] at hzv; cases hzv
      have := key j y hy hyv; omega
    · exact h.distinct j k y z v hy hz hyv hzv

theorem Good.base {n : Nat} {kd : NavKind} {g : Gst} {h : Option NavSlot} (hs : ∀ s, h = some s → Good n kd (s.items kd)) :
    Good n kd ((base n g h).items kd) := by
  rcases base_items n g h kd with ⟨_, he⟩ | ⟨s, hh, ⟨_, he⟩ | ⟨_, he⟩⟩
  · rw [he]; exact Good.replicate n kd
  · rw [he]; exact hs s hh
  · rw [he]; exact (hs s hh).older

end NavSlot
end Verif
