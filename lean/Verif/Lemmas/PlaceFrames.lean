import Verif.Spec.PlaceMachine
import Verif.Lemmas.Places
import Verif.Lemmas.NavTags

/-! # Lemmas: the places of the reference machine and those of the store -/

namespace Verif
open CollectNavMessage

variable {S : Storage} {C : Crypto}

/-! ## Segments -/

theorem NavKind.field_len {kd : NavKind} {f : NavField} (hf : f ∈ kd.fields) (c : InavCall) : (f.bits c).length = f.len := by
  have h128 : f.hi ≤ 128 := by
    cases kd <;> simp only [NavKind.fields, List.mem_cons, List.not_mem_nil, or_false] at hf
    · rcases hf with rfl | rfl | rfl | rfl | rfl <;> simp
    · rcases hf with rfl | rfl <;> simp
  unfold NavField.bits NavField.len
  have : (bitsOf c.word.val).length = 128 := by rw [bitsOf_length, c.word.property]
  rw [List.length_take, List.length_drop, this]
  omega

/-- Sum of the lengths of some fields. -/
def lensOf (fs : List NavField) : Nat := (fs.map NavField.len).sum

theorem lensOf_cons (f : NavField) (fs : List NavField) : lensOf (f :: fs) = f.len + lensOf fs := by simp [lensOf]

theorem NavKind.lensOf_fields (kd : NavKind) : lensOf kd.fields = kd.nbits := by cases kd <;> rfl

theorem overlay_length {kd : NavKind} {ws : List InavCall} {v : Svn} :
    ∀ {fs : List NavField} {b : List Bool}, (∀ f ∈ fs, f ∈ kd.fields) → b.length = lensOf fs → (kd.overlay ws v fs b).length = lensOf fs
  | [], _, _, _ => rfl
  | f :: fs, b, hfs, hb => by
    rw [lensOf_cons] at hb ⊢
    unfold NavKind.overlay
    rw [List.length_append, overlay_length (fun g hg => hfs g (List.mem_cons_of_mem _ hg)) (by rw [List.length_drop]; omega)]
    congr 1
    cases hl : kd.latest ws v f with
    | none => simp only [Option.elim_none, List.length_take]; omega
    | some c => simp only [Option.elim_some]; exact NavKind.field_len (hfs f (by simp)) c

theorem overlay_seg {kd : NavKind} {ws : List InavCall} {v : Svn} :
    ∀ {fs : List NavField} {b : List Bool}, (∀ f ∈ fs, f ∈ kd.fields) → b.length = lensOf fs → ∀ (i : Nat) (f : NavField), fs[i]? = some f →
      ((kd.overlay ws v fs b).drop (lensOf (fs.take i))).take f.len
        = (kd.latest ws v f).elim ((b.drop (lensOf (fs.take i))).take f.len) f.bits
  | [], _, _, _, i, f, hf => by simp at hf
  | g :: fs, b, hfs, hb, i, f, hf => by
    rw [lensOf_cons] at hb
    have hgl : ((kd.latest ws v g).elim (b.take g.len) g.bits).length = g.len := by
      cases hl : kd.latest ws v g with
      | none => simp only [Option.elim_none, List.length_take]; omega
      | some c => simp only [Option.elim_some]; exact NavKind.field_len (hfs g (by simp)) c
    unfold NavKind.overlay
    cases i with
    | zero =>
      simp only [List.getElem?_cons_zero, Option.some.injEq] at hf
      subst hf
      simp only [List.take_zero]
      rw [show lensOf [] = 0 from rfl, List.drop_zero, List.drop_zero, List.take_append_of_le_length (by omega), List.take_of_length_le (by omega)]
    | succ i =>
      simp only [List.getElem?_cons_succ] at hf
      have hdrop : ((kd.latest ws v g).elim (b.take g.len) g.bits ++ kd.overlay ws v fs (b.drop g.len)).drop g.len
          = kd.overlay ws v fs (b.drop g.len) := by
        conv => lhs; arg 1; rw [← hgl]
        exact List.drop_left
      rw [List.take_succ_cons, lensOf_cons, ← List.drop_drop, hdrop]
      rw [overlay_seg (fun g hg => hfs g (List.mem_cons_of_mem _ hg)) (by rw [List.length_drop]; omega) i f hf, List.drop_drop]

theorem segs_ext : ∀ {fs : List NavField} {a b : List Bool}, a.length = lensOf fs → b.length = lensOf fs →
    (∀ (i : Nat) (f : NavField), fs[i]? = some f → (a.drop (lensOf (fs.take i))).take f.len = (b.drop (lensOf (fs.take i))).take f.len) → a = b
  | [], a, b, ha, hb, _ => by
    rw [List.length_eq_zero_iff.1 ha, List.length_eq_zero_iff.1 hb]
  | f :: fs, a, b, ha, hb, h => by
    rw [lensOf_cons] at ha hb
    have h0 := h 0 f rfl
    simp only [List.take_zero] at h0
    rw [show lensOf [] = 0 from rfl, List.drop_zero, List.drop_zero] at h0
    have h1 : a.drop f.len = b.drop f.len := by
      refine segs_ext (fs := fs) (by rw [List.length_drop]; omega) (by rw [List.length_drop]; omega) ?_
      intro i g hg
      have := h (i + 1) g (by simpa using hg)
      rw [List.take_succ_cons, lensOf_cons, ← List.drop_drop, ← List.drop_drop] at this
      exact this
    rw [← List.take_append_drop f.len a, ← List.take_append_drop f.len b, h0, h1]

theorem NavItem.seg_bits {kd : NavKind} (x : NavItem) {i : Nat} {f : NavField} (hf : kd.fields[i]? = some f) :
    x.seg kd i f = ((x.messageBits kd.nbits).drop (lensOf (kd.fields.take i))).take f.len := by
  have := kd.off_le hf
  unfold NavItem.seg NavItem.messageBits
  rw [List.drop_take, List.take_take]
  show _ = List.take (min f.len (kd.nbits - kd.off i)) (List.drop (kd.off i) x.data)
  congr 1; omega

theorem NavItem.Wf.bits_length {kd : NavKind} {x : NavItem} (h : x.Wf kd) : (x.messageBits kd.nbits).length = kd.nbits := by
  unfold NavItem.messageBits
  rw [List.length_take, h.data]; omega

/-- The bits of an entry that a word goes to. -/
theorem NavItem.feedUpd_bits {kd : NavKind} {x : NavItem} (hw : x.Wf kd) (c : InavCall) {ws : List InavCall} {v : Svn} {b : List Bool}
    (hb : b.length = kd.nbits)
    (hl : ∀ f ∈ kd.fields, ∀ i, kd.fields[i]? = some f → (kd.latest ws v f).elim ((b.drop (lensOf (kd.fields.take i))).take f.len) f.bits
      = if kd.carries c f = true then f.bits c else x.seg kd i f) :
    (x.feedUpd (kd.upd c) c.svn).messageBits kd.nbits = kd.overlay ws v kd.fields b := by
  have hw' := hw.feedUpd c
  refine segs_ext (fs := kd.fields) (by rw [hw'.bits_length, kd.lensOf_fields])
    (overlay_length (fun f hf => hf) (by rw [hb, kd.lensOf_fields])) ?_
  intro i f hf
  rw [← NavItem.seg_bits _ hf, NavItem.feedUpd_seg hw c hf, overlay_seg (fun f hf => hf) (by rw [hb, kd.lensOf_fields]) i f hf,
    hl f (List.mem_of_getElem? hf) i hf]

theorem NavItem.feedUpd_pad {kd : NavKind} {x : NavItem} (hw : x.Wf kd) (c : InavCall) :
    (x.feedUpd (kd.upd c) c.svn).data.drop kd.nbits = x.data.drop kd.nbits := by
  have hd : (x.assign c.svn).data = x.data := NavItem.assign_data x c.svn
  unfold NavItem.feedUpd
  cases hu : kd.upd c with
  | none => dsimp only; rw [hd]
  | some u =>
    dsimp only
    have hfit := kd.fits hu
    rw [NavItem.copyWord_data _ _ _ _ _ hfit.le, hd]
    have := hfit.hi; have := hfit.len; have := hfit.le; have := hw.data
    rw [List.drop_append, List.drop_eq_nil_of_le (by simp; omega), List.nil_append, List.drop_drop]
    congr 1
    simp only [List.length_append, List.length_take]; omega

/-! ## Places -/

/-- The entry of a taken place. -/
structure HasPlace (kd : NavKind) (g : Gst) (p : Place) (x : NavItem) : Prop where
  svn : x.svn = some p.svn
  age : x.age = kd.fields.map (kd.fieldAge p.words p.svn)
  bits : x.messageBits kd.nbits = p.data kd
  auth : x.authbits = p.auth
  before : p.before.length = kd.nbits
  last : ∃ q c, p.words = q ++ [c] ∧ c.gst.subframe = g
  chr : Chronological p.words

/-- The entry of a place, free or taken. -/
def PlaceOf (kd : NavKind) (g : Gst) (x : NavItem) : Option Place → Prop
  | none => x = kd.newItem
  | some p => HasPlace kd g p x

theorem HasPlace.maxAge {kd : NavKind} {g : Gst} {p : Place} {x : NavItem} (h : HasPlace kd g p x) : x.maxAge = p.oldest kd := by
  unfold NavItem.maxAge Place.oldest NavKind.oldestAge; rw [h.age]

theorem HasPlace.minAge {kd : NavKind} {g : Gst} {p : Place} {x : NavItem} (h : HasPlace kd g p x) : x.minAge = p.newest kd := by
  unfold NavItem.minAge Place.newest NavKind.newestAge; rw [h.age]

theorem NavKind.newItem_older (kd : NavKind) : kd.newItem.older = kd.newItem := by cases kd <;> rfl

theorem Chronological.snoc {q : List InavCall} {d c : InavCall} (h : Chronological (q ++ [d])) (hl : d.gst.subframe.abs ≤ c.gst.subframe.abs) :
    Chronological (q ++ [d] ++ [c]) := by
  intro i a b ha hb
  have hlb := (List.getElem?_eq_some_iff.1 hb).1
  simp only [List.length_append, List.length_cons, List.length_nil] at hlb
  have hla : i < (q ++ [d]).length := by simp only [List.length_append, List.length_cons, List.length_nil]; omega
  rw [List.getElem?_append_left hla] at ha
  by_cases hi : i + 1 < (q ++ [d]).length
  · rw [List.getElem?_append_left hi] at hb
    exact h i a b ha hb
  · have e : i = q.length := by simp only [List.length_append, List.length_cons, List.length_nil] at hi hla; omega
    subst e
    rw [List.getElem?_append_right (by simp)] at hb
    simp at ha hb
    subst ha hb
    exact hl

/-- A place when a word of another satellite is heard. -/
theorem HasPlace.hear {kd : NavKind} {g : Gst} {p : Place} {x : NavItem} (h : HasPlace kd g p x) {c : InavCall} (hc : c.svn ≠ p.svn)
    (hg : g.abs ≤ c.gst.subframe.abs) : HasPlace kd c.gst.subframe (p.hear c) (x.aged (g = c.gst.subframe)) := by
  obtain ⟨q, d, hq, hd⟩ := h.last
  have hchr : Chronological (q ++ [d] ++ [c]) := (hq ▸ h.chr : Chronological (q ++ [d])).snoc (by rw [hd]; exact hg)
  refine ⟨by rw [NavItem.aged_svn]; exact h.svn, ?_, ?_, ?_, h.before, ⟨p.words, c, rfl, rfl⟩, by unfold Place.hear; rw [hq]; exact hchr⟩
  · have hA : ∀ f, kd.fieldAge (p.words ++ [c]) p.svn f = if g = c.gst.subframe then kd.fieldAge p.words p.svn f
        else min 255 (kd.fieldAge p.words p.svn f + 1) := by
      intro f
      rw [hq, NavKind.fieldAge_step hchr, if_neg (fun hh => hc hh.1), hd]
    unfold NavItem.aged Place.hear
    dsimp only
    by_cases hs : g = c.gst.subframe
    · rw [if_pos hs, h.age]
      exact List.map_congr_left (fun f _ => by rw [hA, if_pos hs])
    · rw [if_neg hs]
      simp only [NavItem.older]
      rw [h.age, List.map_map]
      exact List.map_congr_left (fun f _ => by rw [hA, if_neg hs]; rfl)
  · have : (x.aged (g = c.gst.subframe)).messageBits kd.nbits = x.messageBits kd.nbits := by unfold NavItem.aged; split <;> rfl
    rw [this, h.bits]
    unfold Place.data Place.hear
    dsimp only
    have key : ∀ (fs : List NavField) (b : List Bool), kd.overlay p.words p.svn fs b = kd.overlay (p.words ++ [c]) p.svn fs b := by
      intro fs
      induction fs with
      | nil => intro b; rfl
      | cons f fs ih => intro b; unfold NavKind.overlay; rw [NavKind.latest_other hc, ih]
    exact key _ _
  · have : (x.aged (g = c.gst.subframe)).authbits = x.authbits := by unfold NavItem.aged; split <;> rfl
    rw [this]; exact h.auth

theorem NavItem.aged_seg {kd : NavKind} (same : Prop) [Decidable same] (x : NavItem) (i : Nat) (f : NavField) :
    (x.aged same).seg kd i f = x.seg kd i f := by unfold NavItem.aged; split <;> rfl

theorem NavItem.Wf.aged {kd : NavKind} {x : NavItem} (h : x.Wf kd) (same : Prop) [Decidable same] : (x.aged same).Wf kd := by
  unfold NavItem.aged; split
  · exact h
  · exact h.older

theorem NavItem.bits_data {kd : NavKind} {x y : NavItem} (hp : y.data.drop kd.nbits = x.data.drop kd.nbits) :
    y.data = x.data ↔ y.messageBits kd.nbits = x.messageBits kd.nbits := by
  unfold NavItem.messageBits
  constructor
  · intro h; rw [h]
  · intro h
    rw [← List.take_append_drop kd.nbits y.data, ← List.take_append_drop kd.nbits x.data, h, hp]

/-- A place whose satellite sends a word. -/
theorem HasPlace.own {kd : NavKind} {g : Gst} {p : Place} {x : NavItem} (hw : x.Wf kd) (h : HasPlace kd g p x) {c : InavCall}
    (hc : p.svn = c.svn) (hg : g.abs ≤ c.gst.subframe.abs) :
    HasPlace kd c.gst.subframe (Place.fed kd c (some p)) ((x.aged (g = c.gst.subframe)).feedUpd (kd.upd c) c.svn) := by
  obtain ⟨q, d, hq, hd⟩ := h.last
  have hchr : Chronological (q ++ [d] ++ [c]) := (hq ▸ h.chr : Chronological (q ++ [d])).snoc (by rw [hd]; exact hg)
  have hwa := hw.aged (g = c.gst.subframe)
  have hsv : (x.aged (g = c.gst.subframe)).svn = some c.svn := by rw [NavItem.aged_svn, ← hc]; exact h.svn
  have hbits : ((x.aged (g = c.gst.subframe)).feedUpd (kd.upd c) c.svn).messageBits kd.nbits = (p.hear c).data kd := by
    unfold Place.data Place.hear
    dsimp only
    refine NavItem.feedUpd_bits hwa c h.before ?_
    intro f hf i hi
    rw [NavKind.latest_snoc, NavItem.aged_seg, NavItem.seg_bits x hi, h.bits, Place.data,
      overlay_seg (fun f hf => hf) (by rw [h.before, kd.lensOf_fields]) i f hi]
    by_cases hcar : kd.carries c f = true
    · rw [if_pos hcar, if_pos ⟨hc.symm, hcar⟩]; rfl
    · rw [if_neg hcar, if_neg (fun hh => hcar hh.2)]
  have hxb : (x.aged (g = c.gst.subframe)).messageBits kd.nbits = p.data kd := by
    rw [← h.bits]; unfold NavItem.aged; split <;> rfl
  have hxa : (x.aged (g = c.gst.subframe)).authbits = p.auth := by rw [← h.auth]; unfold NavItem.aged; split <;> rfl
  have hfed : Place.fed kd c (some p) = { p.hear c with auth := if (p.hear c).data kd = p.data kd then p.auth else 0 } := by
    show (if p.svn = c.svn then _ else _) = _
    rw [if_pos hc]
  rw [hfed]
  refine ⟨by rw [NavItem.feedUpd_svn]; exact congrArg some hc.symm, ?_, hbits, ?_, h.before, ⟨p.words, c, rfl, rfl⟩, by
    unfold Place.hear; rw [hq]; exact hchr⟩
  · rw [NavItem.feedUpd_age, NavItem.assign_same hsv]
    have hage : (x.aged (g = c.gst.subframe)).age = kd.fields.map (fun f => if g = c.gst.subframe then kd.fieldAge p.words p.svn f
        else min 255 (kd.fieldAge p.words p.svn f + 1)) := by
      unfold NavItem.aged
      by_cases hs : g = c.gst.subframe
      · rw [if_pos hs, h.age]
        exact List.map_congr_left (fun f _ => by rw [if_pos hs])
      · rw [if_neg hs]
        simp only [NavItem.older]
        rw [h.age, List.map_map]
        exact List.map_congr_left (fun f _ => by rw [if_neg hs]; rfl)
    rw [hage, ← NavKind.ages_own]
    apply List.map_congr_left
    intro f _
    show _ = kd.fieldAge (p.words ++ [c]) p.svn f
    rw [hq, NavKind.fieldAge_step hchr, hd]
    by_cases hcar : kd.carries c f = true
    · rw [if_pos hcar, if_pos (show c.svn = p.svn ∧ _ from ⟨hc.symm, hcar⟩)]
    · rw [if_neg hcar, if_neg (fun hh : c.svn = p.svn ∧ kd.carries c f = true => hcar hh.2)]
  · rw [NavItem.feedUpd_auth_eq hwa hsv]
    dsimp only
    have := NavItem.bits_data (NavItem.feedUpd_pad hwa c)
    rw [hbits, hxb] at this
    by_cases hd : (p.hear c).data kd = p.data kd
    · rw [if_pos hd, if_pos (this.2 hd), hxa]
    · rw [if_neg hd, if_neg (fun hh => hd (this.1 hh))]

/-- A place that a satellite gets. -/
theorem HasPlace.gets {kd : NavKind} {x : NavItem} (hw : x.Wf kd) {c : InavCall} (hn : x.svn ≠ some c.svn) (hfree : x.svn = none → x = kd.newItem) :
    HasPlace kd c.gst.subframe ⟨c.svn, [c], x.messageBits kd.nbits, 0⟩ (x.feedUpd (kd.upd c) c.svn) := by
  have hasg : (x.assign c.svn).age = kd.fields.map (fun _ => 255) ∧ (x.assign c.svn).authbits = 0 := by
    cases hs : x.svn with
    | none =>
      rw [hfree hs]
      cases kd <;> exact ⟨rfl, rfl⟩
    | some s =>
      have hsc : s ≠ c.svn := fun e => hn (by rw [hs, e])
      unfold NavItem.assign
      rw [hs]
      dsimp only
      rw [if_neg hsc]
      refine ⟨?_, rfl⟩
      simp only [NavItem.reset]
      rw [List.map_const', List.map_const', hw.age]
  have hl : ∀ f, kd.latest [c] c.svn f = if kd.carries c f = true then some c else none := by
    intro f
    have := NavKind.latest_snoc kd [] c c.svn f
    rw [List.nil_append] at this
    rw [this]
    by_cases hcar : kd.carries c f = true
    · rw [if_pos hcar, if_pos ⟨rfl, hcar⟩]
    · rw [if_neg hcar, if_neg (fun hh => hcar hh.2)]; rfl
  refine ⟨NavItem.feedUpd_svn _ _ _, ?_, ?_, ?_, hw.bits_length, ⟨[], c, rfl, rfl⟩, Chronological.single c⟩
  · rw [NavItem.feedUpd_age, hasg.1, ← NavKind.ages_own]
    apply List.map_congr_left
    intro f _
    have := (NavKind.fieldAge_snoc (p := []) (Chronological.single c) kd c.svn f).2 (by simp)
    rw [List.nil_append] at this
    show _ = kd.fieldAge [c] c.svn f
    rw [this]
    by_cases hcar : kd.carries c f = true
    · rw [if_pos hcar, if_pos ⟨rfl, hcar⟩]
    · rw [if_neg hcar, if_neg (fun hh => hcar hh.2)]; rfl
  · unfold Place.data
    dsimp only
    refine NavItem.feedUpd_bits hw c hw.bits_length ?_
    intro f hf i hi
    rw [hl, NavItem.seg_bits x hi]
    by_cases hcar : kd.carries c f = true
    · rw [if_pos hcar, if_pos hcar]; rfl
    · rw [if_neg hcar, if_neg hcar]; rfl
  · have he : x.feedUpd (kd.upd c) c.svn = (x.assign c.svn).feedUpd (kd.upd c) c.svn := by
      unfold NavItem.feedUpd
      rw [NavItem.assign_same (NavItem.assign_svn x c.svn)]
    rw [he]
    rcases NavItem.feedUpd_auth (kd.upd c) c.svn (x.assign c.svn) with h | ⟨h, _⟩
    · exact h
    · rw [h, hasg.2]

/-! ## All the places of one kind -/

/-- The entries of one kind of a subframe are the places. -/
structure PlacesOf (kd : NavKind) (g : Gst) (ps : List (Option Place)) (l : List NavItem) : Prop where
  len : ps.length = l.length
  each : ∀ (i : Nat) (x : NavItem) (p : Option Place), l[i]? = some x → ps[i]? = some p → PlaceOf kd g x p

theorem PlacesOf.get {kd : NavKind} {g : Gst} {ps : List (Option Place)} {l : List NavItem} (h : PlacesOf kd g ps l) {i : Nat} {p : Option Place}
    (hp : ps[i]? = some p) : ∃ x, l[i]? = some x ∧ PlaceOf kd g x p := by
  have hi := (List.getElem?_eq_some_iff.1 hp).1
  rw [h.len] at hi
  exact ⟨l[i], List.getElem?_eq_getElem hi, h.each i _ p (List.getElem?_eq_getElem hi) hp⟩

theorem PlacesOf.item {kd : NavKind} {g : Gst} {ps : List (Option Place)} {l : List NavItem} (h : PlacesOf kd g ps l) {i : Nat} {x : NavItem}
    (hx : l[i]? = some x) : ∃ p, ps[i]? = some p ∧ PlaceOf kd g x p := by
  have hi := (List.getElem?_eq_some_iff.1 hx).1
  rw [← h.len] at hi
  exact ⟨ps[i], List.getElem?_eq_getElem hi, h.each i x _ hx (List.getElem?_eq_getElem hi)⟩

theorem NavKind.newItem_aged (kd : NavKind) (same : Prop) [Decidable same] : kd.newItem.aged same = kd.newItem := by
  unfold NavItem.aged; split
  · rfl
  · exact kd.newItem_older

/-- The key by which the place is chosen. -/
def placeKeyOf (kd : NavKind) (c : InavCall) : Option Place → Nat
  | none => 256
  | some q => if q.svn = c.svn then 257 else (q.hear c).oldest kd

theorem PlaceOf.key {kd : NavKind} {g : Gst} {c : InavCall} {x : NavItem} {p : Option Place} (h : PlaceOf kd g x p) (hw : x.Wf kd)
    (hg : g.abs ≤ c.gst.subframe.abs) : (x.aged (g = c.gst.subframe)).placeKey c.svn = placeKeyOf kd c p ∧
      (∀ q, p = some q → q.svn ≠ c.svn → (q.hear c).oldest kd ≤ 255) := by
  cases p with
  | none =>
    have hx : x = kd.newItem := h
    subst hx
    rw [kd.newItem_aged]
    refine ⟨?_, fun q hq => by cases hq⟩
    unfold NavItem.placeKey; rw [kd.newItem_svn]; rfl
  | some q =>
    have hx : HasPlace kd g q x := h
    have hs : (x.aged (g = c.gst.subframe)).svn = some q.svn := by rw [NavItem.aged_svn]; exact hx.svn
    unfold NavItem.placeKey placeKeyOf
    rw [hs]
    dsimp only
    by_cases hq : q.svn = c.svn
    · rw [if_pos hq, if_pos hq]
      exact ⟨rfl, fun q' e hne => by cases e; exact absurd hq hne⟩
    · rw [if_neg hq, if_neg hq]
      have := (hx.hear (c := c) (Ne.symm hq) hg).maxAge
      refine ⟨this, ?_⟩
      intro q' e _
      cases e
      rw [← this]
      exact (hw.aged _).maxAge

theorem mem_heard_places {c : InavCall} {ps : List (Option Place)} {j : Nat} {x : Option Place}
    (h : (ps.map (Option.map (Place.hear c)))[j]? = some x) : ∃ y, ps[j]? = some y ∧ x = y.map (Place.hear c) := by
  rw [List.getElem?_map, Option.map_eq_some_iff] at h
  obtain ⟨y, h1, h2⟩ := h
  exact ⟨y, h1, h2.symm⟩

/-- A word on the places. -/
theorem PlacesOf.word {n : Nat} (hn : 0 < n) {kd : NavKind} {g : Gst} {c : InavCall} {ps : List (Option Place)} {l : List NavItem}
    (hgood : NavSlot.Good n kd l) (h : PlacesOf kd g ps l) (hg : g.abs ≤ c.gst.subframe.abs)
    (hb : NavSlot.Good n kd (l.map (NavItem.aged (g = c.gst.subframe)))) :
    ∃ ps', WordPlaced kd c ps ps' ∧
      PlacesOf kd c.gst.subframe ps' (updSel c.svn (NavItem.feedUpd (kd.upd c) c.svn) (l.map (NavItem.aged (g = c.gst.subframe)))) ∧
      NavSlot.Good n kd (updSel c.svn (NavItem.feedUpd (kd.upd c) c.svn) (l.map (NavItem.aged (g = c.gst.subframe)))) := by
  have hne : l.map (NavItem.aged (g = c.gst.subframe)) ≠ [] := by
    intro hc; have := hb.len; rw [hc] at this; simp at this; omega
  obtain ⟨_, _, _, _, _, hgood'⟩ := hb.upd hn c
  obtain ⟨i, m, h1, hi, h2⟩ := updSel_nonempty (svn := c.svn) (f := NavItem.feedUpd (kd.upd c) c.svn) hne
  obtain ⟨i', m', h1', hi', h3, h4, h5⟩ := argmaxLast_spec (l := (l.map (NavItem.aged (g = c.gst.subframe))).map (NavItem.placeKey c.svn)) (by simpa using hne)
  rw [h1] at h1'; cases h1'
  have hil : i < l.length := by simpa using hi
  have hip : i < ps.length := by rw [h.len]; exact hil
  -- keys
  have hwf : ∀ (j : Nat) (x : NavItem), l[j]? = some x → x.Wf kd := fun j x hx => hgood.wf x (List.mem_of_getElem? hx)
  have hkey : ∀ (j : Nat) (p : Option Place), ps[j]? = some p → placeKeyOf kd c p ≤ m ∧ (i < j → placeKeyOf kd c p < m) ∧
      (∀ q, p = some q → q.svn ≠ c.svn → (q.hear c).oldest kd ≤ 255) := by
    intro j p hp
    obtain ⟨x, hx, hxp⟩ := h.get hp
    obtain ⟨e1, e2⟩ := hxp.key (c := c) (hwf j x hx) hg
    have hj : j < l.length := (List.getElem?_eq_some_iff.1 hx).1
    have hxe : l[j] = x := by rw [List.getElem?_eq_getElem hj] at hx; exact Option.some.inj hx
    refine ⟨?_, ?_, e2⟩
    · rw [← e1]
      exact h4 _ (List.mem_map_of_mem (List.mem_map_of_mem (List.mem_of_getElem? hx)))
    · intro hij
      have := h5 j hij (by simpa using hj)
      rw [List.getElem_map, List.getElem_map, hxe, e1] at this
      exact this
  have hm : placeKeyOf kd c ps[i] = m := by
    obtain ⟨x, hx, hxp⟩ := h.get (List.getElem?_eq_getElem hip)
    obtain ⟨e1, _⟩ := hxp.key (c := c) (hwf i x hx) hg
    rw [List.getElem_map, List.getElem_map] at h3
    rw [List.getElem?_eq_getElem hil, Option.some.injEq] at hx
    rw [← e1, ← hx]
    exact h3
  have hupd : updSel c.svn (NavItem.feedUpd (kd.upd c) c.svn) (l.map (NavItem.aged (g = c.gst.subframe)))
      = (l.map (NavItem.aged (g = c.gst.subframe))).set i (NavItem.feedUpd (kd.upd c) c.svn (l[i].aged (g = c.gst.subframe))) := by
    rw [h2, modify_eq_set _ _ i hi, List.getElem_map]
  have hpi : ps[i]? = some ps[i] := List.getElem?_eq_getElem hip
  obtain ⟨xi, hxi, hxp⟩ := h.get hpi
  have hxe : l[i] = xi := by rw [List.getElem?_eq_getElem hil] at hxi; exact Option.some.inj hxi
  have hwx := hwf i xi hxi
  -- the other places are not of this satellite
  have hoth : ∀ (j : Nat) (q : Place), j ≠ i → ps[j]? = some (some q) → q.svn ≠ c.svn := by
    intro j q hji hq hqc
    obtain ⟨y, hy, hyp⟩ := h.get hq
    have hy' : HasPlace kd g q y := hyp
    have hk := (hkey j _ hq).1
    have : placeKeyOf kd c (some q) = 257 := if_pos hqc
    rw [this, ← hm] at hk
    cases hp : ps[i] with
    | none => rw [hp] at hk; change 257 ≤ 256 at hk; omega
    | some p =>
      rw [hp] at hk hxp
      have hx' : HasPlace kd g p xi := hxp
      by_cases hpc : p.svn = c.svn
      · exact hji (hgood.distinct j i y xi c.svn hy hxi (by rw [hy'.svn, hqc]) (by rw [hx'.svn, hpc]))
      · have h255 := (hkey i _ hpi).2.2 p hp hpc
        have e : placeKeyOf kd c (some p) = (p.hear c).oldest kd := if_neg hpc
        rw [e] at hk
        omega
  refine ⟨(ps.map (Option.map (Place.hear c))).set i (some (Place.fed kd c ps[i])), ⟨i, ps[i], ?_, hpi, rfl⟩, ?_, hgood'⟩
  · cases hp : ps[i] with
    | none =>
      have hpm : placeKeyOf kd c none = m := by rw [← hp]; exact hm
      have e : (256 : Nat) = m := hpm
      refine .free i ?_ ?_ ?_
      · intro p hpm hpc
        obtain ⟨j, hj⟩ := List.mem_iff_getElem?.1 hpm
        obtain ⟨y, hy, hye⟩ := mem_heard_places hj
        cases y with
        | none => cases hye
        | some q =>
          cases hye
          have hk := (hkey j _ hy).1
          have : placeKeyOf kd c (some q) = 257 := if_pos hpc
          omega
      · rw [List.getElem?_map, hpi, hp]; rfl
      · intro j hij hj
        obtain ⟨y, hy, hye⟩ := mem_heard_places hj
        cases y with
        | some q => cases hye
        | none =>
          have hk := (hkey j _ hy).2.1 hij
          change 256 < m at hk
          omega
    | some p =>
      have hpm : placeKeyOf kd c (some p) = m := by rw [← hp]; exact hm
      have hget : (ps.map (Option.map (Place.hear c)))[i]? = some (some (p.hear c)) := by rw [List.getElem?_map, hpi, hp]; rfl
      by_cases hpc : p.svn = c.svn
      · exact .own i (p.hear c) hget hpc
      · have e : (p.hear c).oldest kd = m := by rw [← hpm]; exact (if_neg hpc).symm
        have h255 := (hkey i _ hpi).2.2 p hp hpc
        have hnow : ∀ (j : Nat) (q : Place), ps[j]? = some (some q) → q.svn ≠ c.svn := by
          intro j q hq hqc
          have hk := (hkey j _ hq).1
          have : placeKeyOf kd c (some q) = 257 := if_pos hqc
          omega
        refine .oldest i (p.hear c) ?_ ?_ hget ?_ ?_
        · intro q hq
          obtain ⟨j, hj⟩ := List.mem_iff_getElem?.1 hq
          obtain ⟨y, hy, hye⟩ := mem_heard_places hj
          cases y with
          | none => cases hye
          | some q' => cases hye; exact hnow j q' hy
        · intro hq
          obtain ⟨j, hj⟩ := List.mem_iff_getElem?.1 hq
          obtain ⟨y, hy, hye⟩ := mem_heard_places hj
          cases y with
          | some q => cases hye
          | none =>
            have hk := (hkey j _ hy).1
            change 256 ≤ m at hk
            omega
        · intro q hq
          obtain ⟨j, hj⟩ := List.mem_iff_getElem?.1 hq
          obtain ⟨y, hy, hye⟩ := mem_heard_places hj
          cases y with
          | none => cases hye
          | some q' =>
            cases hye
            have hk := (hkey j _ hy).1
            have : placeKeyOf kd c (some q') = (q'.hear c).oldest kd := if_neg (hnow j q' hy)
            rw [this, ← e] at hk
            exact hk
        · intro j q hij hj
          obtain ⟨y, hy, hye⟩ := mem_heard_places hj
          cases y with
          | none => cases hye
          | some q' =>
            cases hye
            have hk := (hkey j _ hy).2.1 hij
            have : placeKeyOf kd c (some q') = (q'.hear c).oldest kd := if_neg (hnow j q' hy)
            rw [this, ← e] at hk
            exact hk
  · rw [hupd]
    refine ⟨by simp [h.len], ?_⟩
    intro j y p hy hp
    rw [List.getElem?_set] at hy hp
    by_cases hij : i = j
    · subst hij
      rw [if_pos rfl, if_pos (by simpa using hil)] at hy
      rw [if_pos rfl, if_pos (by simpa using hip)] at hp
      cases hy; cases hp
      show HasPlace _ _ _ _
      rw [hxe]
      cases hq : ps[i] with
      | none =>
        rw [hq] at hxp
        have hx' : xi = kd.newItem := hxp
        rw [hx', kd.newItem_aged]
        have := HasPlace.gets (kd := kd) (NavItem.wf_new kd) (c := c) (by rw [kd.newItem_svn]; simp) (fun _ => rfl)
        have hz : (kd.newItem).messageBits kd.nbits = List.replicate kd.nbits false := by
          have hd : kd.newItem.data = List.replicate (kd.nbits + 3) false := by cases kd <;> rfl
          unfold NavItem.messageBits
          rw [hd, List.take_replicate]; congr 1; omega
        rw [hz] at this
        exact this
      | some q =>
        rw [hq] at hxp
        have hx' : HasPlace kd g q xi := hxp
        by_cases hqc : q.svn = c.svn
        · exact HasPlace.own hwx hx' hqc hg
        · have hh := hx'.hear (c := c) (Ne.symm hqc) hg
          have := HasPlace.gets (hwx.aged (g = c.gst.subframe)) (c := c) (by rw [hh.svn]; exact fun e => hqc (Option.some.inj e))
            (fun e => by rw [hh.svn] at e; cases e)
          have hfed : Place.fed kd c (some q) = ⟨c.svn, [c], q.data kd, 0⟩ := by
            show (if q.svn = c.svn then _ else _) = _
            rw [if_neg hqc]
          rw [hfed]
          have hbits : (xi.aged (g = c.gst.subframe)).messageBits kd.nbits = q.data kd := by
            rw [← hx'.bits]; unfold NavItem.aged; split <;> rfl
          rw [hbits] at this
          exact this
    · rw [if_neg hij] at hy hp
      rw [List.getElem?_map, Option.map_eq_some_iff] at hy
      obtain ⟨x, hx, rfl⟩ := hy
      obtain ⟨q, hq, rfl⟩ := mem_heard_places hp
      have hxq := h.each j x q hx hq
      cases q with
      | none =>
        have hx' : x = kd.newItem := hxq
        rw [hx', kd.newItem_aged]
        exact rfl
      | some q =>
        have hx' : HasPlace kd g q x := hxq
        exact hx'.hear (Ne.symm (hoth j q (Ne.symm hij) hq)) hg

end Verif
