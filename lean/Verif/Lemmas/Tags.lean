import Verif.Spec.TagCount
import Verif.Lemmas.Mack
import Verif.Lemmas.NavStore

/-! # Lemmas: the effect of the tags of a MACK on the store -/

namespace Verif

/-- All authentication counters are `u16`. -/
def AuthOk (arr : List NavItem) : Prop := ∀ x ∈ arr, x.authbits ≤ 65535

namespace NavItem

theorem addAuthbits_zero {x : NavItem} (h : x.authbits ≤ 65535) : x.addAuthbits 0 = x := by
  cases x; simp only [addAuthbits, NavItem.mk.injEq, Nat.add_zero] at *; simp; omega

theorem addAuthbits_add (x : NavItem) (a b : Nat) :
    (x.addAuthbits a).addAuthbits b = x.addAuthbits (a + b) := by
  cases x; simp only [addAuthbits, NavItem.mk.injEq]; simp; omega

theorem addAuthbits_le (x : NavItem) (a : Nat) : (x.addAuthbits a).authbits ≤ 65535 := by
  simp only [addAuthbits]; omega

@[simp] theorem addAuthbits_svn (x : NavItem) (a : Nat) : (x.addAuthbits a).svn = x.svn := rfl
@[simp] theorem addAuthbits_data (x : NavItem) (a : Nat) : (x.addAuthbits a).data = x.data := rfl
@[simp] theorem addAuthbits_age (x : NavItem) (a : Nat) : (x.addAuthbits a).age = x.age := rfl
@[simp] theorem addAuthbits_bits (x : NavItem) (a m : Nat) : (x.addAuthbits a).messageBits m = x.messageBits m := rfl
@[simp] theorem addAuthbits_maxAge (x : NavItem) (a : Nat) : (x.addAuthbits a).maxAge = x.maxAge := rfl
@[simp] theorem addAuthbits_minAge (x : NavItem) (a : Nat) : (x.addAuthbits a).minAge = x.minAge := rfl

end NavItem

/-- Adds authentication bits item by item. -/
def addGains (a : NavItem → Nat) (arr : List NavItem) : List NavItem :=
  arr.map (fun x => x.addAuthbits (a x))

theorem addGains_length (a : NavItem → Nat) (arr : List NavItem) : (addGains a arr).length = arr.length := by
  simp [addGains]

theorem addGains_ok (a : NavItem → Nat) (arr : List NavItem) : AuthOk (addGains a arr) := by
  intro x hx
  obtain ⟨y, _, rfl⟩ := List.mem_map.1 hx
  exact y.addAuthbits_le _

theorem addGains_zero {a : NavItem → Nat} {arr : List NavItem} (h : AuthOk arr) (ha : ∀ x ∈ arr, a x = 0) :
    addGains a arr = arr := by
  unfold addGains
  conv => rhs; rw [← List.map_id arr]
  apply List.map_congr_left
  intro x hx
  rw [ha x hx, NavItem.addAuthbits_zero (h x hx)]; rfl

theorem addGains_addGains {a b : NavItem → Nat} (hb : ∀ x m, b (x.addAuthbits m) = b x) (arr : List NavItem) :
    addGains b (addGains a arr) = addGains (fun x => a x + b x) arr := by
  simp only [addGains, List.map_map]
  apply List.map_congr_left
  intro x _
  simp only [Function.comp, hb, NavItem.addAuthbits_add]

theorem addGains_congr {a b : NavItem → Nat} {arr : List NavItem} (h : ∀ x ∈ arr, a x = b x) :
    addGains a arr = addGains b arr := by
  apply List.map_congr_left
  intro x hx
  rw [h x hx]

/-! ## Gains -/

section gain
variable {C : Crypto} {key : Key} {prna : Svn} {gst : Gst} {st : NmaStatus} {nbits : Nat}

theorem tagGain_addAuthbits {e : Svn → Option NavItem} (t : TagSpec) (x : NavItem) (m : Nat) :
    tagGain C key prna gst st nbits e t (x.addAuthbits m) = tagGain C key prna gst st nbits e t x := rfl

theorem tagsGain_addAuthbits {e : Svn → Option NavItem} (ts : List TagSpec) (x : NavItem) (m : Nat) :
    tagsGain C key prna gst st nbits e ts (x.addAuthbits m) = tagsGain C key prna gst st nbits e ts x := rfl

/-- Two look-ups that agree up to authentication bits. -/
def SameEntry (e e' : Svn → Option NavItem) : Prop :=
  ∀ s, (e s).map NavItem.core = (e' s).map NavItem.core

theorem TagCounts.mono {e e' : Svn → Option NavItem} (h : SameEntry e e') {t : TagSpec} {x : NavItem}
    (hc : TagCounts C key prna gst st nbits e t x) : TagCounts C key prna gst st nbits e' t x := by
  obtain ⟨h1, h2, svn, y, h3, h4, h5, h6, h7, h8⟩ := hc
  have := h svn
  rw [h4, Option.map_some] at this
  obtain ⟨y', hy', hyy⟩ := Option.map_eq_some_iff.1 this.symm
  refine ⟨h1, h2, svn, y', h3, hy', ?_, h6, ?_, h8⟩
  · rw [← NavItem.maxAge_core, hyy, NavItem.maxAge_core]; exact h5
  · rw [h7, ← NavItem.messageBits_core, ← hyy, NavItem.messageBits_core]

theorem tagGain_congr {e e' : Svn → Option NavItem} (h : SameEntry e e') (t : TagSpec) (x : NavItem) :
    tagGain C key prna gst st nbits e t x = tagGain C key prna gst st nbits e' t x := by
  have h' : SameEntry e' e := fun s => (h s).symm
  have : TagCounts C key prna gst st nbits e t x ↔ TagCounts C key prna gst st nbits e' t x :=
    ⟨fun hc => hc.mono h, fun hc => hc.mono h'⟩
  unfold tagGain
  by_cases hc : TagCounts C key prna gst st nbits e t x
  · rw [if_pos hc, if_pos (this.1 hc)]
  · rw [if_neg hc, if_neg (fun h => hc (this.2 h))]

theorem tagsGain_nil {e : Svn → Option NavItem} (x : NavItem) : tagsGain C key prna gst st nbits e [] x = 0 := rfl

theorem tagsGain_append {e : Svn → Option NavItem} (a b : List TagSpec) (x : NavItem) :
    tagsGain C key prna gst st nbits e (a ++ b) x
      = tagsGain C key prna gst st nbits e a x + tagsGain C key prna gst st nbits e b x := by
  simp [tagsGain]

theorem tagsGain_cons {e : Svn → Option NavItem} (t : TagSpec) (ts : List TagSpec) (x : NavItem) :
    tagsGain C key prna gst st nbits e (t :: ts) x
      = tagGain C key prna gst st nbits e t x + tagsGain C key prna gst st nbits e ts x := by
  simp [tagsGain]

theorem tagGain_eq_zero {e : Svn → Option NavItem} {t : TagSpec} {x : NavItem}
    (h : ¬ TagCounts C key prna gst st nbits e t x) : tagGain C key prna gst st nbits e t x = 0 := by
  unfold tagGain; rw [if_neg h]

end gain

namespace CollectNavMessage
variable {S : Storage} {C : Crypto}

/-- Sizes of the arrays. -/
structure Lens (S : Storage) (n : CollectNavMessage) : Prop where
  lc : n.ced.length = S.navDepth * S.numSats
  lt : n.timing.length = S.navDepth * S.numSats
  lg : n.gsts.length = S.navDepth

theorem Rep.lens {n : CollectNavMessage} {L : List NavSlot} (h : Rep S n L) : Lens S n := ⟨h.lc, h.lt, h.lg⟩

/-- Adds authentication bits to the two arrays. -/
def gains (n : CollectNavMessage) (a b : NavItem → Nat) : CollectNavMessage :=
  { n with ced := addGains a n.ced, timing := addGains b n.timing }

theorem Lens.gains {n : CollectNavMessage} (h : Lens S n) (a b : NavItem → Nat) : Lens S (n.gains a b) :=
  ⟨by simp [CollectNavMessage.gains, addGains_length, h.lc], by simp [CollectNavMessage.gains, addGains_length, h.lt], h.lg⟩

theorem findItem_eq {n : CollectNavMessage} {arr : List NavItem} (hl : arr.length = S.navDepth * S.numSats)
    (hg : n.gsts.length = S.navDepth) {g : Gst} (ha : g.isSubframe = true) (svn : Svn) :
    findItem S n arr svn g = .ok (n.entryAt S arr g svn) := by
  unfold findItem findGst entryAt
  simp only [ha, Res.assert_true, Res.ok_bind, Res.pure_eq]
  cases hf : n.gsts.findIdx? (fun x => x == some g) with
  | none => rfl
  | some i =>
    have hi : i < S.navDepth := by rw [← hg]; exact (List.findIdx?_eq_some_iff_findIdx_eq.1 hf).1
    dsimp only
    unfold slot
    rw [slice_slot hl hi]
    rfl

theorem entryAt_map {n : CollectNavMessage} {arr : List NavItem} {g : Gst} {svn : Svn} (f : NavItem → NavItem)
    (hf : ∀ x, (f x).svn = x.svn) : n.entryAt S (arr.map f) g svn = (n.entryAt S arr g svn).map f := by
  unfold entryAt
  split
  · rfl
  · rw [← List.map_drop, ← List.map_take, List.find?_map]
    simp [Function.comp_def, hf]

theorem entryAt_gains (n : CollectNavMessage) (arr : List NavItem) (g : Gst) (a : NavItem → Nat) :
    SameEntry (n.entryAt S (addGains a arr) g) (n.entryAt S arr g) := by
  intro s
  unfold addGains
  rw [entryAt_map _ (by intro; rfl), Option.map_map]
  rfl

theorem entryAt_svn {n : CollectNavMessage} {arr : List NavItem} {g : Gst} {svn : Svn} {y : NavItem}
    (h : n.entryAt S arr g svn = some y) : y.svn = some svn := by
  unfold entryAt at h
  split at h
  · cases h
  · have := List.find?_some h
    simpa using this

theorem statusCounts_iff (st : NmaStatus) : statusCounts st = true ↔ (st = .Test ∨ st = .Operational) := by
  cases st <;> simp [statusCounts]

theorem messageBits_le (x : NavItem) {m : Nat} (h : m ≤ 550) : (x.messageBits m).length ≤ 550 := by
  simp only [NavItem.messageBits, List.length_take]; omega

/-- Validation of a tag against an entry, and the counting of its bits. -/
theorem validateTag_eq {key : Key} (hu : key.MacUsable) {t : TagSpec} {j : Nat} (hct : t.ctr = j + 1) (hj : j + 1 ≤ 255)
    (ht : t.tag.length ≤ 128) {gst : Gst} {prna : Svn} {st : NmaStatus} {nbits : Nat} (hn : nbits ≤ 550)
    {svn : Svn} (hsv : svn.val = t.prnd) {e : Svn → Option NavItem} {y : NavItem} (hy : e svn = some y)
    (hys : y.svn = some svn) (hcop : t.cop ≠ 0) (hage : y.maxAge + 1 ≤ t.cop) {arr : List NavItem} (hok : AuthOk arr) :
    validateTag C key t.tag gst svn.val prna j st nbits y arr
      = .ok (addGains (tagGain C key prna gst st nbits e t) arr) := by
  unfold validateTag
  simp only [hj, decide_true, Res.assert_true, Res.ok_bind]
  have hv : (if j = 0 then key.validateTag0 C t.tag gst prna st (y.messageBits nbits)
      else key.validateTag C t.tag gst (BitVec.ofNat 8 svn.val) prna (BitVec.ofNat 8 (j + 1)) st (y.messageBits nbits))
      = .ok (decide (t.Verifies C key prna gst st (y.messageBits nbits))) := by
    obtain ⟨ctr, tag, prnd, adkd, cop⟩ := t
    dsimp only at *
    subst hct hsv
    split
    · rename_i h0; subst h0
      exact Key.validateTag0_eq hu ht (messageBits_le y hn) svn.val adkd cop
    · exact Key.validateTag_eq hu ht (messageBits_le y hn) (by omega) svn.val adkd cop
  have hb : ∀ k : Bool → Res (List NavItem), (if j = 0 then key.validateTag0 C t.tag gst prna st (y.messageBits nbits) >>= k
      else key.validateTag C t.tag gst (BitVec.ofNat 8 svn.val) prna (BitVec.ofNat 8 (j + 1)) st (y.messageBits nbits) >>= k)
      = k (decide (t.Verifies C key prna gst st (y.messageBits nbits))) := by
    intro k
    split at hv
    · rename_i h; rw [if_pos h, hv]; rfl
    · rename_i h; rw [if_neg h, hv]; rfl
  rw [hb]
  by_cases hver : t.Verifies C key prna gst st (y.messageBits nbits)
  · by_cases hst : statusCounts st = true
    · simp only [hver, decide_true, hst, Bool.and_self, if_true, Res.pure_eq]
      congr 1
      unfold addGains
      apply List.map_congr_left
      intro x hx
      by_cases hc : y.svn = x.svn ∧ y.messageBits nbits = x.messageBits nbits
      · rw [if_pos hc]
        have : TagCounts C key prna gst st nbits e t x :=
          ⟨(statusCounts_iff st).1 hst, hcop, svn, y, hsv, hy, hage, by rw [← hc.1, hys], hc.2.symm, by rw [← hc.2]; exact hver⟩
        unfold tagGain; rw [if_pos this]
      · rw [if_neg hc, tagGain_eq_zero, NavItem.addAuthbits_zero (hok x hx)]
        rintro ⟨_, _, svn', y', h3, h4, h5, h6, h7, h8⟩
        have : svn' = svn := Svn.ext (by omega)
        subst this
        rw [hy] at h4; cases h4
        exact hc ⟨by rw [hys, h6], h7.symm⟩
    · simp only [hst, Bool.and_false, Bool.false_eq_true, if_false, Res.pure_eq]
      rw [addGains_zero hok]
      intro x _
      apply tagGain_eq_zero
      rintro ⟨h1, _⟩
      exact hst ((statusCounts_iff st).2 h1)
  · simp only [hver, decide_false, Bool.false_and, Bool.false_eq_true, if_false, Res.pure_eq]
    rw [addGains_zero hok]
    intro x _
    apply tagGain_eq_zero
    rintro ⟨_, _, svn', y', h3, h4, h5, h6, h7, h8⟩
    have : svn' = svn := Svn.ext (by omega)
    subst this
    rw [hy] at h4; cases h4
    rw [h7] at h8
    exact hver h8

theorem validateDummyTag_ok {key : Key} (hu : key.MacUsable) {tag : List Bool} {j : Nat} (hj : j + 1 ≤ 255)
    (ht : tag.length ≤ 128) {gst : Gst} {prna : Svn} {st : NmaStatus} {nbits : Nat} (hn : nbits ≤ 550) (prnd : Nat) :
    ∃ b, validateDummyTag C key tag gst prnd prna j st nbits = .ok b := by
  unfold validateDummyTag
  simp only [hj, decide_true, Res.assert_true, Res.ok_bind]
  split
  · rw [Key.validateTag0Dummy_eq _ _ _ _ _ hn, Key.validateTag0_eq hu ht (by simpa using hn) 0 0 0]
    exact ⟨_, rfl⟩
  · rw [Key.validateTagDummy_eq _ _ _ _ _ _ _ hn, Key.validateTag_eq hu ht (by simpa using hn) (by omega) prnd 0 0]
    exact ⟨_, rfl⟩

theorem gain_zero_of_entry {key : Key} {prna : Svn} {gst : Gst} {st : NmaStatus} {nbits : Nat} {t : TagSpec}
    {e : Svn → Option NavItem} {svn : Svn} (hsv : svn.val = t.prnd)
    (h : t.cop = 0 ∨ ∀ y, e svn = some y → ¬ y.maxAge + 1 ≤ t.cop) (x : NavItem) :
    tagGain C key prna gst st nbits e t x = 0 := by
  apply tagGain_eq_zero
  rintro ⟨_, h2, svn', y, h3, h4, h5, _⟩
  have : svn' = svn := Svn.ext (by omega)
  subst this
  rcases h with h | h
  · exact h2 h
  · exact h y h4 h5

/-- The effect of one CED tag. -/
theorem processCedTag_eq {key : Key} (hu : key.MacUsable) {t : TagSpec} {j : Nat} (hct : t.ctr = j + 1) (hj : j + 1 ≤ 255)
    (ht : t.tag.length ≤ 128) (hc16 : t.cop < 16) {gst gnav : Gst} {prna svn : Svn} {st : NmaStatus} (hsv : svn.val = t.prnd)
    (ha : gnav.isSubframe = true) {n : CollectNavMessage} (hl : Lens S n) (hok : AuthOk n.ced) :
    processCedTag S C n key t.tag t.cop gst gnav svn prna j st
      = .ok { n with ced := addGains (tagGain C key prna gst st 549 (n.entryAt S n.ced gnav) t) n.ced } := by
  unfold processCedTag
  by_cases hcop : t.cop = 0
  · rw [if_pos hcop]
    obtain ⟨b, hb⟩ := validateDummyTag_ok (C := C) hu hj ht (gst := gst) (prna := prna) (st := st) (nbits := CED_BITS)
      (by decide) svn.val
    rw [hb]
    simp only [Res.ok_bind, Res.pure_eq]
    rw [addGains_zero hok (fun x _ => gain_zero_of_entry hsv (.inl hcop) x)]
  · rw [if_neg hcop, findItem_eq hl.lc hl.lg ha]
    simp only [Res.ok_bind]
    cases he : n.entryAt S n.ced gnav svn with
    | none =>
      simp only [Res.pure_eq]
      rw [addGains_zero hok (fun x _ => gain_zero_of_entry hsv (.inr (by intro y hy; rw [he] at hy; cases hy)) x)]
    | some y =>
      dsimp only
      by_cases hage : y.maxAge + 1 ≤ t.cop
      · rw [if_pos (by omega)]
        rw [validateTag_eq (e := n.entryAt S n.ced gnav) hu hct hj ht (by decide) hsv he (entryAt_svn he) hcop hage hok]
        rfl
      · rw [if_neg (by omega)]
        simp only [Res.pure_eq]
        rw [addGains_zero hok (fun x _ => gain_zero_of_entry hsv (.inr (by intro y' hy; rw [he] at hy; cases hy; exact hage)) x)]

/-- The effect of one timing parameters tag. -/
theorem processTimingTag_eq {key : Key} (hu : key.MacUsable) {t : TagSpec} {j : Nat} (hct : t.ctr = j + 1) (hj : j + 1 ≤ 255)
    (ht : t.tag.length ≤ 128) (hc16 : t.cop < 16) {gst gnav : Gst} {prna svn : Svn} {st : NmaStatus} (hsv : svn.val = t.prnd)
    (ha : gnav.isSubframe = true) {n : CollectNavMessage} (hl : Lens S n) (hok : AuthOk n.timing) :
    processTimingTag S C n key t.tag t.cop gst gnav svn prna j st
      = .ok { n with timing := addGains (tagGain C key prna gst st 141 (n.entryAt S n.timing gnav) t) n.timing } := by
  unfold processTimingTag
  by_cases hcop : t.cop = 0
  · rw [if_pos hcop]
    obtain ⟨b, hb⟩ := validateDummyTag_ok (C := C) hu hj ht (gst := gst) (prna := prna) (st := st) (nbits := TIMING_BITS)
      (by decide) svn.val
    rw [hb]
    simp only [Res.ok_bind, Res.pure_eq]
    rw [addGains_zero hok (fun x _ => gain_zero_of_entry hsv (.inl hcop) x)]
  · rw [if_neg hcop, findItem_eq hl.lt hl.lg ha]
    simp only [Res.ok_bind]
    cases he : n.entryAt S n.timing gnav svn with
    | none =>
      simp only [Res.pure_eq]
      rw [addGains_zero hok (fun x _ => gain_zero_of_entry hsv (.inr (by intro y hy; rw [he] at hy; cases hy)) x)]
    | some y =>
      dsimp only
      by_cases hage : y.maxAge + 1 ≤ t.cop
      · rw [if_pos (by omega)]
        rw [validateTag_eq (e := n.entryAt S n.timing gnav) hu hct hj ht (by decide) hsv he (entryAt_svn he) hcop hage hok]
        rfl
      · rw [if_neg (by omega)]
        simp only [Res.pure_eq]
        rw [addGains_zero hok (fun x _ => gain_zero_of_entry hsv (.inr (by intro y' hy; rw [he] at hy; cases hy; exact hage)) x)]

end CollectNavMessage
end Verif
