import Verif.Spec.Places
import Verif.Lemmas.NavFrames

/-! # Lemmas: who keeps a place in the store -/

namespace Verif
open CollectSubframe (snoc_induction)

variable {S : Storage}

/-! ## Ages -/

/-- The entries at the start of a word of the subframe `g`, from those of the subframe `g'`. -/
def NavItem.aged (same : Prop) [Decidable same] (x : NavItem) : NavItem := if same then x else x.older

theorem NavItem.aged_svn (same : Prop) [Decidable same] (x : NavItem) : (x.aged same).svn = x.svn := by
  unfold aged; split <;> rfl

theorem NavKind.fieldAge_step {r : List InavCall} {l c : InavCall} (h : Chronological (r ++ [l] ++ [c])) (kd : NavKind) (v : Svn) (f : NavField) :
    kd.fieldAge (r ++ [l] ++ [c]) v f = if c.svn = v ∧ kd.carries c f = true then 0
      else if l.gst.subframe = c.gst.subframe then kd.fieldAge (r ++ [l]) v f else min 255 (kd.fieldAge (r ++ [l]) v f + 1) := by
  by_cases hs : l.gst.subframe = c.gst.subframe
  · rw [if_pos hs]
    exact (NavKind.fieldAge_snoc h kd v f).1 ⟨l, by simp, hs⟩
  · rw [if_neg hs]
    refine (NavKind.fieldAge_snoc h kd v f).2 ?_
    intro e he hee
    have h1 := h.init.le_last e he
    have h2 := h.last
    rw [hee] at h1
    exact hs (Gst.abs_inj (by omega))

theorem navBase_items {p : List InavCall} {l c : InavCall} (kd : NavKind) {s : NavSlot} (hs : navHead S (p ++ [l]) = some s) :
    (NavSlot.base S.numSats c.gst.subframe (navHead S (p ++ [l]))).items kd
      = (s.items kd).map (NavItem.aged (l.gst.subframe = c.gst.subframe)) := by
  rw [hs]
  have hg : s.gst = l.gst.subframe := by rw [navHead_snoc] at hs; cases hs; rfl
  rcases NavSlot.base_items S.numSats c.gst.subframe (some s) kd with ⟨h, _⟩ | ⟨s', h, ⟨h1, h2⟩ | ⟨h1, h2⟩⟩
  · cases h
  · cases h
    rw [h2]
    have : ∀ x : NavItem, x.aged (l.gst.subframe = c.gst.subframe) = x := fun x => if_pos (by rw [← hg]; exact h1)
    rw [show NavItem.aged (l.gst.subframe = c.gst.subframe) = id from funext this, List.map_id]
  · cases h
    rw [h2]
    apply List.map_congr_left
    intro x _
    exact (if_neg (by rw [← hg]; exact h1)).symm

theorem NavItem.feedUpd_age_get {kd : NavKind} {x : NavItem} (hw : x.Wf kd) (c : InavCall) {i : Nat} {f : NavField}
    (hf : kd.fields[i]? = some f) :
    (x.feedUpd (kd.upd c) c.svn).age[i]? = if kd.carries c f = true then some 0 else (x.assign c.svn).age[i]? := by
  rw [NavItem.feedUpd_age]
  have hl := (hw.assign c.svn).age
  have hi := (List.getElem?_eq_some_iff.1 hf).1
  cases hu : kd.upd c with
  | none => rw [kd.upd_none hu f (List.mem_of_getElem? hf)]; rfl
  | some u =>
    obtain ⟨f', h1, h2, _, _, _, h6⟩ := kd.upd_some hu
    dsimp only
    by_cases hc : kd.carries c f = true
    · have := h6 i f hf hc
      subst this
      rw [if_pos hc, List.getElem?_set_self (by omega)]
    · rw [if_neg hc, List.getElem?_set_ne]
      intro hh
      subst hh
      rw [hf] at h1; cases h1
      exact hc h2

theorem NavItem.feedUpd_seg {kd : NavKind} {x : NavItem} (hw : x.Wf kd) (c : InavCall) {i : Nat} {f : NavField}
    (hf : kd.fields[i]? = some f) :
    (x.feedUpd (kd.upd c) c.svn).seg kd i f = if kd.carries c f = true then f.bits c else x.seg kd i f := by
  unfold NavItem.feedUpd
  cases hu : kd.upd c with
  | none => dsimp only; rw [kd.upd_none hu f (List.mem_of_getElem? hf), NavItem.seg_assign]; rfl
  | some u =>
    dsimp only
    obtain ⟨f', h1, h2, _, _, _, h6⟩ := kd.upd_some hu
    rw [NavItem.seg_copyWord (hw.assign c.svn) hu hf, NavItem.seg_assign]
    by_cases hc : kd.carries c f = true
    · rw [if_pos hc, if_pos (h6 i f hf hc)]
    · rw [if_neg hc, if_neg]
      intro hh
      subst hh
      rw [hf] at h1; cases h1
      exact hc h2

/-! ## Every entry is at least as old as the words of its satellite -/

/-- An entry is for a satellite heard, and its fields are not newer than the words. -/
structure NotNewer (kd : NavKind) (p : List InavCall) (A : Svn → NavField → Nat) (x : NavItem) : Prop where
  unassigned : x.svn = none → ∀ a ∈ x.age, a = 255
  heard : ∀ w, x.svn = some w → ∃ c ∈ p, c.svn = w
  age : ∀ w, x.svn = some w → ∀ (i : Nat) (f : NavField) (a : Nat), kd.fields[i]? = some f → x.age[i]? = some a → A w f ≤ a

theorem NotNewer.feed {kd : NavKind} {p : List InavCall} {A A' : Svn → NavField → Nat} {x : NavItem} {c : InavCall} (hw : x.Wf kd)
    (h : NotNewer kd p A x) (hA : ∀ v f, A v f ≤ 255) (hA' : ∀ v f, A' v f = if c.svn = v ∧ kd.carries c f = true then 0 else A v f) :
    NotNewer kd (p ++ [c]) A' (x.feedUpd (kd.upd c) c.svn) := by
  refine ⟨?_, ?_, ?_⟩
  · intro hn; rw [NavItem.feedUpd_svn] at hn; cases hn
  · intro w hv; rw [NavItem.feedUpd_svn] at hv; cases hv; exact ⟨c, by simp, rfl⟩
  · intro w hv i f a hf ha
    rw [NavItem.feedUpd_svn] at hv; cases hv
    rw [NavItem.feedUpd_age_get hw c hf] at ha
    rw [hA']
    by_cases hc : kd.carries c f = true
    · rw [if_pos ⟨rfl, hc⟩]; omega
    · rw [if_neg (fun hh => hc hh.2)]
      rw [if_neg hc] at ha
      have := hA c.svn f
      rcases x.assign_age c.svn with ⟨he, hs⟩ | he
      · rw [he] at ha
        rcases hs with hs | hs
        · exact h.age _ hs i f a hf ha
        · have := h.unassigned hs a (List.mem_of_getElem? ha); omega
      · rw [he] at ha
        simp only [List.getElem?_map, Option.map_eq_some_iff] at ha
        obtain ⟨b, _, rfl⟩ := ha
        omega

theorem NotNewer.other {kd : NavKind} {p : List InavCall} {A A' : Svn → NavField → Nat} {x : NavItem} {c : InavCall}
    (h : NotNewer kd p A x) (hA' : ∀ v f, A' v f = if c.svn = v ∧ kd.carries c f = true then 0 else A v f) (hne : x.svn ≠ some c.svn) :
    NotNewer kd (p ++ [c]) A' x := by
  refine ⟨h.unassigned, ?_, ?_⟩
  · intro w hv
    obtain ⟨d, hd, e⟩ := h.heard w hv
    exact ⟨d, by simp [hd], e⟩
  · intro w hv i f a hf ha
    rw [hA', if_neg (fun hh => hne (by rw [hv, hh.1]))]
    exact h.age w hv i f a hf ha

theorem NotNewer.aged {kd : NavKind} {p : List InavCall} {A : Svn → NavField → Nat} {x : NavItem} (h : NotNewer kd p A x) (same : Prop)
    [Decidable same] : NotNewer kd p (fun v f => if same then A v f else min 255 (A v f + 1)) (x.aged same) := by
  unfold NavItem.aged
  by_cases hs : same
  · rw [if_pos hs]
    refine ⟨h.unassigned, h.heard, ?_⟩
    intro w hv i f a hf ha
    rw [if_pos hs]
    exact h.age w hv i f a hf ha
  · rw [if_neg hs]
    refine ⟨?_, h.heard, ?_⟩
    · intro hn a ha
      simp only [NavItem.older, List.mem_map] at ha
      obtain ⟨b, hb, rfl⟩ := ha
      have := h.unassigned hn b hb
      omega
    · intro w hv i f a hf ha
      rw [if_neg hs]
      simp only [NavItem.older, List.getElem?_map, Option.map_eq_some_iff] at ha
      obtain ⟨b, hb, rfl⟩ := ha
      have := h.age w hv i f b hf hb
      omega

theorem NavKind.fieldAge_le (kd : NavKind) (p : List InavCall) (v : Svn) (f : NavField) : kd.fieldAge p v f ≤ 255 := by
  unfold fieldAge; split <;> omega

theorem navHead_notNewer (hn : 0 < S.numSats) (kd : NavKind) (p : List InavCall) (hchr : Chronological p) :
    ∀ s, navHead S p = some s → ∀ x ∈ s.items kd, NotNewer kd p (kd.fieldAge p) x := by
  induction p using snoc_induction with
  | h0 => intro s hs; cases hs
  | h1 p c ih =>
    intro s hs
    replace ih := ih hchr.init
    rw [navHead_snoc] at hs; cases hs
    rw [NavSlot.step_items]
    have hg := NavSlot.Good.base (g := c.gst.subframe) (navHead_good hn kd p)
    rcases List.eq_nil_or_concat p with rfl | ⟨q, l, rfl⟩
    · have hb : (NavSlot.base S.numSats c.gst.subframe (navHead S [])).items kd = List.replicate S.numSats kd.newItem := by
        cases kd <;> rfl
      rw [hb] at hg ⊢
      have hA' : ∀ v f, kd.fieldAge ([] ++ [c]) v f = if c.svn = v ∧ kd.carries c f = true then 0 else 255 := by
        intro v f
        rw [(NavKind.fieldAge_snoc (p := []) hchr kd v f).2 (by simp)]; rfl
      refine hg.step_all hn c (P := NotNewer kd [] (fun _ _ => 255)) ?_ ?_ ?_
      · intro x hx
        rw [List.eq_of_mem_replicate hx]
        refine ⟨(FreshInv.new (T := True) kd [] c.gst).unassigned, ?_, ?_⟩ <;>
          (intro w hw; rw [NavKind.newItem_svn] at hw; cases hw)
      · exact fun x _ hw h => h.feed hw (fun _ _ => Nat.le_refl _) hA'
      · exact fun x _ hw h hne => h.other hA' hne
    · rw [List.concat_eq_append] at *
      obtain ⟨s0, hs0⟩ : ∃ s0, navHead S (q ++ [l]) = some s0 := ⟨_, navHead_snoc q l⟩
      have hA' := NavKind.fieldAge_step hchr kd
      rw [navBase_items kd hs0] at hg ⊢
      refine hg.step_all hn c (P := NotNewer kd (q ++ [l]) (fun v f => if l.gst.subframe = c.gst.subframe then kd.fieldAge (q ++ [l]) v f
        else min 255 (kd.fieldAge (q ++ [l]) v f + 1))) ?_ ?_ ?_
      · intro x hx
        obtain ⟨y, hy, rfl⟩ := List.mem_map.1 hx
        exact (ih s0 hs0 y hy).aged _
      · refine fun x _ hw h => h.feed hw (fun v f => ?_) hA'
        have := kd.fieldAge_le (q ++ [l]) v f
        split <;> omega
      · exact fun x _ hw h hne => h.other hA' hne

/-! ## The entry of a satellite that keeps its place -/

/-- The entry of satellite `v`, which has it since the words `r`. -/
structure HolderOf (kd : NavKind) (r : List InavCall) (A : NavField → Nat) (v : Svn) (x : NavItem) : Prop where
  svn : x.svn = some v
  le : ∀ (i : Nat) (f : NavField) (a : Nat), kd.fields[i]? = some f → x.age[i]? = some a → a ≤ A f
  field : ∀ (i : Nat) (f : NavField) (c : InavCall), kd.fields[i]? = some f → kd.latest r v f = some c →
    x.seg kd i f = f.bits c ∧ x.age[i]? = some (A f)

theorem HolderOf.aged {kd : NavKind} {r : List InavCall} {A : NavField → Nat} {v : Svn} {x : NavItem} (h : HolderOf kd r A v x) (same : Prop)
    [Decidable same] : HolderOf kd r (fun f => if same then A f else min 255 (A f + 1)) v (x.aged same) := by
  unfold NavItem.aged
  by_cases hs : same
  · simp only [if_pos hs]; exact h
  · simp only [if_neg hs]
    refine ⟨h.svn, ?_, ?_⟩
    · intro i f a hf ha
      simp only [NavItem.older, List.getElem?_map, Option.map_eq_some_iff] at ha
      obtain ⟨b, hb, rfl⟩ := ha
      have := h.le i f b hf hb
      omega
    · intro i f c hf hc
      obtain ⟨h1, h2⟩ := h.field i f c hf hc
      refine ⟨h1, ?_⟩
      simp only [NavItem.older, List.getElem?_map, h2, Option.map_some]

theorem HolderOf.other {kd : NavKind} {r : List InavCall} {A A' : NavField → Nat} {v : Svn} {x : NavItem} (h : HolderOf kd r A v x)
    {c : InavCall} (hc : c.svn ≠ v) (hA' : ∀ f, A' f = A f) : HolderOf kd (r ++ [c]) A' v x := by
  refine ⟨h.svn, ?_, ?_⟩
  · intro i f a hf ha; rw [hA']; exact h.le i f a hf ha
  · intro i f d hf hd
    rw [NavKind.latest_other hc] at hd
    rw [hA']; exact h.field i f d hf hd

theorem HolderOf.own {kd : NavKind} {r : List InavCall} {A A' : NavField → Nat} {v : Svn} {x : NavItem} (hw : x.Wf kd)
    (h : HolderOf kd r A v x) {c : InavCall} (hc : c.svn = v) (hA' : ∀ f, A' f = if kd.carries c f = true then 0 else A f) :
    HolderOf kd (r ++ [c]) A' v (x.feedUpd (kd.upd c) c.svn) := by
  subst hc
  refine ⟨NavItem.feedUpd_svn .., ?_, ?_⟩
  · intro i f a hf ha
    rw [NavItem.feedUpd_age_get hw c hf, NavItem.assign_same h.svn] at ha
    rw [hA']
    by_cases hc : kd.carries c f = true
    · rw [if_pos hc] at ha; cases ha; omega
    · rw [if_neg hc] at ha
      rw [if_neg hc]; exact h.le i f a hf ha
  · intro i f d hf hd
    rw [NavKind.latest_snoc] at hd
    rw [NavItem.feedUpd_age_get hw c hf, NavItem.assign_same h.svn, NavItem.feedUpd_seg hw c hf, hA']
    by_cases hc : kd.carries c f = true
    · rw [if_pos ⟨rfl, hc⟩] at hd; cases hd
      rw [if_pos hc, if_pos hc, if_pos hc]; exact ⟨rfl, rfl⟩
    · rw [if_neg (fun hh => hc hh.2)] at hd
      rw [if_neg hc, if_neg hc, if_neg hc]; exact h.field i f d hf hd

theorem HolderOf.gets {kd : NavKind} {x : NavItem} (hw : x.Wf kd) (c : InavCall) :
    HolderOf kd [c] (kd.fieldAge [c] c.svn) c.svn (x.feedUpd (kd.upd c) c.svn) := by
  have hA : ∀ f, kd.fieldAge [c] c.svn f = if kd.carries c f = true then 0 else 255 := by
    intro f
    have := (NavKind.fieldAge_snoc (p := []) (Chronological.single c) kd c.svn f).2 (by simp)
    rw [List.nil_append] at this
    rw [this]
    by_cases hc : kd.carries c f = true
    · rw [if_pos ⟨rfl, hc⟩, if_pos hc]
    · rw [if_neg (fun hh => hc hh.2), if_neg hc]; rfl
  have hw' := hw.feedUpd c
  refine ⟨NavItem.feedUpd_svn .., ?_, ?_⟩
  · intro i f a hf ha
    rw [hA]
    by_cases hc : kd.carries c f = true
    · rw [NavItem.feedUpd_age_get hw c hf, if_pos hc] at ha; cases ha; omega
    · rw [if_neg hc]; exact hw'.le a (List.mem_of_getElem? ha)
  · intro i f d hf hd
    have : kd.latest ([] ++ [c]) c.svn f = some d := hd
    rw [NavKind.latest_snoc] at this
    by_cases hc : kd.carries c f = true
    · rw [if_pos ⟨rfl, hc⟩] at this; cases this
      rw [NavItem.feedUpd_age_get hw c hf, NavItem.feedUpd_seg hw c hf, hA, if_pos hc, if_pos hc, if_pos hc]; exact ⟨rfl, rfl⟩
    · rw [if_neg (fun hh => hc hh.2)] at this; cases this

theorem HolderOf.maxAge_le {kd : NavKind} {r : List InavCall} {A : NavField → Nat} {v : Svn} {x : NavItem} (hw : x.Wf kd)
    (h : HolderOf kd r A v x) : x.maxAge ≤ (kd.fields.map A).foldl max 0 := by
  rw [NavItem.maxAge_le]
  intro a ha
  obtain ⟨i, hi, he⟩ := List.mem_iff_getElem.1 ha
  have hl : i < kd.fields.length := by have := hw.age; omega
  have h1 := h.le i _ a (List.getElem?_eq_getElem hl) (by rw [List.getElem?_eq_getElem hi, he])
  have h2 := (NavItem.foldl_max_le (l := kd.fields.map A) (a := 0)).1 (Nat.le_refl _)
  have := h2.2 _ (List.mem_map_of_mem (List.getElem_mem hl))
  omega

theorem NotNewer.le_maxAge {kd : NavKind} {p : List InavCall} {A : Svn → NavField → Nat} {x : NavItem} (hw : x.Wf kd)
    (h : NotNewer kd p A x) {w : Svn} (hs : x.svn = some w) : (kd.fields.map (A w)).foldl max 0 ≤ x.maxAge := by
  rw [NavItem.foldl_max_le]
  refine ⟨Nat.zero_le _, ?_⟩
  intro a ha
  obtain ⟨f, hf, rfl⟩ := List.mem_map.1 ha
  obtain ⟨i, hi, he⟩ := List.mem_iff_getElem.1 hf
  have hl : i < x.age.length := by have := hw.age; omega
  have h1 := h.age w hs i f _ (by rw [List.getElem?_eq_getElem hi, he]) (List.getElem?_eq_getElem hl)
  have := NavItem.maxAge_le.1 (Nat.le_refl x.maxAge) _ (List.getElem_mem hl)
  omega

theorem KeepsPlace.last {kd : NavKind} {q r : List InavCall} {v : Svn} (h : KeepsPlace S kd q v r) : ∃ r' l, r = r' ++ [l] := by
  cases h with
  | gets _ c => exact ⟨[], c, rfl⟩
  | own c h hc => exact ⟨_, c, rfl⟩
  | placed c h hs hc => exact ⟨_, c, rfl⟩
  | fresh c h hc => exact ⟨_, c, rfl⟩

theorem Chronological.suffix {q r : List InavCall} (h : Chronological (q ++ r)) : Chronological r := by
  intro i a b ha hb
  refine h (q.length + i) a b ?_ ?_
  · rw [List.getElem?_append_right (by omega)]; simpa using ha
  · rw [List.getElem?_append_right (by omega)]
    rw [show q.length + i + 1 - q.length = i + 1 by omega]; exact hb

/-- **The satellite has its entry.** -/
theorem KeepsPlace.holder (hn : 0 < S.numSats) {kd : NavKind} {q r : List InavCall} {v : Svn} (h : KeepsPlace S kd q v r)
    (hchr : Chronological (q ++ r)) :
    ∀ s, navHead S (q ++ r) = some s → ∃ x ∈ s.items kd, HolderOf kd r (kd.fieldAge r v) v x := by
  -- one step, given that the place chosen is not that of `v`
  have step : ∀ {q r : List InavCall} {v : Svn} {c : InavCall}, c.svn ≠ v → (∃ r' l, r = r' ++ [l]) → Chronological (q ++ (r ++ [c])) →
      (∀ s, navHead S (q ++ r) = some s → ∃ x ∈ s.items kd, HolderOf kd r (kd.fieldAge r v) v x) →
      (∀ (b : List NavItem) (x y : NavItem), NavSlot.Good S.numSats kd b → x ∈ b → y ∈ b → y.svn = some v →
        (∀ z ∈ b, ∀ w, z.svn = some w → (∃ c ∈ q ++ r, c.svn = w) ∧ (w ≠ c.svn → kd.oldestAge (q ++ r ++ [c]) w ≤ z.maxAge)) →
        y.maxAge ≤ kd.oldestAge (r ++ [c]) v →
        (∀ q' r', q ++ r = q' ++ r' → KeepsPlace S kd q' c.svn r' →
          (∀ s, navHead S (q' ++ r') = some s → ∃ x ∈ s.items kd, HolderOf kd r' (kd.fieldAge r' c.svn) c.svn x) → ∃ z ∈ b, z.svn = some c.svn) →
        (x.svn = some c.svn ∨ ((∀ y ∈ b, y.svn ≠ some c.svn) ∧ (x.svn = none ∨ (∀ y ∈ b, y.svn ≠ none ∧ y.maxAge ≤ x.maxAge)))) →
        x.svn ≠ some v) →
      ∀ s, navHead S (q ++ (r ++ [c])) = some s → ∃ x ∈ s.items kd, HolderOf kd (r ++ [c]) (kd.fieldAge (r ++ [c]) v) v x := by
    rintro q r v c hcv ⟨r', l, rfl⟩ hchr ih hsel s hs
    have hchr1 : Chronological (q ++ r' ++ [l] ++ [c]) := by simpa using hchr
    have hchr2 : Chronological (r' ++ [l] ++ [c]) := hchr.suffix
    rw [← List.append_assoc] at hs
    rw [← List.append_assoc] at hs ih hsel
    rw [navHead_snoc] at hs; cases hs
    rw [NavSlot.step_items]
    obtain ⟨s0, hs0⟩ : ∃ s0, navHead S (q ++ r' ++ [l]) = some s0 := ⟨_, navHead_snoc _ l⟩
    have hg := NavSlot.Good.base (g := c.gst.subframe) (navHead_good hn kd (q ++ r' ++ [l]))
    rw [navBase_items kd hs0] at hg ⊢
    obtain ⟨x0, hx0, hh⟩ := ih s0 hs0
    have hb := hh.aged (l.gst.subframe = c.gst.subframe)
    have hbm := List.mem_map_of_mem (f := NavItem.aged (l.gst.subframe = c.gst.subframe)) hx0
    have hh' := hb.other (A' := kd.fieldAge (r' ++ [l] ++ [c]) v) hcv (fun f => by
      rw [NavKind.fieldAge_step hchr2, if_neg (fun hh => hcv hh.1)])
    obtain ⟨i, x, hx, hu, hc, _⟩ := hg.upd hn c
    have hxv := hsel _ x _ hg (List.mem_of_getElem? hx) hbm hb.svn ?_ ?_ ?_ hc
    · refine ⟨_, ?_, hh'⟩
      rw [hu]
      obtain ⟨j, hj, he⟩ := List.mem_iff_getElem.1 hbm
      rw [List.mem_iff_getElem]
      refine ⟨j, by simpa using hj, ?_⟩
      rw [List.getElem_set_ne, he]
      rintro rfl
      rw [List.getElem?_eq_getElem hj, he] at hx
      cases hx
      exact hxv hb.svn
    · intro z hz w hzw
      obtain ⟨y, hy, rfl⟩ := List.mem_map.1 hz
      have h1 := (navHead_notNewer hn kd _ hchr1.init s0 hs0 y hy).aged (l.gst.subframe = c.gst.subframe)
      refine ⟨h1.heard w hzw, ?_⟩
      intro hwc
      have h2 := h1.le_maxAge (hg.wf _ hz) hzw
      unfold NavKind.oldestAge
      have : kd.fields.map (kd.fieldAge (q ++ r' ++ [l] ++ [c]) w) = kd.fields.map (fun f =>
          if l.gst.subframe = c.gst.subframe then kd.fieldAge (q ++ r' ++ [l]) w f else min 255 (kd.fieldAge (q ++ r' ++ [l]) w f + 1)) := by
        apply List.map_congr_left
        intro f _
        rw [NavKind.fieldAge_step hchr1, if_neg (fun hh => hwc hh.1.symm)]
      rw [this]; exact h2
    · exact hh'.maxAge_le (hg.wf _ hbm)
    · intro q' r' he _ hz
      rw [← he] at hz
      obtain ⟨z, hz1, hz2⟩ := hz s0 hs0
      exact ⟨_, List.mem_map_of_mem hz1, by rw [NavItem.aged_svn]; exact hz2.svn⟩
  -- own words
  have stepOwn : ∀ {q r : List InavCall} {v : Svn} {c : InavCall}, c.svn = v → (∃ r' l, r = r' ++ [l]) → Chronological (q ++ (r ++ [c])) →
      (∀ s, navHead S (q ++ r) = some s → ∃ x ∈ s.items kd, HolderOf kd r (kd.fieldAge r v) v x) →
      ∀ s, navHead S (q ++ (r ++ [c])) = some s → ∃ x ∈ s.items kd, HolderOf kd (r ++ [c]) (kd.fieldAge (r ++ [c]) v) v x := by
    rintro q r v c hcv ⟨r', l, rfl⟩ hchr ih s hs
    have hchr2 : Chronological (r' ++ [l] ++ [c]) := hchr.suffix
    rw [← List.append_assoc] at hs
    rw [← List.append_assoc] at hs ih
    rw [navHead_snoc] at hs; cases hs
    rw [NavSlot.step_items]
    obtain ⟨s0, hs0⟩ : ∃ s0, navHead S (q ++ r' ++ [l]) = some s0 := ⟨_, navHead_snoc _ l⟩
    have hg := NavSlot.Good.base (g := c.gst.subframe) (navHead_good hn kd (q ++ r' ++ [l]))
    rw [navBase_items kd hs0] at hg ⊢
    obtain ⟨x0, hx0, hh⟩ := ih s0 hs0
    have hb := hh.aged (l.gst.subframe = c.gst.subframe)
    have hbm := List.mem_map_of_mem (f := NavItem.aged (l.gst.subframe = c.gst.subframe)) hx0
    obtain ⟨i, x, hx, hu, hc, _⟩ := hg.upd hn c
    have hxe : x = x0.aged (l.gst.subframe = c.gst.subframe) := by
      obtain ⟨j, hj, he⟩ := List.mem_iff_getElem.1 hbm
      rcases hc with hc | ⟨hc, _⟩
      · have := hg.distinct i j x _ c.svn hx (by rw [List.getElem?_eq_getElem hj, he]) hc (by rw [hb.svn, hcv])
        subst this
        rw [List.getElem?_eq_getElem hj, he] at hx
        exact (Option.some.inj hx).symm
      · exact absurd (by rw [hb.svn, hcv]) (hc _ hbm)
    subst hxe
    have hi : i < ((s0.items kd).map (NavItem.aged (l.gst.subframe = c.gst.subframe))).length := (List.getElem?_eq_some_iff.1 hx).1
    refine ⟨_, ?_, hb.own (A' := kd.fieldAge (r' ++ [l] ++ [c]) v) (hg.wf _ hbm) hcv (fun f => by
      rw [NavKind.fieldAge_step hchr2]
      by_cases hcf : kd.carries c f = true
      · rw [if_pos ⟨hcv, hcf⟩, if_pos hcf]
      · rw [if_neg (fun hh => hcf hh.2), if_neg hcf])⟩
    rw [hu]
    exact List.mem_set hi _
  induction h with
  | gets q c =>
    intro s hs
    rw [navHead_snoc] at hs; cases hs
    rw [NavSlot.step_items]
    have hg := NavSlot.Good.base (g := c.gst.subframe) (navHead_good hn kd q)
    obtain ⟨i, x, hx, hu, hc, _⟩ := hg.upd hn c
    rw [hu]
    exact ⟨_, List.mem_set (List.getElem?_eq_some_iff.1 hx).1 _, HolderOf.gets (hg.wf x (List.mem_of_getElem? hx)) c⟩
  | own c h hc ih =>
    exact stepOwn hc h.last hchr (ih (by rw [← List.append_assoc] at hchr; exact hchr.init))
  | @placed q r q' r' v c h hs hc ih ih' =>
    have hchr1 : Chronological (q ++ r) := by rw [← List.append_assoc] at hchr; exact hchr.init
    by_cases hcv : c.svn = v
    · exact stepOwn hcv h.last hchr (ih hchr1)
    · refine step hcv h.last hchr (ih hchr1) ?_
      intro b x y hg hx hy hyv hall hle hpl hsel hxv
      obtain ⟨z, hz, hzs⟩ := hpl q' r' hs hc (ih' (by rw [← hs]; exact hchr1))
      rcases hsel with hsel | ⟨hsel, _⟩
      · rw [hxv] at hsel; exact hcv (Option.some.inj hsel).symm
      · exact hsel z hz hzs
  | @fresh q r v c h hc ih =>
    have hchr1 : Chronological (q ++ r) := by rw [← List.append_assoc] at hchr; exact hchr.init
    by_cases hcv : c.svn = v
    · exact stepOwn hcv h.last hchr (ih hchr1)
    · refine step hcv h.last hchr (ih hchr1) ?_
      intro b x y hg hx hy hyv hall hle _ hsel hxv
      rcases hsel with hsel | ⟨hno, hsel | hsel⟩
      · rw [hxv] at hsel; exact hcv (Option.some.inj hsel).symm
      · rw [hxv] at hsel; cases hsel
      · have hxy : x = y := by
          obtain ⟨i, hi, hxe⟩ := List.mem_iff_getElem.1 hx
          obtain ⟨j, hj, hye⟩ := List.mem_iff_getElem.1 hy
          have := hg.distinct i j x y v (by rw [List.getElem?_eq_getElem hi, hxe]) (by rw [List.getElem?_eq_getElem hj, hye]) hxv hyv
          subst this
          rw [← hxe, hye]
        subst hxy
        have := assigned_lt (sats := c.svn :: v :: kd.fresherThan q r v c) (v := c.svn) (by simp) hg.distinct ?_ hno (fun z hz => (hsel z hz).1)
        · have := hg.len
          simp only [List.length_cons] at *
          omega
        · intro z hz w hzw
          by_cases h1 : w = c.svn
          · simp [h1]
          by_cases h2 : w = v
          · simp [h2]
          refine List.mem_cons_of_mem _ (List.mem_cons_of_mem _ ?_)
          unfold NavKind.fresherThan
          rw [List.mem_filter]
          obtain ⟨a1, a2⟩ := hall z hz w hzw
          have := (hsel z hz).2
          have := a2 h1
          refine ⟨?_, by simp only [decide_eq_true_eq]; exact ⟨h2, h1, by omega⟩⟩
          unfold heard
          rw [List.mem_eraseDups]
          obtain ⟨d, hd, rfl⟩ := a1
          exact List.mem_map_of_mem hd

end Verif
