import Verif.Lemmas.NavGet

/-! # Lemmas: invariants of single entries along runs -/

namespace Verif
open CollectNavMessage

variable {S : Storage} {C : Crypto}

/-! ## The tags checked -/

namespace OsnmaData
variable {d : OsnmaData C}

theorem mem_tagsOf {key : Key} {gst : Gst} {adkd : Nat} {svn : Svn} {r : Option (MackMessage × NmaStatus)} {u : TagUse} :
    u ∈ tagsOf key gst adkd svn r ↔ ∃ m, r = some (m, u.st) ∧ u.key = key ∧ u.prna = svn ∧ u.gst = gst ∧
      u.tag ∈ mackTags m key.chain svn ∧ u.tag.adkd = adkd := by
  cases r with
  | none => simp [tagsOf]
  | some p =>
    obtain ⟨m, st⟩ := p
    simp only [tagsOf, List.mem_map, List.mem_filter, beq_iff_eq, Option.some.injEq, Prod.mk.injEq]
    constructor
    · rintro ⟨t, ⟨h1, h2⟩, rfl⟩
      exact ⟨m, ⟨rfl, rfl⟩, rfl, rfl, rfl, h1, h2⟩
    · rintro ⟨m', ⟨rfl, h0⟩, h1, h2, h3, h4, h5⟩
      refine ⟨u.tag, ⟨h4, h5⟩, ?_⟩
      obtain ⟨a, b, c, e, f⟩ := u
      simp_all

theorem mem_fastUses {key : Key} {gst : Gst} {adkd : Nat} {svn : Svn} {u : TagUse} :
    u ∈ d.fastUses S key gst adkd svn ↔ d.onlySlowmac = false ∧ ∃ m, d.usableMack S key key.chain gst svn = some (m, u.st) ∧
      u.key = key ∧ u.prna = svn ∧ u.gst = gst ∧ u.tag ∈ mackTags m key.chain svn ∧ u.tag.adkd = adkd := by
  unfold fastUses
  by_cases h : d.onlySlowmac
  · rw [if_pos h]; simp [h]
  · rw [if_neg h, mem_tagsOf]; simp [h]

theorem mem_slowUses {key : Key} {sk : Option Key} {gst : Gst} {svn : Svn} {u : TagUse} :
    u ∈ d.slowUses S key sk gst svn ↔ ∃ k m, sk = some k ∧ d.usableMack S k key.chain gst svn = some (m, u.st) ∧
      u.key = key ∧ u.prna = svn ∧ u.gst = gst ∧ u.tag ∈ mackTags m key.chain svn ∧ u.tag.adkd = 12 := by
  unfold slowUses
  cases sk with
  | none => simp
  | some k => dsimp only; rw [mem_tagsOf]; simp

theorem mem_cedUses {key : Key} {sk : Option Key} {gm gs : Gst} {u : TagUse} (h : u ∈ d.cedUses S key sk gm gs) :
    u.key = key ∧ ∃ m, u.tag ∈ mackTags m key.chain u.prna ∧
      ((d.onlySlowmac = false ∧ u.gst = gm ∧ u.tag.adkd = 0 ∧ d.usableMack S key key.chain gm u.prna = some (m, u.st)) ∨
        (u.gst = gs ∧ u.tag.adkd = 12 ∧ ∃ k, sk = some k ∧ d.usableMack S k key.chain gs u.prna = some (m, u.st))) := by
  unfold cedUses at h
  obtain ⟨svn, _, h⟩ := List.mem_flatMap.1 h
  rcases List.mem_append.1 h with h | h
  · obtain ⟨h0, m, h1, h2, rfl, h4, h5, h6⟩ := mem_fastUses.1 h
    exact ⟨h2, m, h5, .inl ⟨h0, h4, h6, h1⟩⟩
  · obtain ⟨k, m, h0, h1, h2, rfl, h4, h5, h6⟩ := mem_slowUses.1 h
    exact ⟨h2, m, h5, .inr ⟨h4, h6, k, h0, h1⟩⟩

theorem mem_timingUses {key : Key} {gm : Gst} {u : TagUse} (h : u ∈ d.timingUses S key gm) :
    u.key = key ∧ ∃ m, u.tag ∈ mackTags m key.chain u.prna ∧ d.onlySlowmac = false ∧ u.gst = gm ∧ u.tag.adkd = 4 ∧
      d.usableMack S key key.chain gm u.prna = some (m, u.st) := by
  unfold timingUses at h
  obtain ⟨svn, _, h⟩ := List.mem_flatMap.1 h
  obtain ⟨h0, m, h1, h2, rfl, h4, h5, h6⟩ := mem_fastUses.1 h
  exact ⟨h2, m, h5, h0, h4, h6, h1⟩

end OsnmaData

theorem mackTags_cop_lt {m : MackMessage} {c : Chain} {prna : Svn} {t : TagSpec} (h : t ∈ mackTags m c prna) : t.cop < 16 := by
  unfold mackTags at h
  obtain ⟨j, _, rfl⟩ := List.mem_map.1 h
  exact Mack.mackTag_cop_lt _ _ _ _

/-- The tags checked for each kind in a call that makes a key known. -/
def KeyArrives.uses {o o' : Osnma C} {data : OsnmaDataMessage} {svn : Svn} {gst : Gst} (k : KeyArrives S o o' data svn gst) :
    NavKind → List TagUse
  | .ced => ({ k.d1 with key := k.ks } : OsnmaData C).cedUses S (mackKey k.msg k.cur.chain k.g) k.slowKey k.gstMack k.gstSlow
  | .timing => ({ k.d1 with key := k.ks } : OsnmaData C).timingUses S (mackKey k.msg k.cur.chain k.g) k.gstMack

/-- Effect on the arrays of a call that makes a key known. -/
theorem KeyArrives.arr {o o' : Osnma C} {data : OsnmaDataMessage} {svn : Svn} {gst : Gst} (k : KeyArrives S o o' data svn gst)
    (kd : NavKind) : o'.data.data.navmessage.arr kd
      = addGains (usesGain S C o.data.data.navmessage (o.data.data.navmessage.arr kd) kd.nbits (k.uses kd))
        (o.data.data.navmessage.arr kd) := by
  rw [k.hnew]
  cases kd <;> rfl

/-- Tags with a small cut-off point that count. -/
theorem KeyArrives.uses_cop {o o' : Osnma C} {data : OsnmaDataMessage} {svn : Svn} {gst : Gst} (k : KeyArrives S o o' data svn gst)
    {kd : NavKind} {u : TagUse} (hu : u ∈ k.uses kd) : u.tag.cop < 16 := by
  cases kd
  · obtain ⟨_, m, h, _⟩ := OsnmaData.mem_cedUses hu; exact mackTags_cop_lt h
  · obtain ⟨_, m, h, _⟩ := OsnmaData.mem_timingUses hu; exact mackTags_cop_lt h

theorem sum_pos_exists {l : List Nat} (h : 0 < l.sum) : ∃ a ∈ l, 0 < a := by
  induction l with
  | nil => simp at h
  | cons a l ih =>
    rcases Nat.eq_zero_or_pos a with rfl | ha
    · obtain ⟨b, hb, h'⟩ := ih (by simpa using h)
      exact ⟨b, List.mem_cons_of_mem _ hb, h'⟩
    · exact ⟨a, by simp, ha⟩

theorem usesGain_pos {n : CollectNavMessage} {arr : List NavItem} {nbits : Nat} {us : List TagUse} {x : NavItem}
    (h : 0 < usesGain S C n arr nbits us x) : ∃ u ∈ us, u.Counts S C n arr nbits x := by
  obtain ⟨a, ha, h0⟩ := sum_pos_exists h
  obtain ⟨u, hu, rfl⟩ := List.mem_map.1 ha
  refine ⟨u, hu, ?_⟩
  unfold TagUse.Counts
  apply Classical.byContradiction
  intro hn
  rw [tagGain_eq_zero hn] at h0
  omega

/-! ## Induction over all the entries -/

theorem arr_mem_feed (hS : S.Consistent) {hist : List Call} {o o' : Osnma C} {L : List NavSlot} (h : NavInv S hist o L) {c : InavCall}
    (hc : o.feedInav S c.word c.svn c.gst c.band = .ok o') {kd : NavKind} {x' : NavItem}
    (hx : x' ∈ o'.data.data.navmessage.arr kd) :
    x' = kd.newItem ∨ ∃ x, (x ∈ o.data.data.navmessage.arr kd ∨ x = kd.newItem) ∧ x.Wf kd ∧ ∃ y, (y = x ∨ y = x.older) ∧
      (x' = y ∨ x' = y.feedUpd (kd.upd c) c.svn) := by
  have h' := h.inav hS hc
  rcases (Rep.mem h'.rep).1 hx with ⟨s, hs, hx⟩ | ⟨h, _⟩
  · right
    have hold : ∀ s ∈ L, ∀ x ∈ s.items kd, x ∈ o.data.data.navmessage.arr kd ∧ x.Wf kd :=
      fun s hs x hx => ⟨(Rep.mem h.rep).2 (.inl ⟨s, hs, hx⟩), (h.good hS kd hs).wf x hx⟩
    unfold navStep at hs
    rcases List.mem_cons.1 hs with rfl | hs
    · rw [NavSlot.step_items] at hx
      have hb : ∀ x ∈ (NavSlot.base S.numSats c.gst.subframe L.head?).items kd, ∃ z,
          (z ∈ o.data.data.navmessage.arr kd ∨ z = kd.newItem) ∧ z.Wf kd ∧ (x = z ∨ x = z.older) := by
        intro x hx
        rcases NavSlot.base_items S.numSats c.gst.subframe L.head? kd with ⟨_, he⟩ | ⟨s, hh, ⟨_, he⟩ | ⟨_, he⟩⟩
        · rw [he] at hx
          exact ⟨x, .inr (List.eq_of_mem_replicate hx), by rw [List.eq_of_mem_replicate hx]; exact NavItem.wf_new kd, .inl rfl⟩
        · rw [he] at hx
          have := hold s (List.mem_of_head? hh) x hx
          exact ⟨x, .inl this.1, this.2, .inl rfl⟩
        · rw [he] at hx
          obtain ⟨y, hy, rfl⟩ := List.mem_map.1 hx
          have := hold s (List.mem_of_head? hh) y hy
          exact ⟨y, .inl this.1, this.2, .inr rfl⟩
      unfold updSel at hx
      split at hx
      · obtain ⟨j, hj, he⟩ := List.mem_iff_getElem.1 hx
        have hj' := hj
        rw [List.length_modify] at hj'
        rw [List.getElem_modify] at he
        obtain ⟨z, h1, h2, h3⟩ := hb _ (List.getElem_mem hj')
        split at he
        · exact ⟨z, h1, h2, _, h3, .inr he.symm⟩
        · exact ⟨z, h1, h2, _, h3, .inl he.symm⟩
      · obtain ⟨z, h1, h2, h3⟩ := hb _ hx
        exact ⟨z, h1, h2, _, h3, .inl rfl⟩
    · have hm : s ∈ L := by
        unfold navTail at hs
        split at hs
        · simp at hs
        · split at hs
          · exact List.mem_cons_of_mem _ hs
          · exact List.mem_of_mem_take hs
      have := hold s hm x' hx
      exact ⟨x', .inl this.1, this.2, x', .inl rfl, .inl rfl⟩
  · exact .inl h

/-- Induction over all the entries of the store along a run. -/
theorem item_induction (hS : S.Consistent) {o0 : Osnma C} (h0 : o0.Fresh S) {P : List Call → NavKind → NavItem → Prop}
    (hnew : ∀ hist kd, P hist kd kd.newItem)
    (hmono : ∀ hist c kd x, P hist kd x → P (hist ++ [c]) kd x)
    (holder : ∀ hist kd x, P hist kd x → P hist kd x.older)
    (hfeed : ∀ hist kd (c : InavCall) x, x.Wf kd → P hist kd x →
      P (hist ++ [.inav c.word c.svn c.gst c.band]) kd (x.feedUpd (kd.upd c) c.svn))
    (hosnma : ∀ hist o o' d s g, run S o0 hist = .ok o → o.feedOsnma S d s g = .ok o' → (∀ kd, ∀ x ∈ o.data.data.navmessage.arr kd, P hist kd x) →
      (k : KeyArrives S o o' d s g) → ∀ kd, ∀ x ∈ o.data.data.navmessage.arr kd,
        P (hist ++ [.osnma d s g]) kd (x.addAuthbits
          (usesGain S C o.data.data.navmessage (o.data.data.navmessage.arr kd) kd.nbits (k.uses kd) x)))
    {hist : List Call} {o : Osnma C} (h : run S o0 hist = .ok o) :
    ∀ kd, ∀ x ∈ o.data.data.navmessage.arr kd, P hist kd x := by
  refine run_induction (P := fun hist o => ∀ kd, ∀ x ∈ o.data.data.navmessage.arr kd, P hist kd x) ?_ ?_ h
  · intro kd x hx
    have hr := (NavInv.fresh hS h0).rep
    rcases (Rep.mem hr).1 hx with ⟨s, hs, _⟩ | ⟨rfl, _⟩
    · simp at hs
    · exact hnew [] kd
  · intro hist o c o' hrun ih hc
    have hinv := navInv_run hS h0 hrun
    cases c with
    | inav w s g b =>
      intro kd x' hx'
      rcases arr_mem_feed hS hinv (c := ⟨w, s, g, b⟩) hc hx' with rfl | ⟨x, h1, h2, y, h3, h4⟩
      · exact hnew _ kd
      · have hx : P hist kd x := by
          rcases h1 with h1 | rfl
          · exact ih kd x h1
          · exact hnew _ kd
        have hy : P hist kd y ∧ y.Wf kd := by
          rcases h3 with rfl | rfl
          · exact ⟨hx, h2⟩
          · exact ⟨holder _ _ _ hx, h2.older⟩
        rcases h4 with rfl | rfl
        · exact hmono _ _ _ _ hy.1
        · exact hfeed hist kd ⟨w, s, g, b⟩ y hy.2 hy.1
    | osnma d s g =>
      intro kd x' hx'
      rcases feedOsnma_cases hinv.inv hc with h | ⟨c, h⟩ | ⟨⟨k⟩⟩
      · rw [h] at hx'; exact hmono _ _ _ _ (ih kd x' hx')
      · rw [h, c.d1_nav.1] at hx'; exact hmono _ _ _ _ (ih kd x' hx')
      · rw [k.arr kd] at hx'
        obtain ⟨x, hx, rfl⟩ := List.mem_map.1 hx'
        exact hosnma hist o o' d s g hrun hc ih k kd x hx

/-! ## Provenance -/

/-- A field of the entry was delivered by a call of the history for the satellite. -/
def Delivered (p : List InavCall) (kd : NavKind) (v : Svn) (bits : List Bool) (f : NavField) : Prop :=
  ∃ c ∈ p, c.svn = v ∧ kd.carries c f = true ∧ bits = f.bits c

/-- Provenance of the bits of an entry. -/
structure ProvInv (p : List InavCall) (kd : NavKind) (x : NavItem) : Prop where
  unassigned : x.svn = none → x.authbits = 0 ∧ ∀ a ∈ x.age, a = 255
  recent : ∀ v, x.svn = some v → ∀ (i : Nat) (f : NavField) (a : Nat), kd.fields[i]? = some f → x.age[i]? = some a → a < 255 →
    Delivered p kd v (x.seg kd i f) f
  auth : ∀ v, x.svn = some v → x.authbits ≠ 0 → ∀ (i : Nat) (f : NavField), kd.fields[i]? = some f → Delivered p kd v (x.seg kd i f) f

theorem Delivered.mono {p q : List InavCall} {kd : NavKind} {v : Svn} {b : List Bool} {f : NavField} (h : Delivered p kd v b f)
    (hpq : ∀ c ∈ p, c ∈ q) : Delivered q kd v b f := by
  obtain ⟨c, h1, h2⟩ := h
  exact ⟨c, hpq c h1, h2⟩

theorem ProvInv.mono {p q : List InavCall} {kd : NavKind} {x : NavItem} (h : ProvInv p kd x) (hpq : ∀ c ∈ p, c ∈ q) : ProvInv q kd x :=
  ⟨h.unassigned, fun v hv i f a hf ha hl => (h.recent v hv i f a hf ha hl).mono hpq, fun v hv ha i f hf => (h.auth v hv ha i f hf).mono hpq⟩

theorem ProvInv.new (p : List InavCall) (kd : NavKind) : ProvInv p kd kd.newItem := by
  refine ⟨?_, ?_, ?_⟩
  · intro _
    refine ⟨NavKind.newItem_authbits kd, ?_⟩
    intro a ha
    cases kd <;> exact List.eq_of_mem_replicate ha
  · intro v hv; rw [NavKind.newItem_svn] at hv; cases hv
  · intro v hv; rw [NavKind.newItem_svn] at hv; cases hv

theorem ProvInv.older {p : List InavCall} {kd : NavKind} {x : NavItem} (h : ProvInv p kd x) : ProvInv p kd x.older := by
  refine ⟨?_, ?_, h.auth⟩
  · intro hn
    refine ⟨(h.unassigned hn).1, ?_⟩
    intro a ha
    simp only [NavItem.older, List.mem_map] at ha
    obtain ⟨b, hb, rfl⟩ := ha
    have := (h.unassigned hn).2 b hb; omega
  · intro v hv i f a hf ha hl
    simp only [NavItem.older, List.getElem?_map, Option.map_eq_some_iff] at ha
    obtain ⟨b, hb, rfl⟩ := ha
    exact h.recent v hv i f b hf hb (by omega)

theorem ProvInv.feed {p : List InavCall} {kd : NavKind} {x : NavItem} (hw : x.Wf kd) (h : ProvInv p kd x) (c : InavCall) :
    ProvInv (p ++ [c]) kd (x.feedUpd (kd.upd c) c.svn) := by
  have hpq : ∀ d ∈ p, d ∈ p ++ [c] := fun d hd => by simp [hd]
  have hag : ∀ (i : Nat) (a : Nat), (x.assign c.svn).age[i]? = some a → a < 255 → x.svn = some c.svn ∧ x.age[i]? = some a := by
    intro i a ha hlt
    rcases x.assign_age c.svn with ⟨he, hs⟩ | he
    · rw [he] at ha
      rcases hs with hs | hs
      · exact ⟨hs, ha⟩
      · have := (h.unassigned hs).2 a (List.mem_of_getElem? ha); omega
    · rw [he] at ha
      simp only [List.getElem?_map, Option.map_eq_some_iff] at ha
      obtain ⟨b, _, rfl⟩ := ha
      omega
  have hwa := hw.assign c.svn
  refine ⟨?_, ?_, ?_⟩
  · intro hn; rw [NavItem.feedUpd_svn] at hn; cases hn
  · intro v hv i f a hf ha hlt
    rw [NavItem.feedUpd_svn] at hv; cases hv
    cases hu : kd.upd c with
    | none =>
      rw [hu] at ha
      simp only [NavItem.feedUpd] at ha ⊢
      obtain ⟨hs, ha⟩ := hag i a ha hlt
      rw [NavItem.seg_assign]
      exact (h.recent _ hs i f a hf ha hlt).mono hpq
    | some u =>
      rw [hu] at ha
      simp only [NavItem.feedUpd] at ha ⊢
      rw [NavItem.copyWord_age] at ha
      rw [NavItem.seg_copyWord hwa hu hf]
      obtain ⟨f', k1, k2, k3, k4, k5, k6⟩ := kd.upd_some hu
      by_cases hi : i = u.idx
      · subst hi
        rw [hf] at k1; cases k1
        rw [if_pos rfl]
        exact ⟨c, by simp, rfl, k2, rfl⟩
      · rw [List.getElem?_set_ne (fun h => hi h.symm)] at ha
        obtain ⟨hs, ha⟩ := hag i a ha hlt
        rw [if_neg hi, NavItem.seg_assign]
        exact (h.recent _ hs i f a hf ha hlt).mono hpq
  · intro v hv hab i f hf
    rw [NavItem.feedUpd_svn] at hv; cases hv
    rcases NavItem.feedUpd_auth (kd.upd c) c.svn x with h1 | ⟨h1, h2, hs | hs⟩
    · exact absurd h1 hab
    · have : (x.feedUpd (kd.upd c) c.svn).seg kd i f = x.seg kd i f := by unfold NavItem.seg; rw [h2]
      rw [this]
      exact (h.auth _ hs (by rw [← h1]; exact hab) i f hf).mono hpq
    · exact absurd (by rw [h1]; exact (h.unassigned hs).1) hab

theorem wf_run (hS : S.Consistent) {o0 : Osnma C} (h0 : o0.Fresh S) {hist : List Call} {o : Osnma C} (h : run S o0 hist = .ok o)
    (kd : NavKind) : ∀ x ∈ o.data.data.navmessage.arr kd, x.Wf kd := by
  have hinv := navInv_run hS h0 h
  intro x hx
  rcases (Rep.mem hinv.rep).1 hx with ⟨s, hs, hx⟩ | ⟨rfl, _⟩
  · exact (hinv.good hS kd hs).wf x hx
  · exact NavItem.wf_new kd

theorem entryBefore_mem {n : CollectNavMessage} {arr : List NavItem} {g : Gst} {v : Svn} {y : NavItem}
    (h : n.entryBefore S arr g v = some y) : y ∈ arr := by
  unfold entryBefore at h
  split at h
  · unfold entryAt at h
    split at h
    · cases h
    · exact List.mem_of_mem_drop (List.mem_of_mem_take (List.mem_of_find?_eq_some h))
  · cases h

theorem prov_run (hS : S.Consistent) {o0 : Osnma C} (h0 : o0.Fresh S) {hist : List Call} {o : Osnma C} (h : run S o0 hist = .ok o) :
    ∀ kd, ∀ x ∈ o.data.data.navmessage.arr kd, ProvInv (inavsOf hist) kd x := by
  refine item_induction hS h0 (P := fun hist kd x => ProvInv (inavsOf hist) kd x) ?_ ?_ ?_ ?_ ?_ h
  · intro hist kd; exact ProvInv.new _ kd
  · intro hist c kd x h
    refine h.mono ?_
    intro d hd
    unfold inavsOf at hd ⊢
    rw [List.filterMap_append]; simp only [List.mem_append]; exact .inl hd
  · intro hist kd x h; exact h.older
  · intro hist kd c x hw h
    rw [inavsOf_inav]; exact h.feed hw c
  · intro hist o o' d s g hrun _ ih k kd x hx
    have hinv := navInv_run hS h0 hrun
    rw [inavsOf_osnma]
    have hp := ih kd x hx
    refine ⟨?_, hp.recent, ?_⟩
    · intro hn
      have hn' : x.svn = none := hn
      rw [usesGain_unassigned _ _ _ _ hn', NavItem.addAuthbits_zero (by rw [(hp.unassigned hn').1]; omega)]
      exact hp.unassigned hn'
    · intro v hv hab i f hf
      have hv' : x.svn = some v := hv
      show Delivered (inavsOf hist) kd v (x.seg kd i f) f
      by_cases hx0 : x.authbits = 0
      · have hpos : 0 < usesGain S C o.data.data.navmessage (o.data.data.navmessage.arr kd) kd.nbits (k.uses kd) x := by
          rcases Nat.eq_zero_or_pos (usesGain S C o.data.data.navmessage (o.data.data.navmessage.arr kd) kd.nbits (k.uses kd) x) with hz | hz
          · rw [hz, NavItem.addAuthbits_zero (by omega)] at hab; exact absurd hx0 hab
          · exact hz
        obtain ⟨u, hu, _, _, svn, y, _, h4, h5, h6, h7, _⟩ := usesGain_pos hpos
        have hcop := k.uses_cop hu
        have hym := entryBefore_mem h4
        have hys : y.svn = some svn := by
          unfold entryBefore at h4
          split at h4
          · exact entryAt_svn h4
          · cases h4
        have hyw := wf_run hS h0 hrun kd y hym
        rw [hv'] at h6; cases h6
        rw [NavItem.seg_of_data h7 hf]
        have hlt : i < kd.fields.length := (List.getElem?_eq_some_iff.1 hf).1
        have hia : i < y.age.length := by rw [hyw.age]; exact hlt
        refine (ih kd y hym).recent v hys i f y.age[i] hf (List.getElem?_eq_getElem hia) ?_
        have := NavItem.maxAge_le.1 (Nat.le_refl y.maxAge) _ (List.getElem_mem hia)
        omega
      · exact hp.auth v hv' hx0 i f hf

end Verif
