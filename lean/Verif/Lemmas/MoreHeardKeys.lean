import Verif.Lemmas.MoreHeard

/-! # Lemmas: the keys of two machines, one of which hears more -/

namespace Verif
open CollectSubframe (snoc_induction)

variable {S : Storage} {C : Crypto} {root0 : Option MerkleTreeNode} {pk0 : Option (PublicKey C)} {slow : Bool}
  {hist : List Call} {log log₁ : List (KeyEvent C)} {b : Broadcast C} {G : Svn → Prop}

/-! ## Subframes received -/

theorem sinceSubframe_sub (ps : List Page) (g : Gst) : (sinceSubframe ps g).Sublist (ps.filter (fun p => p.sub == g)) := by
  induction ps using snoc_induction with
  | h0 => exact List.Sublist.refl _
  | h1 l p ih =>
    rw [sinceSubframe_append, List.filter_append]
    by_cases h : p.sub = g
    · rw [if_pos h, List.filter_cons, if_pos (beq_iff_eq.2 h)]
      exact ih.append (List.Sublist.refl _)
    · rw [if_neg h]; exact List.nil_sublist _

/-- The messages received were heard in whole subframes. -/
theorem received_heard {ps : List Page} {rs : List Received} (h : ReceivedIn ps rs) {r : Received} (hr : r ∈ rs) :
    (List.range 15).Sublist ((ps.filter (fun p => p.svn == r.svn && p.sub == r.gst)).map Page.word) := by
  induction h with
  | nil => cases hr
  | skip p h hn ih =>
    rw [List.filter_append, List.map_append]
    exact (ih hr).trans (List.sublist_append_left _ _)
  | @got ps rs p r0 h hc ih =>
    rw [List.filter_append, List.map_append]
    rcases List.mem_append.1 hr with hr | hr
    · exact (ih hr).trans (List.sublist_append_left _ _)
    · rw [List.mem_singleton] at hr
      subst hr
      have hw := inOrder_words 0 ((sinceSubframe ps p.sub).filter (fun q => q.svn == p.svn))
      rw [hc.words] at hw
      rw [show List.range 15 = List.range' 0 14 ++ [14] from rfl, ← hw]
      refine List.Sublist.append (List.Sublist.map _ ?_) ?_
      · rw [hc.svn, hc.gst]
        have := ((inOrder_sublist 0 _).trans ((sinceSubframe_sub ps p.sub).filter (fun q => q.svn == p.svn)))
        rw [List.filter_filter] at this
        exact this
      · rw [List.filter_cons, if_pos (by rw [hc.svn, hc.gst]; simp)]
        rw [List.map_cons, hc.last]
        exact List.Sublist.refl _

theorem machine_tesla_time {rs : List Received} (h : KeyMachine root0 pk0 rs log) {k : Key} (hk : KeyEvent.tesla k ∈ log) : ∃ r ∈ rs, r.gst = k.gst := by
  induction h with
  | nil => cases hk
  | @step rs log l₁ l₂ r h h₁ h₂ ih =>
    rcases List.mem_append.1 hk with hk | hk
    · rcases List.mem_append.1 hk with hk | hk
      · obtain ⟨r', h1, h2⟩ := ih hk
        exact ⟨r', by simp [h1], h2⟩
      · rcases h₁ with ⟨e, ⟨data, _, hm⟩, rfl⟩ | ⟨rfl, _⟩
        · rw [List.mem_singleton] at hk
          subst hk
          cases hm
        · cases hk
    · rcases h₂ with ⟨e, ⟨k', rfl, hm⟩, rfl⟩ | ⟨rfl, _⟩
      · rw [List.mem_singleton] at hk
        cases hk
        exact ⟨r, by simp, hm.gst.symm⟩
      · cases hk

theorem machine_tesla_after {rs₁ rs₂ : List Received} (h₁ : KeyMachine root0 pk0 rs₁ log₁) {rest : List (KeyEvent C)}
    (h : KeyMachine root0 pk0 (rs₁ ++ rs₂) (log₁ ++ rest)) {k : Key} (hk : KeyEvent.tesla k ∈ rest) : ∃ r ∈ rs₂, r.gst = k.gst := by
  induction rs₂ using snoc_induction generalizing rest with
  | h0 =>
    rw [List.append_nil] at h
    have := C62_machine_deterministic h h₁
    have : rest = [] := by simpa using this
    subst this; cases hk
  | h1 l r ih =>
    rw [← List.append_assoc] at h
    obtain ⟨lo, l₁, l₂, he, hlo, e₁, e₂⟩ := h.snoc_inv
    obtain ⟨l0, rest0, hm0, he0⟩ := hlo.prefix
    rw [C62_machine_deterministic hm0 h₁] at he0
    subst he0
    rw [List.append_assoc, List.append_assoc] at he
    obtain rfl := List.append_cancel_left he
    rcases List.mem_append.1 hk with hk | hk
    · obtain ⟨r', h1, h2⟩ := ih hlo hk
      exact ⟨r', by simp [h1], h2⟩
    · rcases List.mem_append.1 hk with hk | hk
      · rcases e₁ with ⟨e, ⟨data, _, hm⟩, rfl⟩ | ⟨rfl, _⟩
        · rw [List.mem_singleton] at hk
          subst hk
          cases hm
        · cases hk
      · rcases e₂ with ⟨e, ⟨k', rfl, hm⟩, rfl⟩ | ⟨rfl, _⟩
        · rw [List.mem_singleton] at hk
          cases hk
          exact ⟨r, by simp, hm.gst.symm⟩
        · cases hk

/-! ## The chain in force -/

theorem force_held {k : Key} (h : Held log k) {hd : NmaHeader} (hl : lastHeader log = some hd) (hc : hd.cpks ≠ .AlertMessage) :
    ∃ s, force log = some ⟨hd.chainId, s⟩ := by
  induction log using snoc_induction generalizing k with
  | h0 => cases hl
  | h1 l e ih =>
    rw [lastHeader_snoc] at hl
    unfold Held at h
    rw [teslaHeld_snoc] at h
    rw [force_append, List.foldl_cons, List.foldl_nil]
    cases e with
    | kroot h' data pk key g =>
      cases hl
      unfold forceStep
      dsimp only
      rw [if_neg hc]
      exact ⟨_, rfl⟩
    | alert d => rcases h with h | h <;> cases h
    | pkr d pk => exact ih h hl
    | tesla k' =>
      obtain ⟨k'', hk⟩ : ∃ k'', Held l k'' := by
        rcases held_tesla (log := l) (k := k) (k' := k') (by unfold Held; rw [teslaHeld_snoc]; exact h) with rfl | hk
        · unfold teslaAfter at h
          dsimp only at h
          unfold Held
          rcases h with h | h
          · split at h
            · rename_i ho
              obtain ⟨w, hw, _⟩ := ofChain_iff.1 ho
              exact ⟨w, .inl hw⟩
            · exact ⟨k, .inl h⟩
          · split at h
            · rename_i ho
              obtain ⟨w, hw, _⟩ := ofChain_iff.1 ho
              exact ⟨w, .inr hw⟩
            · exact ⟨k, .inr h⟩
        · exact ⟨k, hk⟩
      exact ih hk hl

theorem force_keeps (hb : b.Sound) {s : Option Gst} (h : force log₁ = some ⟨b.header.chainId, s⟩) {rest : List (KeyEvent C)}
    (hsame : SameHeader b log₁ (log₁ ++ rest)) : ∃ s', force (log₁ ++ rest) = some ⟨b.header.chainId, s'⟩ ∧ (s' = s ∨ s' = none) := by
  unfold SameHeader at hsame
  rw [List.drop_left] at hsame
  induction rest using snoc_induction with
  | h0 => rw [List.append_nil]; exact ⟨s, h, .inl rfl⟩
  | h1 l e ih =>
    obtain ⟨s', h1, h2⟩ := ih (fun e he => hsame e (by simp [he]))
    obtain ⟨e1, e2⟩ := hsame e (by simp)
    rw [← List.append_assoc, force_append, List.foldl_cons, List.foldl_nil, h1]
    cases e with
    | kroot h' data pk key g =>
      obtain rfl := e1 _ _ _ _ _ rfl
      refine ⟨none, ?_, .inr rfl⟩
      unfold forceStep
      dsimp only
      rw [if_neg hb.calm]
      simp
    | alert d => exact absurd rfl (e2 d)
    | pkr d pk => exact ⟨s', rfl, h2⟩
    | tesla k => exact ⟨s', rfl, h2⟩

/-- The key that was accepted is the one from which those of past times are derived. -/
theorem sourceKey_new {r : Received} {k : Key} (hm : TeslaMessage log r k) {s : Option Gst} (hf : force log = some ⟨k.chain.id, s⟩) {t : Gst}
    (hs : ∀ g, s = some g → g.abs ≤ t.abs) : sourceKey (log ++ [.tesla k]) t = some k := by
  obtain ⟨cur, n, ⟨hheld, _⟩, hc, _⟩ := hm.derives
  have hf' : force (log ++ [KeyEvent.tesla k]) = some ⟨k.chain.id, s⟩ := by
    rw [force_append, List.foldl_cons, List.foldl_nil, hf]; rfl
  unfold sourceKey
  rw [hf']
  dsimp only
  rw [if_neg (by
    cases s with
    | none => intro h; cases h
    | some g =>
      have := hs g rfl
      rw [Option.any_some, decide_eq_true_eq]
      exact Int.not_lt.2 this)]
  rw [teslaHeld_snoc]
  generalize teslaHeld log = held at *
  obtain ⟨x, y⟩ := held
  unfold teslaAfter
  dsimp only at *
  by_cases hx : ofChain k.chain.id x = true
  · rw [if_pos hx]
    simp
  · rw [if_neg hx]
    have hy : ofChain k.chain.id y = true := by
      rcases hheld with h | h
      · exact absurd (ofChain_iff.2 ⟨cur, h, by rw [hc]⟩) hx
      · exact ofChain_iff.2 ⟨cur, h, by rw [hc]⟩
    rw [if_pos hy]
    cases x with
    | none => simp
    | some w =>
      have : ¬ w.chain.id = k.chain.id := fun e => hx (ofChain_iff.2 ⟨w, rfl, e⟩)
      simp [this]

theorem force_settled {s : Option Gst} {cid : Nat} (h : force log = some ⟨cid, s⟩) {t : Int} (hn : NoChangeAfter log t) : ∀ g, s = some g → g.abs ≤ t := by
  intro g hg
  subst hg
  obtain ⟨l₁, hd, data, pk, key, l₂, h', e1, e2, e3, e4⟩ := force_since h
  exact hn l₁ hd data pk key g l₂ e1 e2 h' e3 e4

/-! ## MACK messages -/

/-- A MACK message that was received is found, if it is recent and there is room. -/
theorem expectedMack_found {rs : List Received} (h1 : (rs.map (fun r => (r.svn, r.gst))).Nodup) (h2 : rs.Pairwise (fun a b => a.gst.abs ≤ b.gst.abs))
    (h3 : ∀ r ∈ rs, r.gst.Aligned) {g : Gst} (hfit : ∃ sats : List Svn, sats.length ≤ S.numSats ∧ ∀ r ∈ rs, r.gst = g → r.svn ∈ sats) {top : Int}
    (htop : ∀ r ∈ rs, r.gst.abs ≤ top) (hg : top - g.abs < 30 * S.mackDepth) {r : Received} (hr : r ∈ rs) (hrg : r.gst = g) :
    expectedMack S (rs.map Received.mackCall) r.svn g = some (r.mack, r.header.nmaStatus) := by
  have hmono : ((rs.map Received.mackCall).map (·.gst)).Pairwise (fun a b => a.abs ≤ b.abs) := by
    rw [List.map_map]
    exact (List.pairwise_map (R := fun a b : Gst => a.abs ≤ b.abs)).2 h2
  have hdec : (recentGsts (rs.map Received.mackCall)).Pairwise (fun a b => b.abs < a.abs) := by
    unfold recentGsts
    exact eraseDups_decreasing (List.pairwise_reverse.2 hmono)
  have hmem : ∀ x, x ∈ recentGsts (rs.map Received.mackCall) ↔ ∃ r ∈ rs, r.gst = x := by
    intro x
    unfold recentGsts
    rw [List.mem_eraseDups, List.mem_reverse, List.map_map, List.mem_map]
    rfl
  have hlen : ((rs.map Received.mackCall).filter (fun c => c.gst == g)).length ≤ S.numSats := by
    obtain ⟨sats, l1, l2⟩ := hfit
    have hn : (((rs.map Received.mackCall).filter (fun c => c.gst == g)).map (·.svn)).Nodup := by
      rw [List.filter_map, List.map_map]
      have h1 := h1.sublist ((List.filter_sublist (p := fun r : Received => r.gst == g) (l := rs)).map (fun r => (r.svn, r.gst)))
      rw [List.nodup_iff_pairwise_ne, List.pairwise_map] at h1 ⊢
      refine List.Pairwise.imp_of_mem ?_ h1
      intro a b ha hb hab he
      refine hab ?_
      rw [Prod.mk.injEq]
      refine ⟨he, ?_⟩
      have ea : a.gst = g := beq_iff_eq.1 (List.mem_filter.1 ha).2
      have eb : b.gst = g := beq_iff_eq.1 (List.mem_filter.1 hb).2
      rw [ea, eb]
    have := length_le_of_nodup (m := sats) hn (by
      intro x hx
      obtain ⟨c, hc, rfl⟩ := List.mem_map.1 hx
      rw [List.mem_filter] at hc
      obtain ⟨r, hr, rfl⟩ := List.mem_map.1 hc.1
      exact l2 r hr (beq_iff_eq.1 hc.2))
    rw [List.length_map] at this
    omega
  obtain ⟨i, hi⟩ := List.getElem?_of_mem ((hmem g).2 ⟨r, hr, hrg⟩)
  have hidx := decreasing_index hdec (fun x hx => by
    obtain ⟨r, hr, rfl⟩ := (hmem x).1 hx
    exact h3 r hr) (top := top) (fun x hx => by obtain ⟨r, hr, rfl⟩ := (hmem x).1 hx; exact htop r hr) hi
  unfold expectedMack
  rw [if_pos (List.mem_of_getElem? (i := i) (by rw [List.getElem?_take, if_pos (by omega)]; exact hi)), List.take_of_length_le hlen]
  cases hfind : ((rs.map Received.mackCall).filter (fun c => c.gst == g)).find? (fun c => c.svn == r.svn) with
  | none =>
    have := List.find?_eq_none.1 hfind r.mackCall (List.mem_filter.2 ⟨List.mem_map_of_mem hr, beq_iff_eq.2 hrg⟩)
    exact absurd (beq_iff_eq.2 rfl) this
  | some c =>
    have c1 := List.find?_some hfind
    have c2 := List.mem_filter.1 (List.mem_of_find?_eq_some hfind)
    obtain ⟨r', hr', rfl⟩ := List.mem_map.1 c2.1
    have e1 : r'.svn = r.svn := beq_iff_eq.1 c1
    have e2 : r'.gst = g := beq_iff_eq.1 c2.2
    have : r' = r := by
      obtain ⟨i, hi, rfl⟩ := List.getElem_of_mem hr
      obtain ⟨j, hj, rfl⟩ := List.getElem_of_mem hr'
      rw [List.nodup_iff_pairwise_ne, List.pairwise_map] at h1
      have := List.pairwise_iff_getElem.1 h1
      have : j = i := by
        rcases Nat.lt_trichotomy j i with hlt | he | hlt
        · exact absurd (by rw [e1, e2, hrg]) (this j i hj hi hlt)
        · exact he
        · exact absurd (by rw [e1, e2, hrg]) (this i j hi hj hlt)
      subst this; rfl
    rw [this]; rfl

theorem expectedMack_mem {rs : List Received} {v : Svn} {g : Gst} {x : MackMessage × NmaStatus} (h : expectedMack S (rs.map Received.mackCall) v g = some x) :
    ∃ r ∈ rs, r.svn = v ∧ r.gst = g ∧ x = (r.mack, r.header.nmaStatus) := by
  unfold expectedMack at h
  split at h
  · obtain ⟨c, hc, rfl⟩ := Option.map_eq_some_iff.1 h
    have c1 := List.find?_some hc
    have c2 := List.mem_filter.1 (List.mem_of_mem_take (List.mem_of_find?_eq_some hc))
    obtain ⟨r, hr, rfl⟩ := List.mem_map.1 c2.1
    exact ⟨r, hr, beq_iff_eq.1 c1, beq_iff_eq.1 c2.2, rfl⟩
  · cases h

theorem acceptedTags_heard {macks macks' : List MackCall} {k : Key} {ok ok' : Key → Prop} {g : Gst} {a : Nat} {v : Svn}
    (h : ∀ x, expectedMack S macks v g = some x → expectedMack S macks' v g = some x) (hok : ∀ vk, ok vk → ok' vk) :
    (acceptedTags C S macks k ok g a v).Sublist (acceptedTags C S macks' k ok' g a v) := by
  unfold acceptedTags
  cases he : expectedMack S macks v g with
  | none => exact List.nil_sublist _
  | some x =>
    rw [h x he]
    obtain ⟨msg, st⟩ := x
    dsimp only
    split
    · rename_i hx
      obtain ⟨vk, h1, h2⟩ := hx
      rw [if_pos ⟨vk, hok vk h1, h2⟩]
      exact List.Sublist.refl _
    · exact List.nil_sublist _

/-- The tags to be checked, when more is heard. -/
theorem tagsDue_heard {macks macks' : List MackCall} {lg lg' : List (KeyEvent C)} {k : Key} {t1 t10 t11 : Gst}
    (h1 : ∀ v x, expectedMack S macks v t1 = some x → expectedMack S macks' v t1 = some x)
    (h11 : (∀ v x, expectedMack S macks v t11 = some x → expectedMack S macks' v t11 = some x) ∨
      ∀ c ∈ macks, ∀ t ∈ mackTags c.mack k.chain c.svn, t.adkd = 12 → t.cop = 0)
    (hs : sourceKey lg t10 = some k) (hs' : sourceKey lg' t10 = some k) (kd : NavKind) :
    (notDummy (tagsDue S slow macks lg k t1 t10 t11 kd)).Sublist (tagsDue S slow macks' lg' k t1 t10 t11 kd) := by
  have hpast : ∀ vk, PastKey lg t10 vk → PastKey lg' t10 vk := by
    intro vk ⟨k', n, a1, a2⟩
    rw [hs] at a1
    cases a1
    exact ⟨k, n, hs', a2⟩
  have hfast : ∀ a v, (notDummy (if slow then [] else acceptedTags C S macks k (· = k) t1 a v)).Sublist
      (if slow then [] else acceptedTags C S macks' k (· = k) t1 a v) := by
    intro a v
    refine (List.filter_sublist).trans ?_
    cases slow
    · exact acceptedTags_heard (h1 v) (fun _ h => h)
    · exact List.Sublist.refl _
  have hslow : ∀ v, (notDummy (acceptedTags C S macks k (PastKey lg t10) t11 12 v)).Sublist (acceptedTags C S macks' k (PastKey lg' t10) t11 12 v) := by
    intro v
    rcases h11 with h | h
    · exact (List.filter_sublist).trans (acceptedTags_heard (h v) hpast)
    · rw [notDummy_nil (acceptedTags_dummy h)]; exact List.nil_sublist _
  have hflat : ∀ (l : List Svn) {f g : Svn → List TagUse}, (∀ v, (notDummy (f v)).Sublist (g v)) → (notDummy (l.flatMap f)).Sublist (l.flatMap g) := by
    intro l f g hfg
    induction l with
    | nil => exact List.Sublist.refl _
    | cons a l ih =>
      have := hfg a
      unfold notDummy at *
      rw [List.flatMap_cons, List.flatMap_cons, List.filter_append]
      exact this.append ih
  cases kd
  · refine hflat _ fun v => ?_
    have a1 := hfast 0 v
    have a2 := hslow v
    unfold notDummy at *
    rw [List.filter_append]
    exact a1.append a2
  · exact hflat _ (hfast 4)

end Verif
