import Verif.Lemmas.MoreHeardSteps

/-! # Lemmas: a machine that hears more is ahead -/

namespace Verif
open CollectSubframe (snoc_induction)

variable {S : Storage} {C : Crypto} {root0 : Option MerkleTreeNode} {pk0 : Option (PublicKey C)} {slow : Bool}
  {before a a' : List Call} {log log' log₁ : List (KeyEvent C)} {rs rs' rs₁ : List Received} {fs fs' fs₁ : List NavFrame} {b : Broadcast C} {G : Svn → Prop}

/-- A key of the list is accepted twice only if its chain was dropped. -/
def AcceptedOnce (log : List (KeyEvent C)) : Prop :=
  ∀ l1 l2 l3 k, log = l1 ++ .tesla k :: l2 ++ .tesla k :: l3 → ∃ e ∈ l2, e.Drops k.chain.id

/-- What is assumed of the two receivers. -/
structure Pair (b : Broadcast C) (G : Svn → Prop) (S : Storage) (before : List Call) (log₁ : List (KeyEvent C)) (a a' : List Call) (log log' : List (KeyEvent C)) :
    Prop where
  spoofed : Spoofed b G before log₁ a'
  genuine : ∀ p ∈ pagesOf a, G p.svn
  settled : ∀ q ∈ pagesOf a', NoChangeAfter log₁ (q.sub.abs - 300)
  same : SameHeader b log₁ log
  same' : SameHeader b log₁ log'
  no : ¬ ForgedKey b log
  no' : ¬ ForgedKey b log'
  once : AcceptedOnce log
  order : CallsInOrder (before ++ a')
  fit : PagesFit S (before ++ a')
  enough : S.MackEnough (before ++ a) log
  ret : NoReturn (before ++ a')

theorem ForgedKey.mono (h : ForgedKey b log) (hs : ∀ e ∈ log, e ∈ log') : ForgedKey b log' := by
  obtain ⟨k, n, h1, h2⟩ := h
  exact ⟨k, n, hs _ h1, h2⟩

theorem Pair.mono {A A' : List Call} {L L' : List (KeyEvent C)} (h : Pair b G S before log₁ A A' L L') (ha : a <+: A) (ha' : a' <+: A') (hl : log <+: L)
    (hl' : log' <+: L') : Pair b G S before log₁ a a' log log' := by
  obtain ⟨x, rfl⟩ := ha
  obtain ⟨x', rfl⟩ := ha'
  obtain ⟨y, rfl⟩ := hl
  obtain ⟨y', rfl⟩ := hl'
  have p1 : ∀ p ∈ pagesOf a', p ∈ pagesOf (a' ++ x') := fun p hp => by rw [pagesOf_append]; exact List.mem_append_left _ hp
  refine ⟨h.spoofed.sub p1, fun p hp => h.genuine p (by rw [pagesOf_append]; exact List.mem_append_left _ hp), fun q hq => h.settled q (p1 q hq), h.same.prefix,
    h.same'.prefix, fun hf => h.no (hf.mono fun e he => List.mem_append_left _ he), fun hf => h.no' (hf.mono fun e he => List.mem_append_left _ he), ?_, ?_, ?_, ?_, ?_⟩
  · intro l1 l2 l3 k he
    exact h.once l1 l2 (l3 ++ y) k (by rw [he]; simp)
  · have := h.order
    rw [← List.append_assoc] at this
    exact (List.pairwise_append.1 this).1
  · intro g
    obtain ⟨sats, e1, e2⟩ := h.fit g
    exact ⟨sats, e1, fun p hp => e2 p (by rw [← List.append_assoc, pagesOf_append]; exact List.mem_append_left _ hp)⟩
  · rcases h.enough with e | ⟨e, hn⟩
    · exact .inl e
    · refine .inr ⟨e, ?_⟩
      intro rs hrs r hr k hk t ht
      have hall : ∃ rs2, ReceivedIn (pagesOf (before ++ a) ++ pagesOf x) (rs ++ rs2) := by
        generalize pagesOf (before ++ a) = ps at hrs
        generalize pagesOf x = qs
        clear hr ht
        induction qs using snoc_induction with
        | h0 => exact ⟨[], by simpa using hrs⟩
        | h1 l p ih =>
          obtain ⟨rs2, ih⟩ := ih
          by_cases hc : ∃ r, CompletesSubframe (ps ++ l) p r
          · obtain ⟨r', hc⟩ := hc
            exact ⟨rs2 ++ [r'], by rw [← List.append_assoc, ← List.append_assoc]; exact .got p r' ih hc⟩
          · exact ⟨rs2, by rw [← List.append_assoc]; exact .skip p ih (fun r hr => hc ⟨r, hr⟩)⟩
      obtain ⟨rs2, hall⟩ := hall
      rw [← pagesOf_append, List.append_assoc] at hall
      exact hn _ hall r (List.mem_append_left _ hr) k (List.mem_append_left _ hk) t ht
  · intro x1 c y1 he
    exact h.ret x1 c (y1 ++ x') (by rw [← List.append_assoc, he]; simp)

/-- What the key machine received. -/
theorem machine_received3 (hb : b.Sound) (hm₁ : NavMachine root0 pk0 S slow before rs₁ log₁ fs₁) (hf : Spoofed b G before log₁ a)
    (hm : NavMachine root0 pk0 S slow (before ++ a) rs log fs) : ∃ rs₂, rs = rs₁ ++ rs₂ ∧ Received3 b root0 pk0 G before a log₁ log rs₁ rs₂ := by
  obtain ⟨h1, hk1⟩ := C63_contains_key_machine hm₁
  obtain ⟨h2, hk⟩ := C63_contains_key_machine hm
  rw [pagesOf_append] at h2
  obtain ⟨rs₂, rfl, h3, h4⟩ := received_spoofed h1 h2 hf.later hf.time hf.genuine
  exact ⟨rs₂, rfl, ⟨hb, hk1, hf.header, hf.held⟩, h1, h2, h3, h4, hk⟩

/-- The messages before are the same. -/
theorem Received3.split {rs₂ : List Received} (hr : Received3 b root0 pk0 G before a log₁ log rs₁ rs₂) : ∃ rest, log = log₁ ++ rest := by
  obtain ⟨l0, rest, h1, h2⟩ := hr.machine.prefix
  rw [C62_machine_deterministic h1 hr.tracks.before] at h2
  exact ⟨rest, h2⟩

theorem Spoofed.force (hf : Spoofed b G before log₁ a) (hb : b.Sound) : ∃ s, Verif.force log₁ = some ⟨b.header.chainId, s⟩ := by
  obtain ⟨k, hk, _⟩ := hf.held
  exact force_held hk hf.header hb.calm

/-- The key accepted is the one from which past keys are derived. -/
theorem Pair.source (h : Pair b G S before log₁ a a' log log') (hb : b.Sound) {rest : List (KeyEvent C)} (hsame : SameHeader b log₁ (log₁ ++ rest)) {q : Page}
    (hq : q ∈ pagesOf a') {r : Received} {k : Key} (hm : TeslaMessage (log₁ ++ rest) r k) (hr : r.gst = q.sub) {t10 : Gst} (ht : t10.abs = k.gst.abs - 300) :
    sourceKey (log₁ ++ rest ++ [.tesla k]) t10 = some k := by
  obtain ⟨s, hs⟩ := h.spoofed.force hb
  obtain ⟨s', h1, h2⟩ := force_keeps hb hs hsame
  have hc : k.chain.id = b.header.chainId := by
    obtain ⟨cur, n, ⟨_, hd, e1, e2⟩, e3, _⟩ := hm.derives
    obtain ⟨hd', e4, e5⟩ := force_last h1
    rw [e1] at e4
    cases e4
    rw [e3, ← e2, e5]
  refine sourceKey_new hm (s := s') (by rw [hc]; exact h1) ?_
  intro g hg
  rcases h2 with h2 | h2
  · have := force_settled hs (h.settled q hq) g (by rw [← h2, hg])
    rw [ht, hm.gst, hr]
    exact this
  · rw [h2] at hg; cases hg

/-- What was received by the one that hears less was received by the other one. -/
theorem received_more {rs₂ rs₂' : List Received} (hsub : a.Sublist a') (hf : Spoofed b G before log₁ a') (hG : ∀ p ∈ pagesOf a, G p.svn)
    (hord : (pagesOf a').Pairwise (fun p q => p.sub.abs ≤ q.sub.abs))
    (hr : Received3 b root0 pk0 G before a log₁ log rs₁ rs₂) (hr' : Received3 b root0 pk0 G before a' log₁ log' rs₁ rs₂') {r : Received} (hm : r ∈ rs₁ ++ rs₂) :
    r ∈ rs₁ ++ rs₂' := by
  rcases List.mem_append.1 hm with h | h
  · exact List.mem_append_left _ h
  · refine List.mem_append_right _ ?_
    obtain ⟨q, hq, hqr⟩ := hr.sub h
    have hw := received_heard hr.all (List.mem_append_right _ h)
    have hwhole : HeardWhole a r.svn r.gst := by
      unfold HeardWhole pagesIn
      rw [List.filter_append] at hw
      rw [show (pagesOf before).filter (fun p => p.svn == r.svn && p.sub == r.gst) = [] from by
        rw [List.filter_eq_nil_iff]
        intro p hp hc
        have := hf.later p hp q ((pagesOf_sub hsub).subset hq)
        rw [Bool.and_eq_true] at hc
        rw [beq_iff_eq.1 hc.2, hqr] at this
        omega, List.nil_append] at hw
      exact hw
    have hwhole' : HeardWhole a' r.svn r.gst := by
      unfold HeardWhole pagesIn at *
      exact hwhole.trans (((pagesOf_sub hsub).filter _).map _)
    obtain ⟨p, hp, _, hps⟩ := heardWhole_mem hwhole
    have hGr : G r.svn := by rw [← hps]; exact hG p hp
    obtain ⟨r', h1, h2, h3⟩ := hr'.whole hf hord hwhole'
    obtain ⟨_, s1, s2⟩ := hr.sent r h hGr
    obtain ⟨_, s3, s4⟩ := hr'.sent r' h1 (by rw [h2]; exact hGr)
    have : r = r' := by
      obtain ⟨rv, rh, rm, rg⟩ := r
      obtain ⟨rv', rh', rm', rg'⟩ := r'
      dsimp only at *
      subst h2; subst h3
      rw [s1, s2, s3, s4]
    rw [this]; exact h1

theorem inOrder_last {c : Call} (h : CallsInOrder (before ++ (a ++ [c]))) : ∀ x ∈ before ++ (a ++ [c]), x.gst.subframe.abs ≤ c.gst.subframe.abs := by
  intro x hx
  unfold CallsInOrder at h
  rw [← List.append_assoc] at h hx
  rcases List.mem_append.1 hx with hx | hx
  · exact (List.pairwise_append.1 h).2.2 x hx c (by simp)
  · rw [List.mem_singleton.1 hx]; exact Int.le_refl _

theorem page_sub_call {hist : List Call} {p : Page} (h : p ∈ pagesOf hist) : ∃ c ∈ hist, c.gst.subframe = p.sub := by
  unfold pagesOf at h
  obtain ⟨c, hc, he⟩ := List.mem_filterMap.1 h
  cases c with
  | inav w v g bd => cases he
  | osnma d v g =>
    dsimp only at he
    split at he
    · cases he
    · cases he
      exact ⟨_, hc, rfl⟩

/-- When the one that hears less accepts a key. -/
theorem Pair.accepts {p : Page} {s t t' : MState C} (hb : b.Sound) (hm₁ : NavMachine root0 pk0 S slow before rs₁ log₁ fs₁)
    (h : Pair b G S before log₁ (a ++ [.osnma p.data p.svn p.gst]) (a' ++ [.osnma p.data p.svn p.gst]) t.log t'.log) (hsub : a.Sublist a')
    (hs : NavMachine root0 pk0 S slow (before ++ a) s.rs s.log s.fs)
    (ht : NavMachine root0 pk0 S slow (before ++ (a ++ [.osnma p.data p.svn p.gst])) t.rs t.log t.fs)
    (ht' : NavMachine root0 pk0 S slow (before ++ (a' ++ [.osnma p.data p.svn p.gst])) t'.rs t'.log t'.fs)
    {r : Received} {l₁ : List (KeyEvent C)} {k : Key} (hz : p.data.val.all (fun x => x == 0#8) = false) (hc : CompletesSubframe (pagesOf (before ++ a)) p r)
    (hm : TeslaMessage (s.log ++ l₁) r k) (hl : t.log = s.log ++ l₁ ++ [.tesla k]) (hrs : t.rs = s.rs ++ [r]) :
    KeyEvent.tesla k ∈ t'.log ∧ KeyEvent.tesla k ∉ s.log ∧ (∀ c ∈ before ++ (a' ++ [.osnma p.data p.svn p.gst]), c.gst.subframe.abs ≤ k.gst.abs) ∧
      (∀ k', KeyEvent.tesla k' ∈ t'.log → KeyEvent.tesla k' ∉ s.log →
        (∀ c ∈ before ++ (a' ++ [.osnma p.data p.svn p.gst]), c.gst.subframe.abs ≤ k'.gst.abs) → k' = k) ∧
      ∀ us rs0 lg t1 t10 t11, Covers (C := C) S slow t'.rs k us rs0 lg t1 t10 t11 →
        ∀ kd, (notDummy (tagsDue S slow ((s.rs ++ [r]).map Received.mackCall) t.log k t1 t10 t11 kd)).Sublist (us kd) := by
  obtain ⟨tr, tl, tf⟩ := t
  obtain ⟨tr', tl', tf'⟩ := t'
  dsimp only at *
  have hsub2 : (a ++ [Call.osnma p.data p.svn p.gst]).Sublist (a' ++ [Call.osnma p.data p.svn p.gst]) := hsub.append (List.Sublist.refl _)
  have hpm : ∀ x : List Call, p ∈ pagesOf (x ++ [.osnma p.data p.svn p.gst]) := fun x => by
    rw [pagesOf_page x p.svn p.gst hz]; simp
  have hfs : Spoofed b G before log₁ (a ++ [.osnma p.data p.svn p.gst]) := h.spoofed.sub (fun q hq => (pagesOf_sub hsub2).subset hq)
  obtain ⟨rs₀, _, hr0⟩ := machine_received3 (G := G) hb hm₁ (hfs.sub fun q hq => by rw [pagesOf_append]; exact List.mem_append_left _ hq) hs
  obtain ⟨rs₂, e1, hr⟩ := machine_received3 (G := G) hb hm₁ hfs ht
  obtain ⟨rs₂', e2, hr'⟩ := machine_received3 (G := G) hb hm₁ h.spoofed ht'
  obtain ⟨rest0, he0⟩ := hr0.split
  have hordP : (pagesOf (before ++ (a' ++ [Call.osnma p.data p.svn p.gst]))).Pairwise (fun p q => p.sub.abs ≤ q.sub.abs) := h.order.pages
  have hordA : (pagesOf (a' ++ [Call.osnma p.data p.svn p.gst])).Pairwise (fun p q => p.sub.abs ≤ q.sub.abs) := by
    have := hordP
    rw [pagesOf_append] at this
    exact (List.pairwise_append.1 this).2.1
  have st := hr.tracks.state (hr.on hfs) (hr.leads hfs) (hr.sorted (hordA.sublist (pagesOf_sub hsub2))) hr.machine h.same h.no
  have st' := hr'.tracks.state (hr'.on h.spoofed) (hr'.leads h.spoofed) (hr'.sorted hordA) hr'.machine h.same' h.no'
  have hkg : k.gst = p.sub := hm.gst.trans hc.gst
  have hlast := inOrder_last h.order
  have hlastp : ∀ c ∈ before ++ (a' ++ [Call.osnma p.data p.svn p.gst]), c.gst.subframe.abs ≤ p.sub.abs := hlast
  -- the key
  have hkb : k = b.key k.gst := by
    obtain ⟨rest, h1, h2⟩ := st.1
    rw [hl, he0, List.append_assoc, List.append_assoc] at h1
    have := List.append_cancel_left h1
    exact h2 k (by rw [← this]; simp)
  have hrm : r ∈ rs₁ ++ rs₂' := received_more hsub2 h.spoofed h.genuine hordA hr hr' (by rw [← e1, hrs]; simp)
  have hgst : ∀ x ∈ rs₁ ++ rs₂', x.gst.abs ≤ p.sub.abs := by
    intro x hx
    obtain ⟨q, hq, e⟩ := received_sub hr'.all hx
    rw [← pagesOf_append] at hq
    obtain ⟨c, hc, ec⟩ := page_sub_call hq
    rw [← e, ← ec]; exact hlastp c hc
  have hGp : G p.svn := h.genuine p (hpm a)
  refine ⟨?_, ?_, ?_, ?_, ?_⟩
  · have hr2 : r ∈ rs₂' := by
      rcases List.mem_append.1 hrm with h1 | h1
      · exfalso
        obtain ⟨q, hq, e⟩ := received_sub hr.first h1
        have := h.spoofed.later q hq p (hpm a')
        rw [e, hc.gst] at this
        omega
      · exact h1
    have := st'.2.2.2.2 r hr2 (hr'.sent r hr2 (by rw [hc.svn]; exact hGp))
    rw [← hm.gst, ← hkb] at this
    exact this
  · intro hin
    rw [he0] at hin
    rcases List.mem_append.1 hin with h1 | h1
    · obtain ⟨x, hx, e⟩ := machine_tesla_time hr.tracks.before h1
      obtain ⟨q, hq, e'⟩ := received_sub hr.first hx
      have := h.spoofed.later q hq p (hpm a')
      rw [e', e, hkg] at this
      omega
    · obtain ⟨x, y, hxy⟩ := List.append_of_mem h1
      obtain ⟨e, he, hd⟩ := h.once (log₁ ++ x) (y ++ l₁) [] k (by rw [hl, he0, hxy]; simp)
      have hsm := h.same e (by
        rw [hl, he0, hxy]
        rw [List.append_assoc, List.append_assoc, List.drop_left]
        simp only [List.mem_append, List.mem_cons] at he ⊢
        grind)
      cases e with
      | kroot hd' data pk key g =>
        obtain rfl := hsm.1 _ _ _ _ _ rfl
        have hkc : b.header.chainId = k.chain.id := by
          obtain ⟨cur, n, ⟨_, hd2, e1, e2⟩, e3, _⟩ := hm.derives
          obtain ⟨s1, hs1⟩ := h.spoofed.force hb
          obtain ⟨s2, hs2, _⟩ := force_keeps hb hs1 (rest := rest0 ++ l₁) (by
            have hsl := h.same
            rw [hl, he0, List.append_assoc log₁] at hsl
            exact hsl.prefix)
          obtain ⟨hd3, e4, e5⟩ := force_last hs2
          rw [he0, List.append_assoc, e4] at e1
          cases e1
          rw [e3, ← e2, e5]
        rcases hd with hd | hd
        · have := hb.status
          rw [hd.1] at this
          rcases this with h | h <;> cases h
        · exact hd.2 hkc
      | tesla k' => cases hd
      | pkr d pk => cases hd
      | alert d => cases hd
  · rw [hkg]; exact hlastp
  · intro k' h1 h2 h3
    obtain ⟨rest', g1, g2⟩ := st'.1
    have hk' : k' = b.key k'.gst := by
      rw [g1] at h1
      rcases List.mem_append.1 h1 with h1 | h1
      · exact absurd (by rw [he0]; exact List.mem_append_left _ h1) h2
      · exact g2 k' h1
    obtain ⟨x, hx, e⟩ := machine_tesla_time hr'.machine h1
    have l1 := hgst x hx
    have l2 := h3 (.osnma p.data p.svn p.gst) (by simp)
    have : k'.gst = k.gst := by
      rw [e] at l1
      rw [hkg]
      exact Gst.abs_inj (Int.le_antisymm l1 l2)
    rw [hk', this]; exact hkb.symm
  · intro us rs0 lg t1 t10 t11 hcov kd
    rw [hcov.tags]
    obtain ⟨z, hz0⟩ := hcov.part
    rw [e2] at hz0
    obtain ⟨o1, o2, _⟩ := received_once hr'.all (by rw [← pagesOf_append]; exact hordP)
    have hsorted : (rs₁ ++ rs₂').Pairwise (fun x y => x.gst.abs ≤ y.gst.abs) := by
      have h1 := (List.pairwise_map (f := Page.sub) (R := fun a b : Gst => a.abs ≤ b.abs)).2 hordP
      rw [pagesOf_append] at h1
      exact (List.pairwise_map (R := fun a b : Gst => a.abs ≤ b.abs)).1 (h1.sublist (received_sublist hr'.all))
    have hin0 : ∀ x ∈ rs0, x ∈ rs₁ ++ rs₂' := fun x hx => by rw [← hz0]; exact List.mem_append_left _ hx
    have hfound : ∀ g : Gst, g.abs < k.gst.abs → k.gst.abs - g.abs < 30 * S.mackDepth → ∀ v x,
        expectedMack S ((s.rs ++ [r]).map Received.mackCall) v g = some x → expectedMack S (rs0.map Received.mackCall) v g = some x := by
      intro g hg1 hg2 v x hx
      obtain ⟨r1, m1, rfl, m3, rfl⟩ := expectedMack_mem hx
      have m4 : r1 ∈ rs₁ ++ rs₂' := received_more hsub2 h.spoofed h.genuine hordA hr hr' (by rw [← e1, hrs]; exact m1)
      have m5 : r1 ∈ rs0 := by
        rw [← hz0] at m4
        rcases List.mem_append.1 m4 with m4 | m4
        · exact m4
        · exfalso
          obtain ⟨r0, q1, q2⟩ := hcov.now
          rw [← hz0] at hsorted
          have := (List.pairwise_append.1 hsorted).2.2 r0 q1 r1 m4
          rw [q2, m3] at this
          omega
      refine expectedMack_found (top := k.gst.abs) ?_ ?_ ?_ ?_ ?_ hg2 m5 m3
      · rw [← hz0, List.map_append] at o1
        exact (List.nodup_append.1 o1).1
      · rw [← hz0] at hsorted
        exact (List.pairwise_append.1 hsorted).1
      · intro x hx
        obtain ⟨q, hq, _, e⟩ := o2 x (hin0 x hx)
        rw [← e]; exact Gst.subframe_aligned _
      · obtain ⟨sats, f1, f2⟩ := h.fit g
        refine ⟨sats, f1, fun x hx hxg => ?_⟩
        obtain ⟨q, hq, e3, e4⟩ := o2 x (hin0 x hx)
        rw [← e3]
        exact f2 q (by rw [pagesOf_append]; exact hq) (e4.trans hxg)
      · intro x hx
        rw [hkg]; exact hgst x (hin0 x hx)
    have d2 : 2 ≤ S.mackDepth := by
      rcases h.enough with e | ⟨e, _⟩ <;> omega
    refine tagsDue_heard (hfound t1 (by rw [hcov.h1]; omega) (by rw [hcov.h1]; omega)) ?_ ?_ hcov.source kd
    · rcases h.enough with e | ⟨_, hno⟩
      · exact .inl (hfound t11 (by rw [hcov.h11]; omega) (by rw [hcov.h11]; omega))
      · right
        intro c hcm t htt
        obtain ⟨x, hx, rfl⟩ := List.mem_map.1 hcm
        exact hno _ (by rw [pagesOf_append]; exact hr.all) x (by rw [← e1, hrs]; exact hx) k (by rw [hl]; simp) t htt
    · have hsl := h.same
      rw [hl, he0, List.append_assoc log₁] at hsl ⊢
      rw [he0, List.append_assoc] at hm
      exact Pair.source h hb hsl.prefix (hpm a') hm hc.gst hcov.h10

/-- The machine that hears more is ahead. -/
theorem ahead_machines (hb : b.Sound) (hpos : 1 ≤ S.navDepth) (hm₁ : NavMachine root0 pk0 S slow before rs₁ log₁ fs₁) (hmore : MorePages a a')
    (h : Pair b G S before log₁ a a' log log') (hm : NavMachine root0 pk0 S slow (before ++ a) rs log fs)
    (hm' : NavMachine root0 pk0 S slow (before ++ a') rs' log' fs') : Ahead S slow S.navDepth (before ++ a') log fs rs' log' fs' := by
  induction hmore generalizing rs rs' log log' fs fs' with
  | nil =>
    obtain ⟨rfl, rfl, rfl⟩ := C63_machine_deterministic hm hm'
    refine ⟨⟨?_, ?_⟩, fun k h1 h2 => absurd h1 h2⟩
    · have : fs.length ≤ S.navDepth := by
        have := machines_mono (S := S) (S' := S) ⟨Nat.le_refl _, Nat.le_refl _, Nat.le_refl _⟩ id hpos hm hm
        rw [this.len]
        omega
      omega
    · intro i f f' h1 h2
      rw [h1] at h2
      cases h2
      exact ⟨rfl, rfl, fun _ _ => Nat.le_refl _⟩
  | @word a a' hmore c ih =>
    have hm0 := hm
    have hm0' := hm'
    rw [← List.append_assoc] at hm hm'
    obtain ⟨s, hs, m⟩ := (machine_snoc (t := ⟨rs, log, fs⟩)).1 hm
    obtain ⟨s', hs', m'⟩ := (machine_snoc (t := ⟨rs', log', fs'⟩)).1 hm'
    have m := m.word_inv
    have m' := m'.word_inv
    cases m; cases m'
    have hp := h.mono (a := a) (a' := a') (log := s.log) (log' := s'.log) (List.prefix_append _ _) (List.prefix_append _ _) (List.prefix_refl _) (List.prefix_refl _)
    have hwe : inavsOf (before ++ a) = inavsOf (before ++ a') := by rw [inavsOf_append', inavsOf_append', hmore.words]
    rw [← List.append_assoc]
    have hq := inOrder_last h.order
    refine (ih hp hs hs').word hpos c (p := inavsOf (before ++ a)) hs.ends ?_ ?_
    · intro r hr
      obtain ⟨q, hq', e⟩ := received_sub (C63_contains_key_machine hs').1 hr
      obtain ⟨x, hx, ex⟩ := page_sub_call hq'
      rw [← e, ← ex]
      exact hq x (by rw [← List.append_assoc]; exact List.mem_append_left _ hx)
    · intro ⟨r, hr, hrg⟩ kd v
      rw [hwe]
      have hh := received_heard (C63_contains_key_machine hs').1 hr
      obtain ⟨q, q1, q2⟩ := List.mem_map.1 (hh.subset (show 14 ∈ List.range 15 by decide))
      rw [List.mem_filter, Bool.and_eq_true, beq_iff_eq, beq_iff_eq] at q1
      exact h.ret (before ++ a') c [] (by rw [List.append_assoc]) ⟨q, q1.1, q2, q1.2.2.trans hrg⟩ kd v
  | @page a a' hmore p ih =>
    have hm0 := hm
    have hm0' := hm'
    rw [← List.append_assoc] at hm hm'
    obtain ⟨s, hs, m⟩ := (machine_snoc (t := ⟨rs, log, fs⟩)).1 hm
    obtain ⟨s', hs', m'⟩ := (machine_snoc (t := ⟨rs', log', fs'⟩)).1 hm'
    have pre : ∀ {ps : List Page} {x y : MState C}, Move root0 pk0 S slow ps x (.osnma p.data p.svn p.gst) y → x.log <+: y.log := by
      intro ps x y hmv
      rcases hmv.page_inv with ⟨rfl, _⟩ | ⟨r, l₁, l₂, gs, _, _, _, _, _, rfl⟩
      · exact List.prefix_refl _
      · exact ⟨l₁ ++ l₂, by rw [List.append_assoc]⟩
    have hp := h.mono (a := a) (a' := a') (log := s.log) (log' := s'.log) (List.prefix_append _ _) (List.prefix_append _ _) (pre m) (pre m')
    have step := (ih hp hs hs').extra hs.capped m' ?_
    · rw [← List.append_assoc]
      refine step.follow m ?_
      intro r l₁ k hz hc hmk hl hrs
      have := Pair.accepts (t := ⟨rs, log, fs⟩) (t' := ⟨rs', log', fs'⟩) hb hm₁ h hmore.sub hs hm0 hm0' hz hc hmk hl hrs
      rw [← List.append_assoc] at this
      exact this
    · intro r l₁ k t10 hz hmk hrg hl h10
      obtain ⟨rs₂', _, hr'⟩ := machine_received3 (G := G) hb hm₁ hp.spoofed hs'
      obtain ⟨rest0, he0⟩ := hr'.split
      dsimp only at hl ⊢
      have hsl := h.same'
      rw [hl, he0, List.append_assoc log₁] at hsl ⊢
      rw [he0, List.append_assoc] at hmk
      exact h.source hb hsl.prefix (q := p) (by rw [pagesOf_page a' p.svn p.gst hz]; simp) hmk hrg h10
  | @extra a a' hmore p ih =>
    have hm0' := hm'
    rw [← List.append_assoc] at hm'
    obtain ⟨s', hs', m'⟩ := (machine_snoc (t := ⟨rs', log', fs'⟩)).1 hm'
    have pre : s'.log <+: log' := by
      rcases m'.page_inv with ⟨e, _⟩ | ⟨r, l₁, l₂, gs, _, _, _, _, _, e⟩
      · cases e; exact List.prefix_refl _
      · cases e; exact ⟨l₁ ++ l₂, by rw [List.append_assoc]⟩
    have hp := h.mono (a := a) (a' := a') (log := log) (log' := s'.log) (List.prefix_refl _) (List.prefix_append _ _) (List.prefix_refl _) pre
    have step := (ih hp hm hs').extra hm.capped m' ?_
    · rw [← List.append_assoc]
      exact step
    · intro r l₁ k t10 hz hmk hrg hl h10
      obtain ⟨rs₂', _, hr'⟩ := machine_received3 (G := G) hb hm₁ hp.spoofed hs'
      obtain ⟨rest0, he0⟩ := hr'.split
      dsimp only at hl ⊢
      have hsl := h.same'
      rw [hl, he0, List.append_assoc log₁] at hsl ⊢
      rw [he0, List.append_assoc] at hmk
      exact h.source hb hsl.prefix (q := p) (by rw [pagesOf_page a' p.svn p.gst hz]; simp) hmk hrg h10

end Verif
