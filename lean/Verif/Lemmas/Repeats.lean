import Verif.Spec.Repeats
import Verif.Props.Places

/-! # Lemmas: a call that repeats an earlier one does nothing -/

namespace Verif
open CollectSubframe (satAfter satAfter_snoc Sat)

variable {S : Storage} {C : Crypto}

/-! ## The calls left -/

theorem onceEach_snoc (l : List Call) (c : Call) :
    onceEach (l ++ [c]) = if (onceEach l).any (fun a => a.RepeatedBy c) then onceEach l else onceEach l ++ [c] := by
  simp [onceEach, List.foldl_append]

theorem onceEach_prefix (l : List Call) (c : Call) : (onceEach l) <+: (onceEach (l ++ [c])) := by
  rw [onceEach_snoc]
  split
  · exact List.prefix_refl _
  · exact List.prefix_append _ _

theorem onceEach_sublist (l : List Call) : (onceEach l).Sublist l := by
  induction l using CollectSubframe.snoc_induction with
  | h0 => exact List.Sublist.refl _
  | h1 l c ih =>
    rw [onceEach_snoc]
    split
    · exact ih.trans (List.sublist_append_left _ _)
    · exact ih.append (List.Sublist.refl _)

theorem mem_pagesOf {l : List Call} {p : Page} :
    p ∈ pagesOf l ↔ Call.osnma p.data p.svn p.gst ∈ l ∧ p.data.val.all (fun x => x == 0#8) = false := by
  unfold pagesOf
  rw [List.mem_filterMap]
  constructor
  · rintro ⟨c, hc, h⟩
    cases c with
    | inav => simp at h
    | osnma d s g =>
      dsimp only at h
      split at h
      · simp at h
      · rename_i hz
        cases h
        exact ⟨hc, by simpa using hz⟩
  · rintro ⟨hc, hz⟩
    exact ⟨_, hc, by simp only [hz]; rfl⟩

theorem mem_inavsOf {l : List Call} {c : InavCall} : c ∈ inavsOf l ↔ Call.inav c.word c.svn c.gst c.band ∈ l := by
  unfold inavsOf
  rw [List.mem_filterMap]
  constructor
  · rintro ⟨d, hd, h⟩
    cases d with
    | inav w s g b => cases h; exact hd
    | osnma => simp at h
  · intro h
    exact ⟨_, h, rfl⟩

theorem Call.repeated_osnma {d d' : OsnmaDataMessage} {s s' : Svn} {g g' : Gst} :
    (Call.osnma d s g).RepeatedBy (.osnma d' s' g') = true ↔ d.val.all (fun x => x == 0#8) = false ∧ s = s' ∧ g.subframe = g'.subframe ∧
      (Page.mk d s g).word = (Page.mk d' s' g').word := by
  simp only [Call.RepeatedBy, Bool.and_eq_true, Bool.not_eq_true', beq_iff_eq, and_assoc]

theorem Call.repeated_inav {w w' : InavWord} {s s' : Svn} {g g' : Gst} {b b' : InavBand} :
    (Call.inav w s g b).RepeatedBy (.inav w' s' g' b') = true ↔ w = w' ∧ s = s' ∧ g.subframe = g'.subframe ∧ b = b' := by
  simp only [Call.RepeatedBy, Bool.and_eq_true, beq_iff_eq, and_assoc]

/-- Of each page a copy is left. -/
theorem onceEach_page {l : List Call} {p : Page} (h : p ∈ pagesOf l) :
    ∃ p' ∈ pagesOf (onceEach l), p'.svn = p.svn ∧ p'.sub = p.sub ∧ p'.word = p.word := by
  induction l using CollectSubframe.snoc_induction with
  | h0 => simp [pagesOf] at h
  | h1 l c ih =>
    rw [pagesOf_snoc, List.mem_append] at h
    have hmono : ∀ x ∈ onceEach l, x ∈ onceEach (l ++ [c]) := fun x hx => (onceEach_prefix l c).subset hx
    rcases h with h | h
    · obtain ⟨p', h1, h2⟩ := ih h
      exact ⟨p', mem_pagesOf.2 ⟨hmono _ (mem_pagesOf.1 h1).1, (mem_pagesOf.1 h1).2⟩, h2⟩
    · obtain ⟨hc, hz⟩ := mem_pagesOf.1 h
      simp only [List.mem_singleton] at hc
      rw [onceEach_snoc]
      split
      · rename_i hany
        obtain ⟨a, ha, hr⟩ := List.any_eq_true.1 hany
        subst hc
        cases a with
        | inav => simp [Call.RepeatedBy] at hr
        | osnma d s g =>
          rw [Call.repeated_osnma] at hr
          obtain ⟨r1, r2, r3, r4⟩ := hr
          exact ⟨⟨d, s, g⟩, mem_pagesOf.2 ⟨ha, r1⟩, r2, r3, r4⟩
      · exact ⟨p, mem_pagesOf.2 ⟨by rw [hc]; simp, hz⟩, rfl, rfl, rfl⟩

/-! ## Prefixes -/

theorem SteadyWords.sub {p q : List InavCall} (h : SteadyWords p) (hs : ∀ x ∈ q, x ∈ p) : SteadyWords q :=
  fun a ha b hb => h a (hs a ha) b (hs b hb)

theorem inavsOf_snoc (l : List Call) (c : Call) : inavsOf (l ++ [c]) = inavsOf l ++ inavsOf [c] := by
  unfold inavsOf; rw [List.filterMap_append]

theorem HeardBySeveral.init {l : List Call} {c : Call} (h : HeardBySeveral (l ++ [c])) : HeardBySeveral l := by
  refine ⟨?_, ?_, ?_, ?_⟩
  · have := h.words
    cases c with
    | inav w s g b => rw [inavsOf_snoc] at this; exact Chronological.init (c := ⟨w, s, g, b⟩) this
    | osnma d s g => rwa [inavsOf_osnma] at this
  · have := h.pages
    rw [pagesOf_snoc, List.pairwise_append] at this
    exact this.1
  · have := h.firsts
    obtain ⟨t, ht⟩ := onceEach_prefix l c
    rw [← ht] at this
    have e : pagesOf (onceEach l ++ t) = pagesOf (onceEach l) ++ pagesOf t := by unfold pagesOf; rw [List.filterMap_append]
    rw [e, List.pairwise_append] at this
    exact this.1
  · exact h.steady.sub (fun x hx => by rw [inavsOf_snoc]; exact List.mem_append_left _ hx)

theorem RoomForRepeats.init {l : List Call} {c : Call} (h : RoomForRepeats S (inavsOf (l ++ [c]))) : RoomForRepeats S (inavsOf l) := by
  intro q r t a d he
  refine h q r (t ++ inavsOf [c]) a d ?_
  rw [inavsOf_snoc, he]
  simp

/-! ## Pages -/

theorem satAfter_sub {ps : List Page} {p : Page} (v : Svn) : (satAfter v (ps ++ [p])).sub = p.sub := by
  rw [satAfter_snoc, Sat.step_sub]

/-- The collector does not expect a page that it has been given in this subframe. -/
theorem not_expected {l : List Call} (h : HeardBySeveral l) (v : Svn) : ∀ q ∈ pagesOf l, q.svn = v →
    q.sub = (satAfter v (pagesOf l)).sub → (satAfter v (pagesOf l)).got.length ≠ q.word := by
  induction l using CollectSubframe.snoc_induction with
  | h0 => intro q hq; simp [pagesOf] at hq
  | h1 l c ih =>
    have ih := ih h.init
    cases hc : pagesOf [c] with
    | nil => rw [pagesOf_snoc, hc, List.append_nil]; exact ih
    | cons p t =>
      have ht : t = [] := by
        have : (pagesOf [c]).length ≤ 1 := by unfold pagesOf; exact List.length_filterMap_le _ _
        rw [hc] at this
        cases t with
        | nil => rfl
        | cons => simp at this
      subst ht
      have hp : pagesOf (l ++ [c]) = pagesOf l ++ [p] := by rw [pagesOf_snoc, hc]
      have hcp := mem_pagesOf.1 (show p ∈ pagesOf [c] by rw [hc]; exact List.mem_singleton.2 rfl)
      have hcc : c = Call.osnma p.data p.svn p.gst := (List.mem_singleton.1 hcp.1).symm
      have hchr := h.pages
      rw [hp, List.pairwise_append] at hchr
      have hfirst : (∀ q ∈ pagesOf l, q.svn = p.svn → q.sub = p.sub → q.word < p.word) ∨
          ∃ q ∈ pagesOf l, q.svn = p.svn ∧ q.sub = p.sub ∧ q.word = p.word := by
        have hf := h.firsts
        rw [onceEach_snoc] at hf
        split at hf
        · rename_i hany
          obtain ⟨a, ha, hr⟩ := List.any_eq_true.1 hany
          rw [hcc] at hr
          cases a with
          | inav => simp [Call.RepeatedBy] at hr
          | osnma d s g =>
            rw [Call.repeated_osnma] at hr
            obtain ⟨r1, r2, r3, r4⟩ := hr
            exact .inr ⟨⟨d, s, g⟩, mem_pagesOf.2 ⟨(onceEach_sublist l).subset ha, r1⟩, r2, r3, r4⟩
        · left
          rw [pagesOf_snoc, hc, List.pairwise_append] at hf
          intro q hq h1 h2
          obtain ⟨q', k1, k2, k3, k4⟩ := onceEach_page hq
          rw [← k4]
          exact hf.2.2 q' k1 p (by simp) (by rw [k2, h1]) (by rw [k3, h2])
      rw [hp]
      intro q hq hv hs
      rw [satAfter_sub] at hs
      rw [satAfter_snoc, Sat.step_got]
      by_cases hsub : p.sub = (satAfter v (pagesOf l)).sub
      · simp only [hsub, if_true]
        have hold : ∀ q ∈ pagesOf l, q.svn = v → q.sub = p.sub → (satAfter v (pagesOf l)).got.length ≠ q.word :=
          fun q hq h1 h2 => ih q hq h1 (by rw [h2, hsub])
        split
        · rename_i hacc
          have hnot : ∀ q ∈ pagesOf l, q.svn = p.svn → q.sub = p.sub → q.word < p.word := by
            rcases hfirst with h | ⟨q', k1, k2, k3, k4⟩
            · exact h
            · exact absurd (by rw [k4]; exact hacc.2.symm) (hold q' k1 (by rw [k2, hacc.1]) k3)
          simp only [List.length_append, List.length_singleton]
          rcases List.mem_append.1 hq with hq | hq
          · have := hnot q hq (by rw [hv, hacc.1]) hs
            omega
          · simp only [List.mem_singleton] at hq
            subst hq
            omega
        · rename_i hacc
          rcases List.mem_append.1 hq with hq | hq
          · exact hold q hq hv hs
          · simp only [List.mem_singleton] at hq
            subst hq
            intro he
            exact hacc ⟨hv, he.symm⟩
      · simp only [hsub, if_false]
        have hnone : ∀ q ∈ pagesOf l, q.sub ≠ p.sub := by
          intro q hq he
          rcases List.eq_nil_or_concat (pagesOf l) with hnil | ⟨ps, z, hz⟩
          · rw [hnil] at hq; simp at hq
          · rw [List.concat_eq_append] at hz
            have e1 : (satAfter v (pagesOf l)).sub = z.sub := by rw [hz, satAfter_sub]
            have hzp : z.sub.abs ≤ p.sub.abs := hchr.2.2 z (by rw [hz]; simp) p (by simp)
            have hqz : q.sub.abs ≤ z.sub.abs := by
              have hpw := hchr.1
              rw [hz] at hq hpw
              rcases List.mem_append.1 hq with hq | hq
              · exact (List.pairwise_append.1 hpw).2.2 q hq z (by simp)
              · simp only [List.mem_singleton] at hq; rw [hq]; omega
            rw [he] at hqz
            exact hsub (by rw [e1]; exact Gst.abs_inj (by omega))
        rcases List.mem_append.1 hq with hq | hq
        · exact absurd hs (hnone q hq)
        · simp only [List.mem_singleton] at hq
          subst hq
          split
          · rename_i hacc
            have := hacc.2
            simp only [List.length_nil] at this
            simp [this]
          · rename_i hacc
            simp only [List.length_nil]
            intro he
            exact hacc ⟨hv, he.symm⟩

/-- A page that the collector has been given in the current subframe is not taken. -/
theorem feed_rejected {s : CollectSubframe} {p : Page} {a : Sat} (h : CollectSubframe.Rep s p.svn a) (hs : p.sub = a.sub)
    (hw : a.got.length ≠ p.word) : s.feed p.data p.svn p.gst = .ok (s, none) := by
  have h1 := h.wn
  have h2 := h.sub
  have hadj : s.adjust p.gst = s := by
    unfold CollectSubframe.adjust
    rw [if_neg]
    rw [← hs] at h1 h2
    simp only [Page.sub, Gst.subframe] at h1 h2
    omega
  unfold CollectSubframe.feed
  rw [hadj]
  have hi : index s.numValid p.svn.idx = .ok a.got.length := by rw [index_eq_ok]; exact h.nv
  simp only [hi, Res.ok_bind]
  rw [if_pos (by rw [← CollectSubframe.word_eq]; exact fun he => hw he.symm)]
  rfl

/-! ## Words -/

/-- Feeding an entry with data that it has, of age zero, does not change it. -/
theorem NavItem.copyWord_noop {x : NavItem} {lo hi idx : Nat} {src : List Bool} (hd : (x.data.drop lo).take (hi - lo) = src)
    (ha : x.age[idx]? = some 0) : x.copyWord lo hi src idx = x := by
  have hage : x.age.set idx 0 = x.age := by
    apply List.ext_getElem?
    intro i
    by_cases h : idx = i
    · subst h
      rw [List.getElem?_set_self (List.getElem?_eq_some_iff.1 ha).1, ha]
    · rw [List.getElem?_set_ne h]
  unfold NavItem.copyWord
  dsimp only
  rw [hage, if_neg (by simpa using hd)]

open CollectNavMessage in
/-- Feeding a word whose entries do not change leaves the store as it is. -/
theorem CollectNavMessage.feed_noop (hS : S.Consistent) {n : CollectNavMessage} {L : List NavSlot} (h : Rep S n L) (c : InavCall)
    {s : NavSlot} (hs : L[0]? = some s) (hg : s.gst = c.gst.subframe)
    (hx : ∀ kd : NavKind, (∃ x ∈ s.items kd, x.svn = some c.svn) ∧ (∀ x ∈ s.items kd, x.maxAge ≤ 255) ∧
      ∀ x ∈ s.items kd, x.svn = some c.svn → NavItem.feedUpd (kd.upd c) c.svn x = x) :
    feed S n c.word c.svn c.gst c.band = .ok n := by
  have hd := hS.nav_pos
  have h0 := h.gst 0 hd
  have hc0 := h.ced 0 hd
  have ht0 := h.timing 0 hd
  rw [pos_zero] at h0 hc0 ht0
  simp only [hs, Option.map_some, Option.getD_some] at h0 hc0 ht0
  have hadj : adjustWritePointer S n c.gst.subframe = .ok n := by
    unfold adjustWritePointer
    rw [index_eq_ok.2 h0]
    simp only [Res.ok_bind, hg, ne_eq, not_true_eq_false, if_false, Res.pure_eq]
    rw [setIndex_ok (by rw [h.lg]; exact h.wp)]
    have : n.gsts.set n.writePointer (some c.gst.subframe) = n.gsts := by
      apply List.ext_getElem?
      intro i
      by_cases hi : n.writePointer = i
      · subst hi
        rw [List.getElem?_set_self (by rw [h.lg]; exact h.wp), h0, hg]
      · rw [List.getElem?_set_ne hi]
    simp only [Res.ok_bind, this]
  have hset : ∀ {arr : List NavItem} {sl : List NavItem}, arr.length = S.navDepth * S.numSats → slotOf S.numSats arr n.writePointer = sl →
      setSlot S.numSats arr n.writePointer sl = arr := by
    intro arr sl hl hsl
    subst hsl
    have hlen : (slotOf S.numSats arr n.writePointer).length = S.numSats := slotOf_length hl h.wp
    unfold setSlot
    rw [hlen]
    unfold slotOf
    rw [List.append_assoc, ← List.drop_drop, List.take_append_drop, List.take_append_drop]
  have hsel : ∀ kd : NavKind, updSel c.svn (NavItem.feedUpd (kd.upd c) c.svn) (s.items kd) = s.items kd := by
    intro kd
    obtain ⟨⟨y, hy, hys⟩, hage, hsame⟩ := hx kd
    obtain ⟨i, x, e1, e2, e3⟩ := updSel_cases (svn := c.svn) (NavItem.feedUpd (kd.upd c) c.svn) (s := s.items kd)
      (List.ne_nil_of_mem hy) hage
    rw [e2]
    have hxs : x.svn = some c.svn := by
      rcases e3 with e3 | ⟨e3, _⟩
      · exact e3
      · exact absurd hys (e3 y hy)
    rw [hsame x (List.mem_of_getElem? e1) hxs]
    apply List.ext_getElem?
    intro j
    by_cases hj : i = j
    · subst hj
      rw [List.getElem?_set_self (List.getElem?_eq_some_iff.1 e1).1, e1]
    · rw [List.getElem?_set_ne hj]
  unfold feed
  simp only [hadj, Res.ok_bind]
  have hfc : (fun x : NavItem => x.feedCed c.word c.svn) = NavItem.feedUpd (NavItem.cedUpd c.word) c.svn := by
    funext x; exact NavItem.feedCed_eq x c.word c.svn
  have hft : (fun x : NavItem => x.feedTiming c.word c.svn c.band) = NavItem.feedUpd (NavItem.timingUpd c.word c.band) c.svn := by
    funext x; exact NavItem.feedTiming_eq x c.word c.svn c.band
  rw [hfc, hft, updateSelected_ok hS h.lc h.wp hc0, updateSelected_ok hS h.lt h.wp ht0]
  have e1 := hsel .ced
  have e2 := hsel .timing
  simp only [NavSlot.items, NavKind.upd] at e1 e2
  simp only [Res.ok_bind, Res.pure_eq, e1, e2, hset h.lc hc0, hset h.lt ht0]

/-- A word heard again, of a satellite that still has its place, changes nothing. -/
theorem feedInav_repeat (hS : S.Consistent) {o0 o : Osnma C} (h0 : o0.Fresh S) {l : List Call} (h : run S o0 l = .ok o)
    {q r : List InavCall} {c d : InavCall} (hl : inavsOf l = q ++ c :: r) (hchr : Chronological (inavsOf l ++ [d]))
    (hsteady : SteadyWords (inavsOf l ++ [d])) (hk : ∀ kd, KeepsPlace S kd q c.svn (c :: r))
    (hw : d.word = c.word) (hv : d.svn = c.svn) (hg : d.gst.subframe = c.gst.subframe) (hb : d.band = c.band) :
    o.feedInav S d.word d.svn d.gst d.band = .ok o := by
  have hinv := navInv_run hS h0 h
  have hle : ∀ e ∈ inavsOf l ++ [d], e.gst.subframe.abs ≤ d.gst.subframe.abs := hchr.le_last
  -- the words since the first copy are of the same subframe
  have hsame : ∀ e ∈ c :: r, e.gst.subframe = d.gst.subframe := by
    intro e he
    have h1 : e.gst.subframe.abs ≤ d.gst.subframe.abs := hle e (by rw [hl]; simp at he ⊢; rcases he with he | he <;> simp [he])
    have h2 : c.gst.subframe.abs ≤ e.gst.subframe.abs := by
      have hp : Chronological (q ++ c :: r) := by rw [← hl]; exact hchr.init
      have hp := hp.suffix.pairwise
      rcases List.mem_cons.1 he with rfl | he
      · omega
      · exact (List.pairwise_cons.1 hp).1 e he
    exact Gst.abs_inj (by rw [hg] at h1 ⊢; omega)
  have hslot : ∃ s, (o.stored S)[0]? = some s ∧ s.gst = d.gst.subframe := by
    obtain ⟨s, x, hs, _⟩ := C65_kept hS h0 h hchr.init .ced hl (hk .ced)
    refine ⟨s, hs, ?_⟩
    have hcore := hinv.core
    obtain ⟨p, z, hz⟩ : ∃ p z, inavsOf l = p ++ [z] ∧ z ∈ c :: r := by
      rcases List.eq_nil_or_concat (c :: r) with hn | ⟨p, z, hz⟩
      · cases hn
      · rw [List.concat_eq_append] at hz
        exact ⟨q ++ p, z, by rw [hl, hz, List.append_assoc], by rw [hz]; simp⟩
    rw [hz.1, navRun_snoc] at hcore
    have := congrArg (fun L => L[0]?.map (·.gst)) hcore
    simp only [List.getElem?_map, hs, navStep, List.getElem?_cons_zero, Option.map_some, Option.some.injEq, NavSlot.step_gst] at this
    rw [← hsame z hz.2, ← this]
    rfl
  obtain ⟨s, hs, hsg⟩ := hslot
  have hfeed : o.data.data.navmessage.feed S d.word d.svn d.gst d.band = .ok o.data.data.navmessage := by
    refine CollectNavMessage.feed_noop hS hinv.rep d hs hsg ?_
    intro kd
    obtain ⟨s', x, hs', hx, hxs, hdata, _⟩ := C65_kept hS h0 h hchr.init kd hl (hk kd)
    rw [hs] at hs'
    cases hs'
    have hgood := hinv.good hS kd (List.mem_of_getElem? hs)
    refine ⟨⟨x, hx, by rw [hv]; exact hxs⟩, ?_, ?_⟩
    · exact fun y hy => (hgood.wf y hy).maxAge
    · intro y hy hys
      have hyx : y = x := by
        obtain ⟨i, hi⟩ := List.getElem?_of_mem hy
        obtain ⟨j, hj⟩ := List.getElem?_of_mem hx
        have := hgood.distinct i j y x d.svn hi hj hys (by rw [hv]; exact hxs)
        subst this
        rw [hi] at hj
        exact Option.some.inj hj
      subst hyx
      unfold NavItem.feedUpd
      cases hu : kd.upd d with
      | none => exact NavItem.assign_same hys
      | some u =>
        dsimp only
        rw [NavItem.assign_same hys]
        obtain ⟨f, u1, u2, u3, u4, u5, _⟩ := kd.upd_some hu
        have hf : f ∈ kd.fields := List.mem_of_getElem? u1
        have hcar : kd.carries c f = true := by
          have : kd.carries c f = kd.carries d f := by unfold NavKind.carries InavCall.type; rw [hw, hb]
          rw [this]; exact u2
        obtain ⟨e, he⟩ : ∃ e, kd.latest (c :: r) c.svn f = some e := by
          cases hlat : kd.latest (c :: r) c.svn f with
          | some e => exact ⟨e, rfl⟩
          | none =>
            unfold NavKind.latest at hlat
            rw [List.getLast?_eq_none_iff, List.filter_eq_nil_iff] at hlat
            have := hlat c (by simp)
            simp [hcar] at this
        have hem : e ∈ c :: r := NavKind.latest_mem he
        have hep : e.svn = c.svn ∧ kd.carries e f = true := by
          unfold NavKind.latest at he
          have := List.mem_of_getLast? he
          simpa using (List.mem_filter.1 this).2
        obtain ⟨k1, k2⟩ := hdata u.idx f e u1 he
        have hel : e ∈ inavsOf l := by rw [hl]; exact List.mem_append_right _ hem
        have hbits : f.bits e = f.bits d := hsteady e (List.mem_append_left _ hel) d (by simp) (by rw [hep.1, hv])
          (hsame e hem) kd f hf hep.2 u2
        have hage : kd.fieldAge (c :: r) c.svn f = 0 := by
          unfold NavKind.fieldAge
          rw [he]
          dsimp only
          rw [laterSubframes_zero (fun z hz => by rw [hsame z hz, hsame e hem]; exact Int.le_refl _)]
          rfl
        rw [hage] at k2
        refine NavItem.copyWord_noop ?_ k2
        have hn : kd.off u.idx + f.len - kd.off u.idx = f.len := by omega
        rw [u3, u4, u5, hn, ← hbits]
        exact k1
  unfold Osnma.feedInav
  rw [hfeed]
  rfl

/-- A page heard again changes nothing. -/
theorem feedOsnma_repeat (hS : S.Consistent) {o0 o : Osnma C} (h0 : o0.Fresh S) {l : List Call} (h : run S o0 l = .ok o)
    (hh : HeardBySeveral l) {d : OsnmaDataMessage} {s : Svn} {g : Gst}
    (hchr : ∀ p ∈ pagesOf l, p.sub.abs ≤ g.subframe.abs)
    (hrep : ∃ p ∈ pagesOf l, p.svn = s ∧ p.sub = g.subframe ∧ p.word = (Page.mk d s g).word) :
    o.feedOsnma S d s g = .ok o := by
  unfold Osnma.feedOsnma
  by_cases hz : d.val.all (fun x => x == 0#8)
  · rw [if_pos hz]; rfl
  · rw [if_neg hz]
    obtain ⟨outs, hf, _⟩ := received_run hS h0 h
    obtain ⟨s', outs', e1, _, e3, _⟩ := CollectSubframe.feedPages_spec CollectSubframe.wf_new (pagesOf l) (fun _ => Sat.init)
      (fun v => CollectSubframe.rep_new v)
    rw [hf] at e1
    cases e1
    obtain ⟨p, hp, p1, p2, p3⟩ := hrep
    have hsub : (satAfter s (pagesOf l)).sub = g.subframe := by
      rcases List.eq_nil_or_concat (pagesOf l) with hnil | ⟨ps, z, hz⟩
      · rw [hnil] at hp; simp at hp
      · rw [List.concat_eq_append] at hz
        have e1 : (satAfter s (pagesOf l)).sub = z.sub := by rw [hz, satAfter_sub]
        have hzp := hchr z (by rw [hz]; simp)
        have hqz : p.sub.abs ≤ z.sub.abs := by
          have hpw := hh.pages
          rw [hz] at hp hpw
          rcases List.mem_append.1 hp with hq | hq
          · exact (List.pairwise_append.1 hpw).2.2 p hq z (by simp)
          · simp only [List.mem_singleton] at hq; rw [hq]; omega
        rw [e1]
        rw [p2] at hqz
        exact Gst.abs_inj (by omega)
    have hrej := feed_rejected (s := o.subframe) (p := ⟨d, s, g⟩) (a := satAfter s (pagesOf l)) (e3 s) hsub.symm
      (by rw [← p3]; exact not_expected hh s p hp p1 (by rw [p2, hsub]))
    dsimp only at hrej
    rw [hrej]
    rfl

end Verif
