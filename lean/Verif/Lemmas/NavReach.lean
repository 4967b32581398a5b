import Verif.Lemmas.NavRun
import Verif.Lemmas.OsnmaRun

/-! # Lemmas: the navigation data store along runs of the black box -/

namespace Verif
open CollectNavMessage

variable {S : Storage} {C : Crypto}

/-! ## `storedSlots` -/

theorem filterMap_range_eq {α : Type u} (L : List α) (d : Nat) (f : Nat → Option α) (h : ∀ k, k < d → f k = L[k]?)
    (hl : L.length ≤ d) : (List.range d).filterMap f = L := by
  induction d generalizing L with
  | zero => have : L = [] := List.eq_nil_of_length_eq_zero (by omega); subst this; rfl
  | succ d ih =>
    rw [List.range_succ, List.filterMap_append]
    have hd := h d (by omega)
    rcases Nat.lt_or_ge d L.length with hlt | hge
    · have hL : L = L.take d ++ [L[d]] := by
        have := List.take_append_getElem (l := L) (i := d) hlt
        rw [this, List.take_of_length_le (by omega)]
      rw [ih (L.take d) ?_ (by simp; omega)]
      · rw [List.getElem?_eq_getElem hlt] at hd
        simp only [List.filterMap_cons, hd, List.filterMap_nil]
        exact hL.symm
      · intro k hk
        rw [h k (by omega), List.getElem?_take_of_lt hk]
    · rw [ih L (fun k hk => h k (by omega)) (by omega)]
      rw [List.getElem?_eq_none (by omega)] at hd
      simp [hd]

theorem Rep.stored {n : CollectNavMessage} {L : List NavSlot} (h : Rep S n L) : n.storedSlots S = L := by
  unfold storedSlots
  apply filterMap_range_eq _ _ _ _ h.llen
  intro k hk
  have hg := h.gst k hk
  have hc := h.ced k hk
  have ht := h.timing k hk
  rw [pos_mod h.wp hk]
  dsimp only
  rw [hg]
  cases hL : L[k]? with
  | none => rfl
  | some s =>
    rw [hL] at hc ht
    simp only [Option.map_some, Option.getD_some] at hc ht ⊢
    unfold slotOf at hc ht
    rw [hc, ht]

theorem Rep.mem {n : CollectNavMessage} {L : List NavSlot} (h : Rep S n L) {kd : NavKind} {x : NavItem} :
    x ∈ n.arr kd ↔ (∃ s ∈ L, x ∈ s.items kd) ∨ (x = kd.newItem ∧ L.length < S.navDepth ∧ 0 < S.numSats) := by
  have hl : (n.arr kd).length = S.navDepth * S.numSats := by cases kd; exact h.lc; exact h.lt
  have hs : ∀ k, k < S.navDepth → slotOf S.numSats (n.arr kd) (pos S.navDepth n.writePointer k)
    = (L[k]?.map (fun s => s.items kd)).getD (List.replicate S.numSats kd.newItem) := by
    intro k hk
    cases kd
    · exact h.ced k hk
    · exact h.timing k hk
  rw [mem_iff_slotOf hl]
  constructor
  · rintro ⟨i, hi, hx⟩
    obtain ⟨k, hk, rfl⟩ := pos_surj h.wp hi
    rw [hs k hk] at hx
    cases hL : L[k]? with
    | none =>
      rw [hL] at hx
      simp only [Option.map_none, Option.getD_none, List.mem_replicate] at hx
      have := List.getElem?_eq_none_iff.1 hL
      exact .inr ⟨hx.2, by omega, by omega⟩
    | some s =>
      rw [hL] at hx
      exact .inl ⟨s, List.mem_of_getElem? hL, hx⟩
  · rintro (⟨s, hsm, hx⟩ | ⟨rfl, hlt, hpos⟩)
    · obtain ⟨k, hk, rfl⟩ := List.mem_iff_getElem.1 hsm
      have hk' : k < S.navDepth := by have := h.llen; omega
      refine ⟨_, pos_lt h.wp hk', ?_⟩
      rw [hs k hk', List.getElem?_eq_getElem hk]
      exact hx
    · refine ⟨_, pos_lt h.wp hlt, ?_⟩
      rw [hs _ hlt, List.getElem?_eq_none (by omega)]
      simp [List.mem_replicate]; omega

/-! ## Gains -/

/-- Adds authentication bits to the entries of a slot. -/
def NavSlot.gain (s : NavSlot) (a b : NavItem → Nat) : NavSlot := ⟨s.gst, addGains a s.ced, addGains b s.timing⟩

theorem NavSlot.gain_core (s : NavSlot) (a b : NavItem → Nat) : (s.gain a b).core = s.core := by
  simp only [NavSlot.gain, NavSlot.core, addGains, List.map_map]
  rfl

theorem usesGain_unassigned (n : CollectNavMessage) (arr : List NavItem) (nbits : Nat) (us : List TagUse) {x : NavItem}
    (hx : x.svn = none) : usesGain S C n arr nbits us x = 0 := by
  unfold usesGain
  have : ∀ u ∈ us, tagGain C u.key u.prna u.gst u.st nbits (n.entryBefore S arr u.gst) u.tag x = 0 := by
    intro u _
    apply tagGain_eq_zero
    rintro ⟨_, _, svn, y, _, _, _, h, _⟩
    rw [hx] at h; cases h
  rw [List.map_congr_left this, List.map_const']
  simp

theorem Rep.useGains {n : CollectNavMessage} {L : List NavSlot} (h : Rep S n L) (us vs : List TagUse) :
    Rep S (n.useGains S C us vs)
      (L.map (fun s => s.gain (usesGain S C n n.ced 549 us) (usesGain S C n n.timing 141 vs))) := by
  refine map_rep h _ _ ?_ ?_
  · rw [usesGain_unassigned _ _ _ _ (x := NavItem.newCed) rfl]
    exact NavItem.addAuthbits_zero (by decide)
  · rw [usesGain_unassigned _ _ _ _ (x := NavItem.newTiming) rfl]
    exact NavItem.addAuthbits_zero (by decide)

/-! ## Steps without authentication bits -/

theorem updSel_core (svn : Svn) (u : Option Upd) (s : List NavItem) :
    (updSel svn (NavItem.feedUpd u svn) s).map NavItem.core = updSel svn (NavItem.feedUpd u svn) (s.map NavItem.core) := by
  unfold updSel
  rw [List.map_map, show NavItem.placeKey svn ∘ NavItem.core = NavItem.placeKey svn from rfl]
  split
  · rename_i i m _
    apply List.ext_getElem (by simp)
    intro j h1 h2
    simp only [List.getElem_map, List.getElem_modify]
    split
    · exact NavItem.core_feedUpd u svn _
    · rfl
  · rfl

theorem NavSlot.base_core (n : Nat) (g : Gst) (h : Option NavSlot) : (base n g h).core = base n g (h.map NavSlot.core) := by
  cases h with
  | none =>
    simp only [base, NavSlot.core, Option.map_none, List.map_replicate]
    rfl
  | some s =>
    simp only [base, Option.map_some, NavSlot.core]
    by_cases hg : s.gst = g
    · rw [if_pos hg, if_pos hg]
    · rw [if_neg hg, if_neg hg]
      simp only [List.map_map]
      rfl

theorem NavSlot.step_core (n : Nat) (h : Option NavSlot) (c : InavCall) : (step n h c).core = step n (h.map NavSlot.core) c := by
  unfold step
  dsimp only
  rw [← base_core]
  simp only [NavSlot.core, updSel_core]

theorem navStep_core (L : List NavSlot) (c : InavCall) : (navStep S L c).map NavSlot.core = navStep S (L.map NavSlot.core) c := by
  unfold navStep
  simp only [List.map_cons, NavSlot.step_core, List.head?_map]
  congr 1
  unfold navTail
  cases L with
  | nil => rfl
  | cons s t =>
    simp only [List.map_cons]
    by_cases hg : s.gst = c.gst.subframe
    · rw [if_pos hg, if_pos (show s.core.gst = _ from hg)]
    · rw [if_neg hg, if_neg (show s.core.gst ≠ _ from hg), ← List.map_cons, List.map_take]

/-! ## Effect of the calls -/

theorem navFeed_inv (hS : S.Consistent) {n n' : CollectNavMessage} {L : List NavSlot} (hr : Rep S n L) (hi : Inv S n) {c : InavCall}
    (h : n.feed S c.word c.svn c.gst c.band = .ok n') : Rep S n' (navStep S L c) ∧ Inv S n' := by
  obtain ⟨n1, h1, h2⟩ := feed_rep hS hr c
  rw [h] at h1; cases h1
  have hL : ∀ kd, ∀ s ∈ L, ∀ x ∈ s.items kd, x.authbits ≤ 65535 := by
    intro kd s hs x hx
    have hm : x ∈ n.arr kd := (Rep.mem hr).2 (.inl ⟨s, hs, hx⟩)
    cases kd
    · exact hi.okc x hm
    · exact hi.okt x hm
  have hL' : ∀ kd, ∀ s ∈ navStep S L c, ∀ x ∈ s.items kd, x.authbits ≤ 65535 := by
    intro kd s hs
    have hb : ∀ x ∈ (NavSlot.base S.numSats c.gst.subframe L.head?).items kd, x.authbits ≤ 65535 := by
      intro x hx
      rcases NavSlot.base_items S.numSats c.gst.subframe L.head? kd with ⟨_, he⟩ | ⟨s, hh, ⟨_, he⟩ | ⟨_, he⟩⟩
      · rw [he] at hx; rw [List.eq_of_mem_replicate hx, NavKind.newItem_authbits]; omega
      · rw [he] at hx; exact hL kd s (List.mem_of_head? hh) x hx
      · rw [he] at hx
        obtain ⟨y, hy, rfl⟩ := List.mem_map.1 hx
        exact hL kd s (List.mem_of_head? hh) y hy
    unfold navStep at hs
    rcases List.mem_cons.1 hs with rfl | hs
    · intro x hx
      rw [NavSlot.step_items] at hx
      unfold updSel at hx
      split at hx
      · obtain ⟨j, hj, he⟩ := List.mem_iff_getElem.1 hx
        have hj' := hj
        rw [List.length_modify] at hj'
        rw [List.getElem_modify] at he
        have hm := hb _ (List.getElem_mem hj')
        split at he
        · rw [← he]
          rcases NavItem.feedUpd_auth (kd.upd c) c.svn (((NavSlot.base S.numSats c.gst.subframe L.head?).items kd)[j]) with h | ⟨h, _⟩
          · omega
          · omega
        · rw [← he]; exact hm
      · exact hb x hx
    · have hm : s ∈ L := by
        unfold navTail at hs
        split at hs
        · simp at hs
        · split at hs
          · exact List.mem_cons_of_mem _ hs
          · exact List.mem_of_mem_take hs
      exact hL kd s hm
  refine ⟨h2, h2.lens, ?_, ?_⟩
  · intro x hx
    rcases (Rep.mem h2 (kd := .ced)).1 hx with ⟨s, hs, hx⟩ | ⟨rfl, _⟩
    · exact hL' .ced s hs x hx
    · rw [NavKind.newItem_authbits]; omega
  · intro x hx
    rcases (Rep.mem h2 (kd := .timing)).1 hx with ⟨s, hs, hx⟩ | ⟨rfl, _⟩
    · exact hL' .timing s hs x hx
    · rw [NavKind.newItem_authbits]; omega

theorem feedInav_of_ok {o o' : Osnma C} {c : InavCall} (h : o.feedInav S c.word c.svn c.gst c.band = .ok o') :
    ∃ n', o.data.data.navmessage.feed S c.word c.svn c.gst c.band = .ok n' ∧
      o' = { o with data := { o.data with data := { o.data.data with navmessage := n' } } } := by
  unfold Osnma.feedInav at h
  obtain ⟨n', h1, h2⟩ := Res.bind_eq_ok.1 h
  simp only [Res.pure_eq, Res.ok.injEq] at h2
  exact ⟨n', h1, h2.symm⟩

/-- What a call of `feed_osnma` that makes a new TESLA key known does. -/
structure KeyArrives (S : Storage) (o o' : Osnma C) (data : OsnmaDataMessage) (svn : Svn) (gst : Gst)
    extends Osnma.Completes S o o' data svn gst where
  cur : Key
  ks : KeyStore
  gstMack : Gst
  gstSlow : Gst
  slowKey : Option Key
  hcur : d1.key.currentKey = some cur
  hal : g.Aligned
  hlt : cur.gst.abs < g.abs
  hval : cur.validateKey C (mackKey msg cur.chain g) = .ok (.ok (mackKey msg cur.chain g))
  hks : d1.key.storeKey (mackKey msg cur.chain g) = .ok ks
  hgm : g.addSeconds (-30) = .ok gstMack
  hgs : gstMack.addSeconds (-300) = .ok gstSlow
  hsk : ({ d1 with key := ks } : OsnmaData C).slowmacKey (mackKey msg cur.chain g) = .ok slowKey
  hnew : o'.data.data = { d1 with
    key := ks
    navmessage := o.data.data.navmessage.useGains S C
      (({ d1 with key := ks } : OsnmaData C).cedUses S (mackKey msg cur.chain g) slowKey gstMack gstSlow)
      (({ d1 with key := ks } : OsnmaData C).timingUses S (mackKey msg cur.chain g) gstMack) }

/-- Effect of `feed_osnma`, completely: nothing stored changes (all-zero data), only the subframe
collector changes, the subframe does not bring a new TESLA key, or it does. -/
theorem feedOsnma_cases {o o' : Osnma C} {data : OsnmaDataMessage} {svn : Svn} {gst : Gst} (hi : Inv S o.data.data.navmessage)
    (h : o.feedOsnma S data svn gst = .ok o') :
    o'.data.data = o.data.data ∨
    (∃ c : Osnma.Completes S o o' data svn gst, o'.data.data = c.d1) ∨
    Nonempty (KeyArrives S o o' data svn gst) := by
  rcases Osnma.feedOsnma_of_ok h with ⟨_, rfl⟩ | ⟨_, ⟨sf, _, rfl⟩ | ⟨⟨c⟩⟩⟩
  · exact .inl rfl
  · exact .inl rfl
  · right
    have ho : o'.data.data = c.d2 := congrArg (fun z => z.data.data) c.ho
    rcases OsnmaData.validateKey_of_ok c.hd2 with h2 | ⟨cur, ks, h1, h2, h3, h4, h5, h6⟩
    · left; exact ⟨c, by rw [ho, h2]⟩
    · right
      obtain ⟨e1, _, _⟩ := c.d1_nav
      obtain ⟨gm, gs, sk, k1, k2, k3, k4⟩ := OsnmaData.processTags_of_ok (S := S) (by exact h2)
        (by show Inv S c.d1.navmessage; rw [e1]; exact hi) h6
      refine ⟨⟨c, cur, ks, gm, gs, sk, h1, h2, h3, h4, h5, k1, k2, k3, ?_⟩⟩
      rw [ho, k4]
      simp only [e1]

/-- Effect of `feed_osnma` on the navigation data: authentication bits are added by the tags checked. -/
theorem feedOsnma_nav {o o' : Osnma C} {data : OsnmaDataMessage} {svn : Svn} {gst : Gst} (hi : Inv S o.data.data.navmessage)
    (h : o.feedOsnma S data svn gst = .ok o') :
    ∃ us vs, o'.data.data.navmessage = o.data.data.navmessage.useGains S C us vs := by
  rcases feedOsnma_cases hi h with h | ⟨c, h⟩ | ⟨⟨k⟩⟩
  · exact ⟨[], [], by rw [h, useGains_nil hi]⟩
  · exact ⟨[], [], by rw [h, useGains_nil hi, c.d1_nav.1]⟩
  · exact ⟨_, _, by rw [k.hnew]⟩

/-- Invariant of the navigation data store along runs. -/
structure NavInv (S : Storage) (hist : List Call) (o : Osnma C) (L : List NavSlot) : Prop where
  rep : Rep S o.data.data.navmessage L
  inv : Inv S o.data.data.navmessage
  core : L.map NavSlot.core = navRun S (inavsOf hist)

theorem inavsOf_inav (hist : List Call) (c : InavCall) :
    inavsOf (hist ++ [.inav c.word c.svn c.gst c.band]) = inavsOf hist ++ [c] := by
  simp [inavsOf, List.filterMap_append]

theorem inavsOf_osnma (hist : List Call) (d : OsnmaDataMessage) (s : Svn) (g : Gst) :
    inavsOf (hist ++ [.osnma d s g]) = inavsOf hist := by
  simp [inavsOf, List.filterMap_append]

theorem Osnma.Fresh.nav {o : Osnma C} (h : o.Fresh S) : o.data.data.navmessage = .new S := by
  rcases h with ⟨_, _, _, rfl⟩ | ⟨_, _, rfl⟩ <;> rfl

theorem NavInv.fresh (hS : S.Consistent) {o : Osnma C} (h : o.Fresh S) : NavInv S [] o [] := by
  have hr := rep_new hS
  refine ⟨by rw [h.nav]; exact hr, ?_, rfl⟩
  rw [h.nav]
  refine ⟨hr.lens, ?_, ?_⟩
  · intro x hx
    rcases (Rep.mem hr (kd := .ced)).1 hx with ⟨s, hs, _⟩ | ⟨rfl, _⟩
    · simp at hs
    · rw [NavKind.newItem_authbits]; omega
  · intro x hx
    rcases (Rep.mem hr (kd := .timing)).1 hx with ⟨s, hs, _⟩ | ⟨rfl, _⟩
    · simp at hs
    · rw [NavKind.newItem_authbits]; omega

theorem NavInv.inav (hS : S.Consistent) {hist : List Call} {o o' : Osnma C} {L : List NavSlot} (h : NavInv S hist o L) {c : InavCall}
    (hc : o.feedInav S c.word c.svn c.gst c.band = .ok o') :
    NavInv S (hist ++ [.inav c.word c.svn c.gst c.band]) o' (navStep S L c) := by
  obtain ⟨n', h1, rfl⟩ := feedInav_of_ok hc
  obtain ⟨h2, h3⟩ := navFeed_inv hS h.rep h.inv h1
  refine ⟨h2, h3, ?_⟩
  rw [inavsOf_inav, navRun_snoc, navStep_core, h.core]

theorem NavInv.osnma {hist : List Call} {o o' : Osnma C} {L : List NavSlot} (h : NavInv S hist o L) {d : OsnmaDataMessage} {s : Svn}
    {g : Gst} {us vs : List TagUse} (hn : o'.data.data.navmessage = o.data.data.navmessage.useGains S C us vs) :
    NavInv S (hist ++ [.osnma d s g]) o' (L.map (fun s =>
      s.gain (usesGain S C o.data.data.navmessage o.data.data.navmessage.ced 549 us)
        (usesGain S C o.data.data.navmessage o.data.data.navmessage.timing 141 vs))) := by
  refine ⟨by rw [hn]; exact Rep.useGains h.rep us vs, by rw [hn]; exact useGains_inv h.inv us vs, ?_⟩
  rw [inavsOf_osnma, ← h.core, List.map_map]
  apply List.map_congr_left
  intro s _
  exact NavSlot.gain_core s _ _

/-- The invariant holds after every run from a fresh state. -/
theorem navInv_run (hS : S.Consistent) {o0 o : Osnma C} (h0 : o0.Fresh S) {hist : List Call} (h : run S o0 hist = .ok o) :
    NavInv S hist o (o.stored S) := by
  suffices ∃ L, NavInv S hist o L by
    obtain ⟨L, hL⟩ := this
    have : o.stored S = L := Rep.stored hL.rep
    rw [this]; exact hL
  refine run_induction (P := fun hist o => ∃ L, NavInv S hist o L) ⟨[], NavInv.fresh hS h0⟩ ?_ h
  intro hist o c o' _ ⟨L, hL⟩ hc
  cases c with
  | inav w s g b => exact ⟨_, hL.inav hS (c := ⟨w, s, g, b⟩) hc⟩
  | osnma d s g =>
    obtain ⟨us, vs, hn⟩ := feedOsnma_nav hL.inv hc
    exact ⟨_, hL.osnma hn⟩

end Verif
