import Verif.Lemmas.PanicIff
import Verif.Props.KeyMachine
import Verif.Props.Release

/-! # Whether a receiver panics does not depend on what is stored -/

namespace Verif
variable {C : Crypto} {S S' : Storage}

namespace OsnmaData

/-- The part of the state that decides about keys. -/
def SameKeys (d d' : OsnmaData C) : Prop := d.merkleTree = d'.merkleTree ∧ d.pubkey = d'.pubkey ∧ d.key = d'.key

theorem SameKeys.eq {d d' : OsnmaData C} (h : SameKeys d d') :
    d' = { d with navmessage := d'.navmessage, mack := d'.mack, onlySlowmac := d'.onlySlowmac } := by
  obtain ⟨h1, h2, h3⟩ := h
  cases d; cases d'; simp_all

theorem SameKeys.dsmEvents {d d' : OsnmaData C} (h : SameKeys d d') (x : Dsm) (hd : NmaHeader) (g : Gst) :
    d.dsmEvents x hd g = d'.dsmEvents x hd g := by
  rw [h.eq]; rfl

theorem SameKeys.teslaEvents {d d' : OsnmaData C} (h : SameKeys d d') (m : MackMessage) (g : Gst) :
    d.teslaEvents m g = d'.teslaEvents m g := by
  rw [h.eq]; rfl

/-- Two results are both panics or both states with the same keys. -/
def SameRes (r r' : Res (OsnmaData C)) : Prop :=
  (∃ e e', r = .panic e ∧ r' = .panic e') ∨ ∃ d d', r = .ok d ∧ r' = .ok d' ∧ SameKeys d d'

theorem SameRes.ok {d d' : OsnmaData C} (h : SameKeys d d') : SameRes (.ok d) (.ok d') := .inr ⟨d, d', rfl, rfl, h⟩

theorem SameRes.bind {α : Type} (r : Res α) {f f' : α → Res (OsnmaData C)} (h : ∀ a, SameRes (f a) (f' a)) :
    SameRes (r >>= f) (r >>= f') := by
  cases r with
  | ok a => exact h a
  | panic e => exact .inl ⟨e, e, rfl, rfl⟩

theorem SameKeys.processNmaHeader {d d' : OsnmaData C} (h : SameKeys d d') (hd : NmaHeader) (pkid : Nat) :
    SameKeys (d.processNmaHeader hd pkid) (d'.processNmaHeader hd pkid) := by
  rw [h.eq]
  unfold OsnmaData.processNmaHeader alertMessageReceived
  cases hd.nmaStatus <;> cases hd.cpks <;> exact ⟨rfl, rfl, rfl⟩

theorem SameKeys.processDsm {d d' : OsnmaData C} (h : SameKeys d d') (x : Dsm) (hd : NmaHeader) (g : Gst) :
    SameRes (d.processDsm x hd g) (d'.processDsm x hd g) := by
  obtain ⟨e1, e2, e3⟩ := h
  unfold OsnmaData.processDsm
  split
  · unfold OsnmaData.processDsmKroot
    rw [← e2, ← e3]
    refine .bind _ fun pkid => .bind _ fun r => ?_
    cases r with
    | none => exact .ok ⟨e1, e2, e3⟩
    | some pk =>
      refine .bind _ fun r => ?_
      cases r with
      | error e => exact .ok ⟨e1, e2, e3⟩
      | ok kh =>
        obtain ⟨k, h'⟩ := kh
        refine .bind _ fun pk => ?_
        exact .ok (SameKeys.processNmaHeader (d := { d with pubkey := pk, key := d.key.storeKroot k h' g })
          (d' := { d' with pubkey := pk, key := d.key.storeKroot k h' g }) ⟨e1, rfl, rfl⟩ _ _)
  · unfold OsnmaData.processDsmPkr
    refine .bind _ fun ty => ?_
    cases ty with
    | EcdsaKey f =>
      dsimp only
      unfold processDsmPkrNpk
      rw [← e1, ← e2]
      cases d.merkleTree with
      | none => exact .ok ⟨e1, e2, e3⟩
      | some root =>
        refine .bind _ fun r => ?_
        cases r with
        | ok k => exact .bind _ fun pk => .ok ⟨rfl, rfl, e3⟩
        | error e => exact .ok ⟨e1, e2, e3⟩
    | OsnmaAlertMessage =>
      dsimp only
      unfold processDsmPkrAlert
      rw [← e1]
      cases d.merkleTree with
      | none => exact .ok ⟨e1, e2, e3⟩
      | some root =>
        refine .bind _ fun r => ?_
        cases r with
        | ok k => exact .ok ⟨rfl, rfl, rfl⟩
        | error e => exact .ok ⟨e1, e2, e3⟩
    | Reserved => exact .ok ⟨e1, e2, e3⟩

theorem SameKeys.validateKey {d d' d1 d1' : OsnmaData C} (h : SameKeys d d') {m : MackMessage} {g : Gst}
    (hd : d.validateKey S m g = .ok d1) (hd' : d'.validateKey S' m g = .ok d1') : SameKeys d1 d1' := by
  obtain ⟨e1, e2, e3⟩ := h
  unfold OsnmaData.validateKey at hd hd'
  rw [← e3] at hd'
  cases hc : d.key.currentKey with
  | none =>
    rw [hc] at hd hd'
    cases hd; cases hd'
    exact ⟨e1, e2, e3⟩
  | some cur =>
    rw [hc] at hd hd'
    dsimp only at hd hd'
    obtain ⟨kb, h1, hd⟩ := Res.bind_eq_ok.1 hd
    obtain ⟨kb', h1', hd'⟩ := Res.bind_eq_ok.1 hd'
    rw [h1] at h1'; cases h1'
    obtain ⟨nk, h2, hd⟩ := Res.bind_eq_ok.1 hd
    obtain ⟨nk', h2', hd'⟩ := Res.bind_eq_ok.1 hd'
    rw [h2] at h2'; cases h2'
    cases hcmp : Gst.cmp cur.gst nk.gst with
    | eq => rw [hcmp] at hd hd'; cases hd; cases hd'; exact ⟨e1, e2, e3⟩
    | gt => rw [hcmp] at hd hd'; cases hd; cases hd'; exact ⟨e1, e2, e3⟩
    | lt =>
      rw [hcmp] at hd hd'
      dsimp only at hd hd'
      obtain ⟨v, h3, hd⟩ := Res.bind_eq_ok.1 hd
      obtain ⟨v', h3', hd'⟩ := Res.bind_eq_ok.1 hd'
      rw [h3] at h3'; cases h3'
      cases v with
      | error e => cases hd; cases hd'; exact ⟨e1, e2, e3⟩
      | ok k =>
        dsimp only at hd hd'
        obtain ⟨ks, h4, hd⟩ := Res.bind_eq_ok.1 hd
        obtain ⟨ks', h4', hd'⟩ := Res.bind_eq_ok.1 hd'
        rw [h4] at h4'; cases h4'
        obtain ⟨a1, a2, a3, _⟩ := processTags_keys hd
        obtain ⟨b1, b2, b3, _⟩ := processTags_keys hd'
        exact ⟨a3.trans (e1.trans b3.symm), a2.trans (e2.trans b2.symm), a1.trans b1.symm⟩

end OsnmaData

namespace Osnma

/-- The part of the state of a receiver that does not depend on navigation data and stored tags. -/
structure SameKeys (o o' : Osnma C) : Prop where
  subframe : o.subframe = o'.subframe
  dsm : o.data.dsm = o'.data.dsm
  keys : o.data.data.SameKeys o'.data.data

theorem SameKeys.completesDsm {o o' : Osnma C} (h : SameKeys o o') (data : OsnmaDataMessage) (svn : Svn) (gst : Gst) (hd : NmaHeader) (x : Dsm) :
    CompletesDsm o data svn gst hd x ↔ CompletesDsm o' data svn gst hd x := by
  unfold CompletesDsm
  rw [h.subframe, h.dsm]

/-- A receiver in a reachable state does what the events say. -/
theorem events_of_done {o : Osnma C} {svn : Svn} {gst : Gst} {hk : HkrootMessage} {m : MackMessage}
    {b0 b1 : Byte} {block : DsmBlock} {ms : MackStorage} {dsm : CollectDsm} {out : Option Dsm}
    (c : SubframeDone S o svn gst hk m b0 b1 block ms dsm out) :
    o.data.events S hk m svn gst.subframe =
      (match (generalizing := false) out with
        | none => ({ o.data.data with mack := ms } : OsnmaData C).teslaEvents m gst.subframe
        | some x => ({ o.data.data with mack := ms } : OsnmaData C).dsmEvents x ⟨b0⟩ gst.subframe ++
            (match ({ o.data.data with mack := ms } : OsnmaData C).processDsm x ⟨b0⟩ gst.subframe with
              | .ok d => d.teslaEvents m gst.subframe
              | .panic _ => [])) := by
  unfold OsnmaDsm.events
  have hb0 : index hk.val 0 = .ok b0 := by rw [c.hk_eq]; rfl
  have hb1 : index hk.val 1 = .ok b1 := by rw [c.hk_eq]; rfl
  have hb : CollectSubframe.toBytes 13 (hk.val.drop 2) = .ok block := by
    unfold CollectSubframe.toBytes
    have : hk.val.drop 2 = block.val := by rw [c.hk_eq]; rfl
    rw [dif_pos (by rw [this]; exact block.property)]
    exact congrArg Res.ok (Subtype.ext this)
  rw [hb0]
  simp only [Res.ok_bind]
  rw [c.store]
  simp only [Res.ok_bind]
  rw [hb1]
  simp only [Res.ok_bind]
  rw [hb]
  simp only [Res.ok_bind]
  rw [c.feed]
  cases out <;> rfl

variable {root0 : Option MerkleTreeNode} {pk0 : Option (PublicKey C)} {slow slow' : Bool}
  {hist hist' : List Call} {log log' : List (KeyEvent C)} {o o' : Osnma C}

theorem SameKeys.events (hS : S.Consistent) (hS' : S'.Consistent) {o0 o0' : Osnma C} (h0 : o0.Fresh S) (h0' : o0'.Fresh S')
    (hr : run S o0 hist = .ok o) (hr' : run S' o0' hist' = .ok o') (h : SameKeys o o') (c : Call) :
    o.events S c = o'.events S' c := by
  cases c with
  | inav w s g b => rfl
  | osnma data svn gst =>
    unfold Osnma.events
    dsimp only
    by_cases hz : data.val.all (fun x => x == 0#8) = true
    · rw [if_pos hz, if_pos hz]
    · rw [if_neg hz, if_neg hz, h.subframe]
      cases hf : o'.subframe.feed data svn gst with
      | panic e => rfl
      | ok r =>
        obtain ⟨sf, out⟩ := r
        cases out with
        | none => rfl
        | some z =>
          obtain ⟨hk, m, g⟩ := z
          dsimp only
          have hg : g = gst.subframe := CollectSubframe.feed_time hf
          subst hg
          obtain ⟨b0, b1, block, ms, dsm, out, c⟩ := subframeDone hS h0 hr hk m svn gst
          obtain ⟨b0', b1', block', ms', dsm', out', c'⟩ := subframeDone hS' h0' hr' hk m svn gst
          have e := c.hk_eq.symm.trans c'.hk_eq
          simp only [List.cons.injEq] at e
          obtain ⟨rfl, rfl, e⟩ := e
          obtain rfl : block = block' := Subtype.ext e
          have ef := c.feed
          rw [h.dsm, c'.feed] at ef
          cases ef
          rw [events_of_done c, events_of_done c']
          have hk1 : OsnmaData.SameKeys ({ o.data.data with mack := ms } : OsnmaData C) { o'.data.data with mack := ms' } := h.keys
          cases out with
          | none => exact hk1.teslaEvents _ _
          | some x =>
            dsimp only
            rw [hk1.dsmEvents]
            congr 1
            rcases hk1.processDsm x ⟨b0⟩ gst.subframe with ⟨e, e', h1, h2⟩ | ⟨d, d', h1, h2, h3⟩
            · rw [h1, h2]
            · rw [h1, h2]; exact h3.teslaEvents _ _

theorem SameKeys.feedOsnma {o1 o1' : Osnma C} (h : SameKeys o o') {data : OsnmaDataMessage} {svn : Svn} {gst : Gst}
    (hr : o.feedOsnma S data svn gst = .ok o1) (hr' : o'.feedOsnma S' data svn gst = .ok o1') : SameKeys o1 o1' := by
  rcases feedOsnma_of_ok hr with ⟨hz, rfl⟩ | ⟨hz, hc⟩ <;> rcases feedOsnma_of_ok hr' with ⟨hz', rfl⟩ | ⟨hz', hc'⟩
  · exact h
  · rw [hz] at hz'; cases hz'
  · rw [hz] at hz'; cases hz'
  · rcases hc with ⟨sf, h1, rfl⟩ | ⟨⟨c⟩⟩ <;> rcases hc' with ⟨sf', h1', rfl⟩ | ⟨⟨c'⟩⟩
    · rw [h.subframe, h1'] at h1; cases h1
      exact ⟨rfl, h.dsm, h.keys⟩
    · rw [h.subframe, c'.hfeed] at h1; cases h1
    · have := c.hfeed; rw [h.subframe, h1'] at this; cases this
    · obtain ⟨hk, msg, g, sf, b0, b1, ms, dsm, block, out, d1, d2, hz, a1, a2, a3, a4, a5, a6, a7, a8, rfl⟩ := c
      obtain ⟨hk', msg', g', sf', b0', b1', ms', dsm', block', out', d1', d2', hz', k1, k2, k3, k4, k5, k6, k7, k8, rfl⟩ := c'
      rw [h.subframe, k1] at a1; cases a1
      rw [a2] at k2; cases k2
      rw [a3] at k3; cases k3
      obtain rfl : block = block' := Subtype.ext (a5.trans k5.symm)
      rw [h.dsm, k6] at a6; cases a6
      have hk1 : OsnmaData.SameKeys ({ o.data.data with mack := ms } : OsnmaData C) { o'.data.data with mack := ms' } := h.keys
      have hk2 : OsnmaData.SameKeys d1 d1' := by
        cases out with
        | none => cases a7; cases k7; exact hk1
        | some x =>
          dsimp only at a7 k7
          rcases hk1.processDsm x ⟨b0⟩ g with ⟨e, e', h1, h2⟩ | ⟨d, d', h1, h2, h3⟩
          · rw [h1] at a7; cases a7
          · rw [h1] at a7; rw [h2] at k7; cases a7; cases k7; exact h3
      exact ⟨rfl, rfl, hk2.validateKey a8 k8⟩

theorem SameKeys.feedInav {o1 : Osnma C} {w : InavWord} {svn : Svn} {gst : Gst} {band : InavBand} (hr : o.feedInav S w svn gst band = .ok o1) :
    SameKeys o o1 := by
  obtain ⟨n, _, rfl⟩ := feedInav_of_ok (c := ⟨w, svn, gst, band⟩) hr
  exact ⟨rfl, rfl, rfl, rfl, rfl⟩

theorem SameKeys.symm (h : SameKeys o o') : SameKeys o' o :=
  ⟨h.subframe.symm, h.dsm.symm, h.keys.1.symm, h.keys.2.1.symm, h.keys.2.2.symm⟩

theorem SameKeys.trans {o1 : Osnma C} (h : SameKeys o o') (h' : SameKeys o' o1) : SameKeys o o1 :=
  ⟨h.subframe.trans h'.subframe, h.dsm.trans h'.dsm, h.keys.1.trans h'.keys.1, h.keys.2.1.trans h'.keys.2.1, h.keys.2.2.trans h'.keys.2.2⟩

/-- One page, in two receivers with the same keys. -/
theorem SameKeys.step (hS : S.Consistent) (hS' : S'.Consistent) (h0 : (Osnma.new S root0 pk0 slow : Osnma C).Fresh S)
    (h0' : (Osnma.new S' root0 pk0 slow' : Osnma C).Fresh S') (hl : Logs S (Osnma.new S root0 pk0 slow) hist log o)
    (hl' : Logs S' (Osnma.new S' root0 pk0 slow') hist' log o') (h : SameKeys o o') {o1 : Osnma C} {data : OsnmaDataMessage} {svn : Svn}
    {gst : Gst} (hc : o.feedOsnma S data svn gst = .ok o1) (hg : 360 ≤ gst.subframe.abs)
    (hs : SensibleLog (log ++ o.events S (.osnma data svn gst))) :
    ∃ o1', Logs S' (Osnma.new S' root0 pk0 slow') (hist' ++ [.osnma data svn gst]) (log ++ o.events S (.osnma data svn gst)) o1' ∧ SameKeys o1 o1' := by
  have he := h.events hS hS' h0 h0' hl.run hl'.run (.osnma data svn gst)
  have hr := (feedOsnma_returns_iff hS h0 hl data svn gst hg hs).1 ⟨o1, hc⟩
  obtain ⟨o1', hc'⟩ := (feedOsnma_returns_iff hS' h0' hl' data svn gst hg (he ▸ hs)).2 (by
    intro hd x hx
    have := hr hd x ((h.completesDsm data svn gst hd x).2 hx)
    rw [h.keys.1, h.keys.2.1] at this
    exact this)
  refine ⟨o1', ?_, h.feedOsnma hc hc'⟩
  rw [he]
  exact .snoc _ hl' hc'

theorem pages_word (hist : List Call) (w : InavWord) (v : Svn) (g : Gst) (b : InavBand) : pagesOf (hist ++ [.inav w v g b]) = pagesOf hist := by
  unfold pagesOf
  rw [List.filterMap_append]
  exact List.append_nil _

theorem pages_zero (hist : List Call) {data : OsnmaDataMessage} (v : Svn) (g : Gst) (hz : data.val.all (fun x => x == 0#8) = true) :
    pagesOf (hist ++ [.osnma data v g]) = pagesOf hist := by
  unfold pagesOf
  rw [List.filterMap_append, List.filterMap_cons]
  dsimp only
  rw [if_pos hz]
  exact List.append_nil _

theorem pages_page (hist : List Call) {data : OsnmaDataMessage} (v : Svn) (g : Gst) (hz : ¬ data.val.all (fun x => x == 0#8) = true) :
    pagesOf (hist ++ [.osnma data v g]) = pagesOf hist ++ [⟨data, v, g⟩] := by
  unfold pagesOf
  rw [List.filterMap_append, List.filterMap_cons]
  dsimp only
  rw [if_neg hz]
  rfl

/-- The calls that deliver the pages. -/
def pageCalls (ps : List Page) : List Call := ps.map fun p => .osnma p.data p.svn p.gst

/-- The log of a history is that of its pages alone. -/
theorem pages_alone (hS : S.Consistent) (hS' : S'.Consistent) (h0 : (Osnma.new S root0 pk0 slow : Osnma C).Fresh S)
    (h0' : (Osnma.new S' root0 pk0 slow' : Osnma C).Fresh S') (hl : Logs S (Osnma.new S root0 pk0 slow) hist log o) (hs : SensibleLog log)
    (hg : ∀ p ∈ pagesOf hist, 360 ≤ p.sub.abs) :
    ∃ o', Logs S' (Osnma.new S' root0 pk0 slow') (pageCalls (pagesOf hist)) log o' ∧ SameKeys o o' := by
  induction hl with
  | nil => exact ⟨_, .nil, rfl, rfl, rfl, rfl, rfl⟩
  | @snoc hist log o o1 c hl hc ih =>
    obtain ⟨o', k1, k2⟩ := ih (hs.mono fun e he => List.mem_append_left _ he) (fun p hp => hg p (by
      unfold pagesOf at hp ⊢; rw [List.filterMap_append]; exact List.mem_append_left _ hp))
    cases c with
    | inav w v g b =>
      refine ⟨o', ?_, (SameKeys.feedInav hc).symm.trans k2⟩
      have e : pagesOf (hist ++ [.inav w v g b]) = pagesOf hist := pages_word _ _ _ _ _
      rw [e]
      simpa [Osnma.events] using k1
    | osnma data v g =>
      by_cases hz : data.val.all (fun x => x == 0#8) = true
      · have e : pagesOf (hist ++ [.osnma data v g]) = pagesOf hist := pages_zero _ _ _ hz
        have e1 : o1 = o := by
          rcases feedOsnma_of_ok hc with ⟨_, rfl⟩ | ⟨hz', _⟩
          · rfl
          · rw [hz] at hz'; cases hz'
        subst e1
        refine ⟨o', ?_, k2⟩
        rw [e]
        have : o1.events S (.osnma data v g) = [] := by unfold Osnma.events; dsimp only; rw [if_pos hz]
        rw [this, List.append_nil]
        exact k1
      · have e : pagesOf (hist ++ [.osnma data v g]) = pagesOf hist ++ [⟨data, v, g⟩] := pages_page _ _ _ hz
        obtain ⟨o1', m1, m2⟩ := k2.step hS hS' h0 h0' hl k1 hc (hg ⟨data, v, g⟩ (by rw [e]; simp)) hs
        refine ⟨o1', ?_, m2⟩
        rw [e]
        simpa [pageCalls] using m1

/-- Words and zero pages can be added. -/
theorem pages_and_words (hS : S.Consistent) (hS' : S'.Consistent) (h0 : (Osnma.new S root0 pk0 slow : Osnma C).Fresh S)
    (h0' : (Osnma.new S' root0 pk0 slow' : Osnma C).Fresh S') (hl : Logs S (Osnma.new S root0 pk0 slow) (pageCalls (pagesOf hist)) log o)
    (hs : SensibleLog log) (hg : ∀ p ∈ pagesOf hist, 360 ≤ p.sub.abs) :
    ∃ o', Logs S' (Osnma.new S' root0 pk0 slow') hist log o' ∧ SameKeys o o' := by
  induction hist using CollectSubframe.snoc_induction generalizing log o with
  | h0 =>
    obtain ⟨-, rfl, rfl⟩ : True ∧ log = [] ∧ o = Osnma.new S root0 pk0 slow := by
      have h' : Logs S (Osnma.new S root0 pk0 slow) [] log o := hl
      generalize hh : ([] : List Call) = l at h'
      cases h' with
      | nil => exact ⟨trivial, rfl, rfl⟩
      | snoc => simp at hh
    exact ⟨_, .nil, rfl, rfl, rfl, rfl, rfl⟩
  | h1 hist c ih =>
    have hg' : ∀ p ∈ pagesOf hist, 360 ≤ p.sub.abs := fun p hp => hg p (by
      unfold pagesOf at hp ⊢; rw [List.filterMap_append]; exact List.mem_append_left _ hp)
    cases c with
    | inav w v g b =>
      have e : pagesOf (hist ++ [.inav w v g b]) = pagesOf hist := pages_word _ _ _ _ _
      rw [e] at hl
      obtain ⟨o', k1, k2⟩ := ih hl hs hg'
      obtain ⟨o1, hc⟩ := C38_feed_inav_returns hS' h0' k1.run w v g b
      refine ⟨o1, ?_, k2.trans (.feedInav hc)⟩
      have := Logs.snoc (.inav w v g b) k1 hc
      simpa [Osnma.events] using this
    | osnma data v g =>
      by_cases hz : data.val.all (fun x => x == 0#8) = true
      · have e : pagesOf (hist ++ [.osnma data v g]) = pagesOf hist := pages_zero _ _ _ hz
        rw [e] at hl
        obtain ⟨o', k1, k2⟩ := ih hl hs hg'
        have hc : o'.feedOsnma S' data v g = .ok o' := by unfold Osnma.feedOsnma; rw [if_pos hz]; rfl
        refine ⟨o', ?_, k2⟩
        have he : o'.events S' (.osnma data v g) = [] := by unfold Osnma.events; dsimp only; rw [if_pos hz]
        have := Logs.snoc (.osnma data v g) k1 hc
        rw [he, List.append_nil] at this
        exact this
      · have e : pagesOf (hist ++ [.osnma data v g]) = pagesOf hist ++ [⟨data, v, g⟩] := pages_page _ _ _ hz
        rw [e] at hl
        have e2 : pageCalls (pagesOf hist ++ [⟨data, v, g⟩]) = pageCalls (pagesOf hist) ++ [.osnma data v g] := by simp [pageCalls]
        rw [e2] at hl
        obtain ⟨log0, o0, m1, m2, rfl⟩ := hl.snoc_inv
        obtain ⟨o', k1, k2⟩ := ih m1 (hs.mono fun e he => List.mem_append_left _ he) hg'
        obtain ⟨o1', j1, j2⟩ := k2.step hS hS' h0 h0' m1 k1 m2 (hg ⟨data, v, g⟩ (by rw [e]; simp)) hs
        exact ⟨o1', j1, j2⟩

/-- Whether a receiver panics does not depend on words, storage sizes and the Slow MAC setting. -/
theorem same_panics (hS : S.Consistent) (hS' : S'.Consistent) (h0 : (Osnma.new S root0 pk0 slow : Osnma C).Fresh S)
    (h0' : (Osnma.new S' root0 pk0 slow' : Osnma C).Fresh S') (hl : Logs S (Osnma.new S root0 pk0 slow) hist log o)
    (hs : SensibleLog log) (hg : ∀ p ∈ pagesOf hist, 360 ≤ p.sub.abs) (hp : pagesOf hist = pagesOf hist') :
    ∃ o', Logs S' (Osnma.new S' root0 pk0 slow') hist' log o' ∧ SameKeys o o' := by
  obtain ⟨o1, h1, h2⟩ := pages_alone hS hS h0 h0 hl hs hg
  rw [hp] at h1 hg
  obtain ⟨o2, h3, h4⟩ := pages_and_words hS hS' h0 h0' h1 hs hg
  exact ⟨o2, h3, h2.trans h4⟩

end Osnma
end Verif
