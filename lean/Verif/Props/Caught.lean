import Verif.Lemmas.Caught

/-! # C89: after a caught panic the receiver can be used on -/

namespace Verif
open CollectNavMessage

variable {C : Crypto} {S : Storage} {root0 : Option MerkleTreeNode} {pk0 : Option (PublicKey C)} {slow : Bool}
  {hist : List Call} {log : List (KeyEvent C)} {o o' : Osnma C}

/-- A history without panics is one in which none is caught. -/
theorem C89_without_panics {o0 : Osnma C} (h : Logs S o0 hist log o) : Caught S o0 hist log o := by
  induction h with
  | nil => exact .nil
  | snoc c _ hc ih => exact .returns c ih hc

/-- **C89.**  For every history of calls in which the panics of `feed_osnma` on received DSMs are caught and the same receiver is used on, what the
getters return is authentic, in the same sense as in C31 and C32: tags received with the calls (those that panicked included), of total length
`authbits`, each verified over the returned bits under a key that derives to a correctly signed root key. -/
theorem C89_still_authentic (hS : S.Consistent) (h0 : (Osnma.new S root0 pk0 slow : Osnma C).Fresh S)
    (h : Caught S (Osnma.new S root0 pk0 slow) hist log o) (kd : NavKind) {svn : Svn} {d : NavMessageData}
    (hd : o.get S kd svn = .ok (some d)) : ∃ us, Authentic root0 pk0 slow hist log kd svn d.data d.authbits us := by
  have hK := h.kept hS h0
  obtain ⟨L, hL⟩ := hK.nav
  obtain ⟨g, x, hb, e1, e2, _⟩ := get_some hL hd
  obtain ⟨k, s, k1, _, k3, k4, k5, _⟩ := bestEntry_some hb
  have hm : x ∈ o.data.data.navmessage.arr kd := (Rep.mem hL.rep).2 (.inl ⟨s, List.mem_of_getElem? k1, k3⟩)
  obtain ⟨us, a1, a2, a3⟩ := hK.evidence kd x hm
  rw [e1, e2]
  refine ⟨us, by omega, a1, ?_, a3⟩
  intro u hu
  obtain ⟨v, hv, hp⟩ := a2 u hu
  rw [k4] at hv; cases hv
  exact hp

/-- The getters still never panic (with words from week 1 on, as in C38). -/
theorem C89_getters_return (hS : S.Consistent) (h0 : (Osnma.new S root0 pk0 slow : Osnma C).Fresh S)
    (h : Caught S (Osnma.new S root0 pk0 slow) hist log o) (hweek : ∀ c ∈ inavsOf hist, 7650 ≤ c.gst.abs) (kd : NavKind) (svn : Svn) :
    ∃ r, o.get S kd svn = .ok r := by
  obtain ⟨L, hinv⟩ := (h.kept hS h0).nav
  rw [get_eq hinv]
  cases hb : bestEntry L kd svn with
  | none => exact ⟨_, rfl⟩
  | some p =>
    obtain ⟨g, x⟩ := p
    obtain ⟨k, s, k1, k2, k3, _⟩ := bestEntry_some hb
    obtain ⟨q, r, h1, h2, _⟩ := hinv.prefix k1
    obtain ⟨q', c, rfl, hg⟩ := navHead_gst h2
    have hcw := hweek c (by rw [h1]; simp)
    have hga : g.abs = c.gst.subframe.abs := by
      rw [← k2]; exact congrArg Gst.abs hg
    rw [Gst.subframe_abs] at hga
    have hle := x.minAge_le_255
    have : ∃ t, g.addSubframes (-(x.minAge : Int)) = .ok t := by
      have hr := g.abs_representable
      obtain ⟨t, ht⟩ := exists_gst (t := g.abs - 30 * (x.minAge : Int)) (by unfold Representable at *; omega)
      exact ⟨t, Gst.addSubframes_eq_ok.2 (by omega)⟩
    obtain ⟨t, ht⟩ := this
    simp only [resultOf, ht]
    exact ⟨_, rfl⟩

/-- `feed_inav` still never panics. -/
theorem C89_feed_inav_returns (hS : S.Consistent) (h0 : (Osnma.new S root0 pk0 slow : Osnma C).Fresh S)
    (h : Caught S (Osnma.new S root0 pk0 slow) hist log o) (word : InavWord) (svn : Svn) (gst : Gst) (band : InavBand) :
    (o.feedInav S word svn gst band).Returns := by
  obtain ⟨L, hL⟩ := (h.kept hS h0).nav
  obtain ⟨n, hn, _⟩ := feed_rep hS hL.rep ⟨word, svn, gst, band⟩
  exact ⟨{ o with data := { o.data with data := { o.data.data with navmessage := n } } }, by
    unfold Osnma.feedInav; rw [hn]; rfl⟩

/-- Exactly when a call panics: as in C39. -/
theorem C89_panics_iff (hS : S.Consistent) (h0 : (Osnma.new S root0 pk0 slow : Osnma C).Fresh S)
    (h : Caught S (Osnma.new S root0 pk0 slow) hist log o) (data : OsnmaDataMessage) (svn : Svn) (gst : Gst)
    (hg : 360 ≤ gst.subframe.abs) (hs : SensibleLog (log ++ o.events S (.osnma data svn gst))) :
    (o.feedOsnma S data svn gst).Panics ↔
      ∃ h x, CompletesDsm o data svn gst h x ∧
        ¬ HarmlessDsm o.data.data.pubkey.current o.data.data.pubkey.next o.data.data.merkleTree h x := by
  have hK := h.kept hS h0
  have hiff := feedOsnma_returns_iff_of hS hK.pages hK.blocks hK.key hK.inv data svn gst hg hs
  constructor
  · rintro ⟨w, hw⟩
    apply Classical.byContradiction
    intro hc
    obtain ⟨o', ho'⟩ := hiff.2 (fun h x hx => Classical.byContradiction fun hn => hc ⟨h, x, hx, hn⟩)
    rw [hw] at ho'
    cases ho'
  · rintro ⟨h, x, hx, hn⟩
    cases hf : o.feedOsnma S data svn gst with
    | panic w => exact ⟨w, rfl⟩
    | ok o' => exact absurd (hiff.1 ⟨o', hf⟩ h x hx) hn

/-- Every panic is of the kind that `Caught` has: with sensible chains, from 6 minutes after the origin of GST on, a call that panics does so while
processing a DSM. -/
theorem C89_every_panic (hS : S.Consistent) (h0 : (Osnma.new S root0 pk0 slow : Osnma C).Fresh S)
    (h : Caught S (Osnma.new S root0 pk0 slow) hist log o) (data : OsnmaDataMessage) (svn : Svn) (gst : Gst)
    (hg : 360 ≤ gst.subframe.abs) (hs : SensibleLog (log ++ o.events S (.osnma data svn gst)))
    (hp : (o.feedOsnma S data svn gst).Panics) :
    ∃ o', o.left S (.osnma data svn gst) = some o' ∧ Caught S (Osnma.new S root0 pk0 slow) (hist ++ [.osnma data svn gst]) log o' := by
  have hK := h.kept hS h0
  obtain ⟨⟨b0⟩, x, ⟨⟨b, hb, hb0⟩, sf, hk, m, g, b1, block, dsm, hf, he, hd⟩, hh⟩ := (C89_panics_iff hS h0 h data svn gst hg hs).1 hp
  have hz : ¬ (data.val.all (fun x => x == 0#8) = true) := by
    intro hz
    rw [List.all_eq_true] at hz
    exact hb0 (by simpa using hz b hb)
  obtain ⟨outs, hpages, _⟩ := id hK.pages
  obtain ⟨hgs, _⟩ := C04_collected_subframe (pagesOf hist) ⟨data, svn, gst⟩ _ _ outs hk m g hpages hf
  change g = gst.subframe at hgs
  subst hgs
  obtain ⟨b0', b1', block', ms, dsm', out, c⟩ := subframeDone_of hS hK.pages hK.blocks hk m svn gst
  have e := c.hk_eq
  rw [he] at e
  simp only [List.cons.injEq] at e
  obtain ⟨e0, e1, e2⟩ := e
  have e2' := Subtype.ext e2
  subst e0; subst e1; subst e2'
  have hfd := c.feed
  rw [hd] at hfd
  cases hfd
  have hiff := OsnmaData.processDsm_returns_iff (d := { o.data.data with mack := ms }) (x := x) (h := ⟨b0⟩)
    (g := gst.subframe) hK.key.pwf (c.kroot x rfl) (c.pkr x rfl)
  have hnp : ∃ w, ({ o.data.data with mack := ms } : OsnmaData C).processDsm x ⟨b0⟩ gst.subframe = .panic w := by
    cases hpd : ({ o.data.data with mack := ms } : OsnmaData C).processDsm x ⟨b0⟩ gst.subframe with
    | panic w => exact ⟨w, rfl⟩
    | ok d' => exact absurd (hiff.1 ⟨d', hpd⟩) hh
  obtain ⟨w, hw⟩ := hnp
  have i0 : index hk.val 0 = .ok b0 := by rw [he]; rfl
  have i1 : index hk.val 1 = .ok b1 := by rw [he]; rfl
  have ib : CollectSubframe.toBytes 13 (hk.val.drop 2) = .ok block := by
    unfold CollectSubframe.toBytes
    have : hk.val.drop 2 = block.val := by rw [he]; rfl
    rw [dif_pos (by rw [this]; exact block.property)]
    exact congrArg Res.ok (Subtype.ext this)
  have hl : o.left S (.osnma data svn gst) = some ⟨sf, dsm, { o.data.data with mack := ms }⟩ := by
    unfold Osnma.left
    dsimp only
    rw [if_neg hz, hf]
    dsimp only
    rw [i0]
    simp only [Res.ok_bind]
    rw [c.store]
    simp only [Res.ok_bind]
    rw [i1]
    simp only [Res.ok_bind]
    rw [ib]
    simp only [Res.ok_bind]
    rw [hd]
    simp only [Res.ok_bind, Res.pure_eq]
    rw [hw]
  exact ⟨_, hl, .panics _ h hp hl⟩

/-- Where it panics: in the check of the DSM (padding and signature of a DSM-KROOT, Merkle proof and key of a DSM-PKR), which only reads.  So nothing of what
`process_dsm` updates (public keys, TESLA keys, Merkle tree root) is updated before the panic. -/
theorem C89_panics_before_any_update (hS : S.Consistent) (h0 : (Osnma.new S root0 pk0 slow : Osnma C).Fresh S)
    (h : Caught S (Osnma.new S root0 pk0 slow) hist log o) {data : OsnmaDataMessage} {svn : Svn} {gst : Gst}
    (hl : o.left S (.osnma data svn gst) = some o') :
    ∃ hd x, CompletesDsm o data svn gst hd x ∧
      ((x.dsmType = .Kroot ∧ ∃ pk, o.data.data.pubkey.Has pk ∧ pk.pkid = bitField x.data 4 4 ∧ (Key.fromDsmKroot C hd ⟨x.data⟩ pk).Panics) ∨
        (x.dsmType = .Pkr ∧ ∃ root, o.data.data.merkleTree = some root ∧ (Merkle.validatePkr C root ⟨x.data⟩).Panics)) := by
  have hK := h.kept hS h0
  obtain ⟨d, s, g, hc, ⟨k⟩⟩ := left_some hl
  cases hc
  obtain ⟨outs, hpages, _⟩ := id hK.pages
  obtain ⟨hgs, _⟩ := C04_collected_subframe (pagesOf hist) ⟨data, svn, gst⟩ _ _ outs k.hk k.msg k.g hpages k.hfeed
  change k.g = gst.subframe at hgs
  obtain ⟨b0', b1', block', ms, dsm', out, c⟩ := subframeDone_of hS hK.pages hK.blocks k.hk k.msg svn gst
  have hb0 := k.hb0
  have hb1 := k.hb1
  have hbl := k.hblock
  rw [c.hk_eq] at hb0 hb1 hbl
  simp only [List.getElem?_cons_zero, List.getElem?_cons_succ, Option.some.injEq, List.drop_succ_cons, List.drop_zero] at hb0 hb1 hbl
  have hbl' := Subtype.ext hbl
  have hfd := c.feed
  rw [hb1, ← hbl', k.hdsm] at hfd
  cases hfd
  have hnz : ∃ b ∈ data.val, b ≠ 0#8 := by
    apply Classical.byContradiction
    intro hc
    have : data.val.all (fun x => x == 0#8) = true := by
      rw [List.all_eq_true]
      intro b hb
      by_cases hb0 : b = 0#8
      · simp [hb0]
      · exact absurd ⟨b, hb, hb0⟩ hc
    rw [k.hz] at this
    cases this
  refine ⟨⟨k.b0⟩, k.x, ⟨hnz, k.sf, k.hk, k.msg, k.g, k.b1, k.block, k.dsm, k.hfeed, ?_, k.hdsm⟩, ?_⟩
  · rw [c.hk_eq, hb0, hb1, hbl']
  have hiff := OsnmaData.processDsm_returns_iff (d := { o.data.data with mack := k.ms }) (x := k.x) (h := ⟨k.b0⟩)
    (g := k.g) hK.key.pwf (c.kroot k.x rfl) (c.pkr k.x rfl)
  obtain ⟨w, hw⟩ := k.hpanic
  have hn : ¬ HarmlessDsm o.data.data.pubkey.current o.data.data.pubkey.next o.data.data.merkleTree ⟨k.b0⟩ k.x := by
    intro hh
    obtain ⟨d', hd'⟩ := hiff.2 hh
    rw [hw] at hd'
    cases hd'
  unfold HarmlessDsm at hn
  cases ht : k.x.dsmType with
  | Kroot =>
    rw [ht] at hn
    dsimp only at hn
    refine .inl ⟨rfl, ?_⟩
    apply Classical.byContradiction
    intro hc
    apply hn
    intro pk hpk he
    cases hr : Key.fromDsmKroot C ⟨k.b0⟩ ⟨k.x.data⟩ pk with
    | ok v => exact (Key.fromDsmKroot_returns_iff (c.kroot k.x rfl ht)).1 ⟨v, hr⟩
    | panic w => exact absurd ⟨pk, hpk, he, w, hr⟩ hc
  | Pkr =>
    rw [ht] at hn
    dsimp only at hn
    refine .inr ⟨rfl, ?_⟩
    apply Classical.byContradiction
    intro hc
    apply hn
    intro root hroot
    cases hr : Merkle.validatePkr C root ⟨k.x.data⟩ with
    | ok v => exact (Merkle.validatePkr_returns_iff (d := ⟨k.x.data⟩) (c.pkr k.x rfl ht).1).1 ⟨v, hr⟩
    | panic w => exact absurd ⟨root, hroot, w, hr⟩ hc

/-- What the panic leaves: what the getters return, the keys and the trust anchors are those before the call, and no acceptance message was logged. -/
theorem C89_nothing_else_changed (hS : S.Consistent) (h0 : (Osnma.new S root0 pk0 slow : Osnma C).Fresh S)
    (h : Caught S (Osnma.new S root0 pk0 slow) hist log o) {c : Call} (hl : o.left S c = some o') :
    (∀ kd svn, o'.get S kd svn = o.get S kd svn) ∧ o'.data.data.key = o.data.data.key ∧ o'.data.data.pubkey = o.data.data.pubkey ∧
      o'.data.data.merkleTree = o.data.data.merkleTree ∧ o.events S c = [] := by
  obtain ⟨d, s, g, rfl, ⟨k⟩⟩ := left_some hl
  have e : o'.data.data = { o.data.data with mack := k.ms } := congrArg (fun x => x.data.data) k.ho
  refine ⟨?_, by rw [e], by rw [e], by rw [e], ?_⟩
  · intro kd svn
    unfold Osnma.get Osnma.getCedAndStatus Osnma.getTimingParameters
    rw [e]
  · obtain ⟨hd, x, ⟨_, sf, hk, m, g', b1, block, dsm, hf, he, hdf⟩, hcase⟩ := C89_panics_before_any_update hS h0 h hl
    have i0 : index hk.val 0 = .ok hd.data := by rw [he]; rfl
    have i1 : index hk.val 1 = .ok b1 := by rw [he]; rfl
    have ib : CollectSubframe.toBytes 13 (hk.val.drop 2) = .ok block := by
      unfold CollectSubframe.toBytes
      have : hk.val.drop 2 = block.val := by rw [he]; rfl
      rw [dif_pos (by rw [this]; exact block.property)]
      exact congrArg Res.ok (Subtype.ext this)
    have hf' := k.hfeed
    rw [hf] at hf'
    cases hf'
    have hb0 := k.hb0
    rw [he] at hb0
    simp only [List.getElem?_cons_zero, Option.some.injEq] at hb0
    have hst := k.hstore
    rw [← hb0] at hst
    obtain ⟨w, hw⟩ := k.hpanic
    have hx : k.x = x := by
      have hb1 := k.hb1
      have hbl := k.hblock
      rw [he] at hb1 hbl
      simp only [List.getElem?_cons_zero, List.getElem?_cons_succ, Option.some.injEq, List.drop_succ_cons, List.drop_zero] at hb1 hbl
      have := k.hdsm
      rw [← hb1, Subtype.ext hbl, hdf] at this
      cases this
      rfl
    rw [hx, ← hb0] at hw
    have hde : ({ o.data.data with mack := k.ms } : OsnmaData C).dsmEvents x hd k.g = [] := by
      unfold OsnmaData.dsmEvents
      rcases hcase with ⟨ht, pk, hpk, hid, w', hp⟩ | ⟨ht, root, hr, w', hp⟩
      · rw [ht]
        dsimp only
        unfold OsnmaData.krootEvents
        split
        · rfl
        · split
          · rename_i pkid hpkid _ pk' happ
            have hw' := (h.kept hS h0).key.pwf
            obtain ⟨hhas, hid'⟩ := PubkeyStore.applicable_some happ
            have hfor := PubkeyStore.applicable_of_has hw' hpk
            cases hpr : Key.fromDsmKroot C hd ⟨x.data⟩ pk' with
            | panic w => rfl
            | ok v =>
              exfalso
              cases v with
              | error e' =>
                unfold OsnmaData.processDsm at hw
                rw [ht] at hw
                dsimp only at hw
                unfold OsnmaData.processDsmKroot at hw
                rw [hpkid] at hw
                simp only [Res.ok_bind] at hw
                rw [happ] at hw
                simp only [Res.ok_bind] at hw
                rw [hpr] at hw
                cases hw
              | ok v =>
                obtain ⟨p', hp'⟩ := PubkeyStore.makeCurrent_returns hw' hhas
                rw [hid'] at hp'
                unfold OsnmaData.processDsm at hw
                rw [ht] at hw
                dsimp only at hw
                unfold OsnmaData.processDsmKroot at hw
                rw [hpkid] at hw
                simp only [Res.ok_bind] at hw
                rw [happ] at hw
                simp only [Res.ok_bind] at hw
                rw [hpr] at hw
                simp only [Res.ok_bind] at hw
                rw [hp'] at hw
                cases hw
          · rfl
      · rw [ht]
        dsimp only
        unfold OsnmaData.pkrEvents
        dsimp only
        rw [hr]
        split
        · rename_i root' _ hroot
          cases hroot
          rw [hp]
        · rename_i root' hty hroot
          cases hroot
          exfalso
          unfold OsnmaData.processDsm at hw
          rw [ht] at hw
          dsimp only at hw
          unfold Merkle.validatePkr at hp
          rw [hty] at hp
          cases hp
        · rfl
    unfold Osnma.events
    simp only [k.hz, Bool.false_eq_true, if_false]
    rw [hf]
    dsimp only
    unfold OsnmaDsm.events
    rw [i0]
    simp only [Res.ok_bind]
    rw [hst]
    simp only [Res.ok_bind]
    rw [i1]
    simp only [Res.ok_bind]
    rw [ib]
    simp only [Res.ok_bind]
    rw [hdf]
    simp only [Res.ok_bind, Res.pure_eq]
    rw [hde, hw]
    rfl

/-- The same DSM does not panic again: as long as blocks of DSMs with the same identifier follow, the collector completes no DSM (and by
`C89_panics_iff` only a call that completes one can panic). -/
theorem C89_same_dsm_not_again (hS : S.Consistent) (h0 : (Osnma.new S root0 pk0 slow : Osnma C).Fresh S)
    (h : Caught S (Osnma.new S root0 pk0 slow) hist log o) {data : OsnmaDataMessage} {svn : Svn} {gst : Gst}
    (hl : o.left S (.osnma data svn gst) = some o') :
    ∃ hd x, CompletesDsm o data svn gst hd x ∧ ∀ ds : List DsmCall, (∀ p ∈ ds, p.header.dsmId = x.id) →
      ∃ c outs, feedBlocks o'.data.dsm ds = .ok (c, outs) ∧ ∀ out ∈ outs, out = none := by
  obtain ⟨d, s, g, hc, ⟨k⟩⟩ := left_some hl
  cases hc
  obtain ⟨hd, x, hcd, _⟩ := C89_panics_before_any_update hS h0 h hl
  refine ⟨hd, x, hcd, ?_⟩
  obtain ⟨_, sf, hk, m, g', b1, block, dsm, hf, he, hdf⟩ := hcd
  have hf' := k.hfeed
  rw [hf] at hf'
  cases hf'
  have hb1 := k.hb1
  have hbl := k.hblock
  rw [he] at hb1 hbl
  simp only [List.getElem?_cons_zero, List.getElem?_cons_succ, Option.some.injEq, List.drop_succ_cons, List.drop_zero] at hb1 hbl
  have hdd := k.hdsm
  rw [← hb1, Subtype.ext hbl, hdf] at hdd
  have ed : o'.data.dsm = k.dsm := congrArg (fun x => x.data.dsm) k.ho
  have hdone : o'.data.dsm.done = true ∧ o'.data.dsm.dsmId = x.id ∧ o'.data.dsm.dsmType.isSome = true := by
    rw [ed]
    rw [Res.ok.injEq, Prod.mk.injEq] at hdd
    rw [← hdd.1]
    unfold CollectDsm.feed at hdf
    dsimp only at hdf
    have hsome : (o.data.dsm.start ⟨b1⟩).dsmType.isSome = true := by
      unfold CollectDsm.start
      split
      · rfl
      · rename_i hnn
        cases htt : o.data.dsm.dsmType with
        | some t => rfl
        | none => exact absurd (.inr (by rw [htt]; rfl)) hnn
    unfold CollectDsm.start at hsome
    generalize (if DsmHeader.dsmId ⟨b1⟩ ≠ o.data.dsm.dsmId ∨ o.data.dsm.dsmType.isNone then
      ({ o.data.dsm.reset with dsmId := DsmHeader.dsmId ⟨b1⟩, dsmType := some (DsmHeader.dsmType ⟨b1⟩) } : CollectDsm) else o.data.dsm) = c0 at hdf hsome
    obtain ⟨t, ht, hdf⟩ := Res.bind_eq_ok.1 hdf
    split at hdf
    · simp only [Res.pure_eq, Res.ok.injEq, Prod.mk.injEq] at hdf
      exact absurd hdf.2 (by simp)
    · obtain ⟨c1, hc1, hdf⟩ := Res.bind_eq_ok.1 hdf
      obtain ⟨sz, hsz, hdf⟩ := Res.bind_eq_ok.1 hdf
      cases sz with
      | none =>
        simp only [Res.pure_eq, Res.ok.injEq, Prod.mk.injEq] at hdf
        exact absurd hdf.2 (by simp)
      | some sz =>
        dsimp only at hdf
        obtain ⟨dd, _, hdf⟩ := Res.bind_eq_ok.1 hdf
        simp only [Res.pure_eq, Res.ok.injEq, Prod.mk.injEq, Option.some.injEq] at hdf
        obtain ⟨hdf1, hdf2⟩ := hdf
        rw [← hdf1, ← hdf2]
        refine ⟨rfl, rfl, ?_⟩
        have hty : ∀ (a b : CollectDsm) (n : Nat) (bl : DsmBlock), a.storeBlock n bl = .ok b → b.dsmType = a.dsmType := by
          intro a b n bl hab
          unfold CollectDsm.storeBlock at hab
          obtain ⟨_, _, hab⟩ := Res.bind_eq_ok.1 hab
          obtain ⟨v, _, hab⟩ := Res.bind_eq_ok.1 hab
          split at hab
          · simp only [Res.pure_eq, Res.ok.injEq] at hab; rw [hab]
          · obtain ⟨_, _, hab⟩ := Res.bind_eq_ok.1 hab
            obtain ⟨_, _, hab⟩ := Res.bind_eq_ok.1 hab
            simp only [Res.pure_eq, Res.ok.injEq] at hab; rw [← hab]
        show c1.dsmType.isSome = true
        rw [hty _ _ _ _ hc1]
        exact hsome
  generalize o'.data.dsm = c0 at hdone
  obtain ⟨hdn, hid, hty⟩ := hdone
  intro ds hds
  have hone : ∀ p ∈ ds, c0.feed p.header p.block = .ok (c0, none) := by
    intro p hp
    unfold CollectDsm.feed
    dsimp only
    rw [if_neg (by rw [hds p hp, hid]; intro hc; rcases hc with hc | hc
                   · exact hc rfl
                   · cases htt : c0.dsmType <;> rw [htt] at hc hty <;> simp_all)]
    cases htt : c0.dsmType with
    | none => rw [htt] at hty; cases hty
    | some t =>
      simp only [Res.unwrap, Res.ok_bind]
      rw [if_pos hdn]
      rfl
  clear hds
  refine ⟨c0, ds.map (fun _ => none), ?_, ?_⟩
  · induction ds with
    | nil => rfl
    | cons p ds ih =>
      simp only [feedBlocks]
      rw [hone p (by simp)]
      dsimp only
      rw [ih (fun q hq => hone q (by simp [hq]))]
      rfl
  · intro out hout
    simp only [List.mem_map] at hout
    obtain ⟨_, _, rfl⟩ := hout
    rfl

/-- The same receiver without public keys and without the root of the Merkle tree: it makes no use of DSMs. -/
def Osnma.withoutAnchors (o : Osnma C) : Osnma C :=
  { o with data := { o.data with data := { o.data.data with pubkey := ⟨none, none⟩, merkleTree := none } } }

theorem withoutAnchors_processDsm {d d' : OsnmaData C} {x : Dsm} {h : NmaHeader} {g : Gst} (h1 : d.pubkey = ⟨none, none⟩)
    (h2 : d.merkleTree = none) (hr : d.processDsm x h g = .ok d') : d' = d := by
  unfold OsnmaData.processDsm at hr
  split at hr
  · unfold OsnmaData.processDsmKroot at hr
    obtain ⟨pkid, _, hr⟩ := Res.bind_eq_ok.1 hr
    obtain ⟨ap, ha, hr⟩ := Res.bind_eq_ok.1 hr
    have : ap = none := by
      rw [h1] at ha
      unfold PubkeyStore.applicable at ha
      simp at ha
      first | exact ha.symm | (cases ha; rfl)
    subst this
    cases hr; rfl
  · unfold OsnmaData.processDsmPkr at hr
    obtain ⟨t, _, hr⟩ := Res.bind_eq_ok.1 hr
    cases t with
    | EcdsaKey f =>
      dsimp only at hr
      unfold OsnmaData.processDsmPkrNpk at hr
      rw [h2] at hr
      cases hr; rfl
    | OsnmaAlertMessage =>
      dsimp only at hr
      unfold OsnmaData.processDsmPkrAlert at hr
      rw [h2] at hr
      cases hr; rfl
    | Reserved => cases hr; rfl

theorem validateKey_mack {d d' : OsnmaData C} {m : MackMessage} {g : Gst} (h : d.validateKey S m g = .ok d') : d'.mack = d.mack := by
  rcases OsnmaData.validateKey_of_ok h with rfl | ⟨cur, ks, _, _, _, _, _, h⟩
  · rfl
  · exact (OsnmaData.processTags_keys h).2.2.2.1

/-- **C89** what is left: the page, the MACK message and the block of the DSM have been taken in, as by a receiver in the same state that makes no use of
DSMs; the rest is as before the call. -/
theorem C89_what_is_left {data : OsnmaDataMessage} {svn : Svn} {gst : Gst} (hl : o.left S (.osnma data svn gst) = some o') {o₁ : Osnma C}
    (hr : o.withoutAnchors.feedOsnma S data svn gst = .ok o₁) :
    o'.subframe = o₁.subframe ∧ o'.data.dsm = o₁.data.dsm ∧ o'.data.data.mack = o₁.data.data.mack ∧
      o'.data.data.navmessage = o.data.data.navmessage ∧ o'.data.data.key = o.data.data.key ∧ o'.data.data.pubkey = o.data.data.pubkey ∧
      o'.data.data.merkleTree = o.data.data.merkleTree ∧ o'.data.data.onlySlowmac = o.data.data.onlySlowmac := by
  obtain ⟨d, s, g, he, ⟨k⟩⟩ := left_some hl
  cases he
  obtain ⟨hk, msg, g, sf, b0, b1, ms, dsm, block, x, hz, hfeed, hb0, hb1, hstore, hblock, hdsm, hpanic, ho⟩ := k
  subst ho
  unfold Osnma.feedOsnma at hr
  rw [if_neg (by rw [hz]; decide)] at hr
  obtain ⟨p, hp, hr⟩ := Res.bind_eq_ok.1 hr
  have hp' : o.subframe.feed data svn gst = .ok p := hp
  rw [hfeed] at hp'
  cases hp'
  dsimp only at hr
  obtain ⟨data', hps, hr⟩ := Res.bind_eq_ok.1 hr
  cases hr
  unfold OsnmaDsm.processSubframe at hps
  obtain ⟨c0, q0, hps⟩ := Res.bind_eq_ok.1 hps
  have e0 : c0 = b0 := by
    unfold index at q0
    rw [hb0] at q0
    cases q0; rfl
  subst e0
  obtain ⟨ms', q1, hps⟩ := Res.bind_eq_ok.1 hps
  have q1' : o.data.data.mack.store S msg svn g (NmaHeader.mk c0).nmaStatus = .ok ms' := q1
  rw [hstore] at q1'
  cases q1'
  obtain ⟨c1, q2, hps⟩ := Res.bind_eq_ok.1 hps
  have e1 : c1 = b1 := by
    unfold index at q2
    rw [hb1] at q2
    cases q2; rfl
  subst e1
  obtain ⟨bl, q3, hps⟩ := Res.bind_eq_ok.1 hps
  have e2 : bl = block := by
    unfold CollectSubframe.toBytes at q3
    split at q3
    · cases q3; exact Subtype.ext hblock.symm
    · cases q3
  subst e2
  obtain ⟨dd, q4, hps⟩ := Res.bind_eq_ok.1 hps
  have q4' : o.data.dsm.feed ⟨c1⟩ bl = .ok dd := q4
  rw [hdsm] at q4'
  cases q4'
  dsimp only at hps
  obtain ⟨d1, q5, hps⟩ := Res.bind_eq_ok.1 hps
  obtain ⟨d2, q6, hps⟩ := Res.bind_eq_ok.1 hps
  cases hps
  have e3 := withoutAnchors_processDsm rfl rfl q5
  refine ⟨rfl, rfl, ?_, rfl, rfl, rfl, rfl, rfl⟩
  show ms = d2.mack
  rw [validateKey_mack q6, e3]

end Verif
