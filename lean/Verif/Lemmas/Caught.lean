import Verif.Model.Caught
import Verif.Lemmas.PanicIff
import Verif.Lemmas.NavGet

/-! # Lemmas: histories with caught panics -/

namespace Verif
open CollectNavMessage

variable {C : Crypto} {S : Storage} {root0 : Option MerkleTreeNode} {pk0 : Option (PublicKey C)} {slow : Bool}
  {hist : List Call} {log : List (KeyEvent C)} {o o' : Osnma C}

/-- What happens in a call that panics while processing a DSM, step by step. -/
structure Left (S : Storage) (o o' : Osnma C) (data : OsnmaDataMessage) (svn : Svn) (gst : Gst) where
  hk : HkrootMessage
  msg : MackMessage
  g : Gst
  sf : CollectSubframe
  b0 : Byte
  b1 : Byte
  ms : MackStorage
  dsm : CollectDsm
  block : DsmBlock
  x : Dsm
  hz : data.val.all (fun x => x == 0#8) = false
  hfeed : o.subframe.feed data svn gst = .ok (sf, some (hk, msg, g))
  hb0 : hk.val[0]? = some b0
  hb1 : hk.val[1]? = some b1
  hstore : o.data.data.mack.store S msg svn g (NmaHeader.mk b0).nmaStatus = .ok ms
  hblock : block.val = hk.val.drop 2
  hdsm : o.data.dsm.feed ⟨b1⟩ block = .ok (dsm, some x)
  hpanic : (({ o.data.data with mack := ms } : OsnmaData C).processDsm x ⟨b0⟩ g).Panics
  ho : o' = ⟨sf, dsm, { o.data.data with mack := ms }⟩

theorem left_some {c : Call} (h : o.left S c = some o') :
    ∃ data svn gst, c = .osnma data svn gst ∧ Nonempty (Left S o o' data svn gst) := by
  cases c with
  | inav w s g b => cases h
  | osnma data svn gst =>
    refine ⟨data, svn, gst, rfl, ?_⟩
    unfold Osnma.left at h
    dsimp only at h
    by_cases hz : data.val.all (fun x => x == 0#8) = true
    · rw [if_pos hz] at h; cases h
    · rw [if_neg hz] at h
      cases hf : o.subframe.feed data svn gst with
      | panic w => rw [hf] at h; cases h
      | ok r =>
        obtain ⟨sf, out⟩ := r
        rw [hf] at h
        cases out with
        | none => cases h
        | some r =>
          obtain ⟨hk, m, g⟩ := r
          dsimp only at h
          split at h
          · rename_i b0 ms dsm x hr
            obtain ⟨b0', e0, hr⟩ := Res.bind_eq_ok.1 hr
            obtain ⟨ms', e1, hr⟩ := Res.bind_eq_ok.1 hr
            obtain ⟨b1, e2, hr⟩ := Res.bind_eq_ok.1 hr
            obtain ⟨blk, e3, hr⟩ := Res.bind_eq_ok.1 hr
            obtain ⟨⟨dsm', out⟩, e4, hr⟩ := Res.bind_eq_ok.1 hr
            simp only [Res.pure_eq, Res.ok.injEq, Prod.mk.injEq] at hr
            obtain ⟨rfl, rfl, rfl, rfl⟩ := hr
            have e3' : blk.val = hk.val.drop 2 := by
              unfold CollectSubframe.toBytes at e3
              split at e3
              · simp only [Res.ok.injEq] at e3; rw [← e3]
              · cases e3
            rw [index_eq_ok] at e0 e2
            split at h
            · rename_i w hp
              simp only [Option.some.injEq] at h
              exact ⟨⟨hk, m, g, sf, b0', b1, ms', dsm', blk, x, by simpa using hz, hf, e0, e2, e1, e3', e4, ⟨w, hp⟩, h.symm⟩⟩
            · cases h
          · cases h

/-- Everything that is known of the state after a history in which panics are caught. -/
structure CaughtInv (S : Storage) (root0 : Option MerkleTreeNode) (pk0 : Option (PublicKey C)) (slow : Bool) (hist : List Call)
    (log : List (KeyEvent C)) (o : Osnma C) : Prop where
  nav : ∃ L, NavInv S hist o L
  pages : PagesInv S hist o
  blocks : ∃ bs outs, feedBlocks .new bs = .ok (o.data.dsm, outs)
  key : KeyInv root0 pk0 log o.data.data.merkleTree o.data.data.pubkey o.data.data.key
  only : o.data.data.onlySlowmac = slow
  evidence : ∀ kd, ∀ x ∈ o.data.data.navmessage.arr kd, ∃ us : List TagUse,
    x.authbits = min 65535 (us.map (fun u => u.tag.tag.length)).sum ∧
    (∀ u ∈ us, ∃ v, x.svn = some v ∧ u.Proves root0 pk0 slow hist kd v (x.messageBits kd.nbits)) ∧
    ∀ u, us.count u ≤ timesAccepted log u.key

theorem CaughtInv.fresh (hS : S.Consistent) (h0 : (Osnma.new S root0 pk0 slow : Osnma C).Fresh S) :
    CaughtInv S root0 pk0 slow [] [] (Osnma.new S root0 pk0 slow) where
  nav := ⟨[], .fresh hS h0⟩
  pages := .fresh h0
  blocks := ⟨[], [], rfl⟩
  key := keyInv_run (slow := slow) (S := S) .nil
  only := rfl
  evidence kd x hx := by
    rcases (Rep.mem (NavInv.fresh hS h0).rep).1 hx with ⟨s, hs, _⟩ | ⟨rfl, _⟩
    · simp at hs
    · exact ⟨[], by simpa using NavKind.newItem_authbits kd, by simp, by simp⟩

theorem CaughtInv.inv (h : CaughtInv S root0 pk0 slow hist log o) : Inv S o.data.data.navmessage := by
  obtain ⟨L, hL⟩ := h.nav
  exact hL.inv

/-- A call that returns. -/
theorem CaughtInv.returns (hS : S.Consistent) (h : CaughtInv S root0 pk0 slow hist log o) {c : Call} (hc : c.run S o = .ok o') :
    CaughtInv S root0 pk0 slow (hist ++ [c]) (log ++ o.events S c) o' := by
  obtain ⟨L, hL⟩ := h.nav
  have hpg := h.pages.step hL.inv hc
  have hkey := h.key.step (Call.keyStep hc)
  have hmono : ∀ {x : NavItem} {kd : NavKind}, (∃ us : List TagUse,
      x.authbits = min 65535 (us.map (fun u => u.tag.tag.length)).sum ∧
      (∀ u ∈ us, ∃ v, x.svn = some v ∧ u.Proves (C := C) root0 pk0 slow hist kd v (x.messageBits kd.nbits)) ∧
      ∀ u, us.count u ≤ timesAccepted log u.key) → ∃ us : List TagUse,
      x.authbits = min 65535 (us.map (fun u => u.tag.tag.length)).sum ∧
      (∀ u ∈ us, ∃ v, x.svn = some v ∧ u.Proves root0 pk0 slow (hist ++ [c]) kd v (x.messageBits kd.nbits)) ∧
      ∀ u, us.count u ≤ timesAccepted (log ++ o.events S c) u.key := by
    rintro x kd ⟨us, e1, e2, e3⟩
    refine ⟨us, e1, ?_, ?_⟩
    · intro u hu
      obtain ⟨v, hv, hp⟩ := e2 u hu
      exact ⟨v, hv, hp.mono⟩
    · intro u
      rw [timesAccepted_append]
      have := e3 u; omega
  have hzero : ∀ {x : NavItem} {kd : NavKind} {hist : List Call} {log : List (KeyEvent C)}, x.authbits = 0 → ∃ us : List TagUse,
      x.authbits = min 65535 (us.map (fun u => u.tag.tag.length)).sum ∧
      (∀ u ∈ us, ∃ v, x.svn = some v ∧ u.Proves (C := C) root0 pk0 slow hist kd v (x.messageBits kd.nbits)) ∧
      ∀ u, us.count u ≤ timesAccepted log u.key :=
    fun hx => ⟨[], by simpa using hx, by simp, by simp⟩
  cases c with
  | inav w s g b =>
    have hc' : o.feedInav S w s g b = .ok o' := hc
    obtain ⟨n, _, he⟩ := feedInav_of_ok (c := ⟨w, s, g, b⟩) hc'
    refine ⟨⟨_, hL.inav hS (c := ⟨w, s, g, b⟩) hc'⟩, hpg, by rw [he]; exact h.blocks, hkey, by rw [he]; exact h.only, ?_⟩
    intro kd x' hx'
    rcases arr_mem_feed hS hL (c := ⟨w, s, g, b⟩) hc' hx' with rfl | ⟨x, h1, h2, y, h3, h4⟩
    · exact hzero (NavKind.newItem_authbits kd)
    · have hx := show ∃ us : List TagUse, x.authbits = min 65535 (us.map (fun u => u.tag.tag.length)).sum ∧
          (∀ u ∈ us, ∃ v, x.svn = some v ∧ u.Proves root0 pk0 slow hist kd v (x.messageBits kd.nbits)) ∧
          ∀ u, us.count u ≤ timesAccepted log u.key by
        rcases h1 with h1 | rfl
        · exact h.evidence kd x h1
        · exact hzero (NavKind.newItem_authbits kd)
      have hy := show ∃ us : List TagUse, y.authbits = min 65535 (us.map (fun u => u.tag.tag.length)).sum ∧
          (∀ u ∈ us, ∃ v, y.svn = some v ∧ u.Proves root0 pk0 slow hist kd v (y.messageBits kd.nbits)) ∧
          ∀ u, us.count u ≤ timesAccepted log u.key by
        rcases h3 with rfl | rfl
        · exact hx
        · exact hx
      rcases h4 with rfl | rfl
      · exact hmono hy
      · rcases NavItem.feedUpd_auth (kd.upd ⟨w, s, g, b⟩) s y with h' | ⟨k1, k2, k3⟩
        · exact hzero h'
        · rcases Nat.eq_zero_or_pos y.authbits with hz | hpos
          · exact hzero (by rw [k1, hz])
          · obtain ⟨us, e1, e2, e3⟩ := hmono hy
            refine ⟨us, by rw [k1]; exact e1, ?_, e3⟩
            intro u hu
            obtain ⟨v, hv, hp⟩ := e2 u hu
            have hb : (NavItem.feedUpd (kd.upd ⟨w, s, g, b⟩) s y).messageBits kd.nbits = y.messageBits kd.nbits := by
              unfold NavItem.messageBits; rw [k2]
            refine ⟨v, ?_, by rw [hb]; exact hp⟩
            rw [NavItem.feedUpd_svn]
            rcases k3 with k3 | k3 <;> rw [hv] at k3
            · exact k3.symm
            · cases k3
  | osnma d s g =>
    have hc' : o.feedOsnma S d s g = .ok o' := hc
    obtain ⟨us, vs, hn⟩ := feedOsnma_nav hL.inv hc'
    refine ⟨⟨_, hL.osnma hn⟩, hpg, ?_, hkey, ?_, ?_⟩
    · obtain ⟨bs, outs, ih⟩ := h.blocks
      rcases Osnma.feedOsnma_of_ok hc' with ⟨hz, rfl⟩ | ⟨hz, ⟨sf, hf, rfl⟩ | ⟨⟨c⟩⟩⟩
      · exact ⟨bs, outs, ih⟩
      · exact ⟨bs, outs, ih⟩
      · have e1 : o'.data.dsm = c.dsm := congrArg (fun x => x.data.dsm) c.ho
        rw [e1]
        exact ⟨_, _, CollectDsm.feedBlocks_snoc (p := DsmCall.mk ⟨c.b1⟩ c.block) ih c.hdsm⟩
    · rcases feedOsnma_cases hL.inv hc' with h' | ⟨c, h'⟩ | ⟨⟨k⟩⟩
      · rw [h']; exact h.only
      · rw [h', c.d1_nav.2.2]; exact h.only
      · rw [k.hnew]
        show k.d1.onlySlowmac = slow
        rw [k.d1_nav.2.2]; exact h.only
    · intro kd x' hx'
      rcases feedOsnma_cases hL.inv hc' with h' | ⟨c, h'⟩ | ⟨⟨k⟩⟩
      · rw [h'] at hx'; exact hmono (h.evidence kd x' hx')
      · rw [h', c.d1_nav.1] at hx'; exact hmono (h.evidence kd x' hx')
      · rw [k.arr kd] at hx'
        obtain ⟨x, hx, rfl⟩ := List.mem_map.1 hx'
        obtain ⟨us, e1, e2, e3⟩ := h.evidence kd x hx
        classical
        refine ⟨us ++ (k.uses kd).filter (fun u => decide (u.Counts S C o.data.data.navmessage
          (o.data.data.navmessage.arr kd) kd.nbits x)), ?_, ?_, ?_⟩
        · rw [usesGain_filter, List.map_append, List.sum_append]
          show min 65535 (x.authbits + _) = _
          rw [e1]; omega
        · intro u hu
          rcases List.mem_append.1 hu with hu | hu
          · obtain ⟨v, hv, hp⟩ := e2 u hu
            exact ⟨v, hv, hp.mono⟩
          · obtain ⟨hu, hcnt⟩ := List.mem_filter.1 hu
            have hcnt := of_decide_eq_true hcnt
            obtain ⟨_, _, v, _, _, _, _, hv, _⟩ := id hcnt
            exact ⟨v, hv, k.proves_of hS h.pages hpg hkey h.only hu hcnt hv⟩
        · intro u
          rw [List.count_append, timesAccepted_append]
          have a := e3 u
          have nd : ((k.uses kd).filter (fun u => decide (u.Counts S C o.data.data.navmessage
            (o.data.data.navmessage.arr kd) kd.nbits x))).Nodup := (k.uses_nodup kd).filter _
          have b := List.nodup_iff_count.1 nd u
          by_cases hmem : u ∈ (k.uses kd).filter (fun u => decide (u.Counts S C o.data.data.navmessage
            (o.data.data.navmessage.arr kd) kd.nbits x))
          · have hk := k.uses_key (List.mem_filter.1 hmem).1
            have hev : KeyEvent.tesla u.key ∈ o.events S (.osnma d s g) := by
              rw [hk, k.events k.hz, OsnmaData.teslaEvents_accept k.hcur k.hal k.hlt k.hval]
              simp
            have := timesAccepted_pos hev
            omega
          · rw [List.count_eq_zero_of_not_mem hmem]
            omega

/-- A call that panics while processing a DSM. -/
theorem CaughtInv.panics (h : CaughtInv S root0 pk0 slow hist log o) {c : Call} (hl : o.left S c = some o') :
    CaughtInv S root0 pk0 slow (hist ++ [c]) log o' := by
  obtain ⟨L, hL⟩ := h.nav
  obtain ⟨d, s, g, rfl, ⟨k⟩⟩ := left_some hl
  have e : o'.data.data = { o.data.data with mack := k.ms } := congrArg (fun x => x.data.data) k.ho
  have es : o'.subframe = k.sf := congrArg (fun x => x.subframe) k.ho
  have ed : o'.data.dsm = k.dsm := congrArg (fun x => x.data.dsm) k.ho
  have en : o'.data.data.navmessage = o.data.data.navmessage := by rw [e]
  refine ⟨⟨L, ?_⟩, h.pages.completes k.hz k.hfeed k.hb0 k.hstore es (by rw [e]), ?_, ?_, by rw [e]; exact h.only, ?_⟩
  · refine ⟨by rw [en]; exact hL.rep, by rw [en]; exact hL.inv, ?_⟩
    rw [inavsOf_osnma]; exact hL.core
  · obtain ⟨bs, outs, ih⟩ := h.blocks
    rw [ed]
    exact ⟨_, _, CollectDsm.feedBlocks_snoc (p := DsmCall.mk ⟨k.b1⟩ k.block) ih k.hdsm⟩
  · rw [e]; exact h.key
  · intro kd x hx
    rw [en] at hx
    obtain ⟨us, e1, e2, e3⟩ := h.evidence kd x hx
    refine ⟨us, e1, ?_, e3⟩
    intro u hu
    obtain ⟨v, hv, hp⟩ := e2 u hu
    exact ⟨v, hv, hp.mono⟩

theorem Caught.kept (hS : S.Consistent) (h0 : (Osnma.new S root0 pk0 slow : Osnma C).Fresh S)
    (h : Caught S (Osnma.new S root0 pk0 slow) hist log o) : CaughtInv S root0 pk0 slow hist log o := by
  generalize ho : (Osnma.new S root0 pk0 slow : Osnma C) = o0 at h
  induction h with
  | nil => subst ho; exact .fresh hS h0
  | returns c _ hc ih => exact ih.returns hS hc
  | panics c _ _ hl ih => exact ih.panics hl

end Verif
