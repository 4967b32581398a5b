import Verif.Lemmas.Panic

/-! # When `feed_osnma` panics (C39) -/

namespace Verif
open Osnma OsnmaData

variable {C : Crypto} {S : Storage}

/-- A reachable state completes a subframe: everything up to the processing of the DSM returns. -/
structure SubframeDone (S : Storage) (o : Osnma C) (svn : Svn) (gst : Gst) (hk : HkrootMessage) (m : MackMessage)
    (b0 b1 : Byte) (block : DsmBlock) (ms : MackStorage) (dsm : CollectDsm) (out : Option Dsm) : Prop where
  hk_eq : hk.val = b0 :: b1 :: block.val
  store : o.data.data.mack.store S m svn gst.subframe (NmaHeader.mk b0).nmaStatus = .ok ms
  rep : ∃ L, MackStorage.Rep S ms L
  feed : o.data.dsm.feed ⟨b1⟩ block = .ok (dsm, out)
  kroot : ∀ x, out = some x → x.dsmType = .Kroot → 13 ≤ x.data.length
  pkr : ∀ x, out = some x → x.dsmType = .Pkr → 169 ≤ x.data.length ∧ x.data.length = 13 * (bitField x.data 0 4 + 6)

theorem hkroot_cons (hk : HkrootMessage) : ∃ b0 b1, ∃ block : DsmBlock, hk.val = b0 :: b1 :: block.val := by
  obtain ⟨l, hl⟩ := hk
  match l, hl with
  | [], hl => cases hl
  | [_], hl => cases hl
  | b0 :: b1 :: t, hl => exact ⟨b0, b1, ⟨t, by simpa using hl⟩, rfl⟩

theorem subframeDone_of (hS : S.Consistent) {hist : List Call} {o : Osnma C}
    (hpg : PagesInv S hist o) (hbl : ∃ bs outs, feedBlocks .new bs = .ok (o.data.dsm, outs))
    (hk : HkrootMessage) (m : MackMessage) (svn : Svn) (gst : Gst) :
    ∃ b0 b1 block ms dsm out, SubframeDone S o svn gst hk m b0 b1 block ms dsm out := by
  obtain ⟨b0, b1, block, e⟩ := hkroot_cons hk
  obtain ⟨mo, _, hmc, _⟩ := hpg
  obtain ⟨m0, hm0, hrep⟩ := MackStorage.storeMacks_rep hS (emitted (pagesOf hist) mo)
  rw [hmc] at hm0
  cases hm0
  obtain ⟨ms, hms, hrep'⟩ := MackStorage.store_rep hS hrep ⟨m, svn, gst.subframe, (NmaHeader.mk b0).nmaStatus⟩
  obtain ⟨bs, outs, hbs⟩ := hbl
  obtain ⟨dsm, out, hf, _, _, hout⟩ := CollectDsm.feed_inv (p := DsmCall.mk ⟨b1⟩ block) (CollectDsm.start_inv hbs ⟨b1⟩)
  refine ⟨b0, b1, block, ms, dsm, out, e, hms, ⟨_, hrep'⟩, hf, ?_, ?_⟩
  · intro x hx _
    obtain ⟨_, _, n, ⟨_, _, hn, _⟩, hl, _⟩ := hout x hx
    unfold announcedBlocks at hn
    rw [hl]
    dsimp only at hn
    split at hn <;> split at hn <;> cases hn <;> omega
  · intro x hx ht
    obtain ⟨_, ht', n, ⟨fb, hfb, hn, hall⟩, hl, hb⟩ := hout x hx
    have hid : 12 ≤ (DsmHeader.mk b1).dsmId := by
      rw [ht] at ht'
      have := DsmHeader.type_eq ⟨b1⟩
      rw [this] at ht'
      split at ht'
      · assumption
      · cases ht'
    unfold announcedBlocks at hn
    dsimp only at hn
    rw [if_pos hid] at hn
    split at hn
    · rename_i hnb
      cases hn
      have hne : x.data ≠ [] := by
        intro hnil
        rw [hnil] at hl
        simp at hl
      obtain ⟨b, hb1, hb2⟩ := hb 0 (by omega)
      rw [hfb] at hb1
      cases hb1
      rw [Nat.mul_zero, List.drop_zero] at hb2
      have hhead : x.data.headD 0 = fb.val.headD 0 := by
        rw [← hb2]
        cases hx' : x.data with
        | nil => exact absurd hx' hne
        | cons a t => rfl
      rw [bitField_head hne, hhead]
      omega
    · cases hn

theorem subframeDone (hS : S.Consistent) {o0 : Osnma C} (h0 : o0.Fresh S) {hist : List Call} {o : Osnma C}
    (h : run S o0 hist = .ok o) (hk : HkrootMessage) (m : MackMessage) (svn : Svn) (gst : Gst) :
    ∃ b0 b1 block ms dsm out, SubframeDone S o svn gst hk m b0 b1 block ms dsm out :=
  subframeDone_of hS (received_run hS h0 h) (blocks_run h0 h) hk m svn gst

theorem SubframeDone.process {o : Osnma C} {svn : Svn} {gst : Gst} {hk : HkrootMessage} {m : MackMessage}
    {b0 b1 : Byte} {block : DsmBlock} {ms : MackStorage} {dsm : CollectDsm} {out : Option Dsm}
    (c : SubframeDone S o svn gst hk m b0 b1 block ms dsm out) :
    o.data.processSubframe S hk m svn gst.subframe =
      ((match out with
        | some x => ({ o.data.data with mack := ms } : OsnmaData C).processDsm x ⟨b0⟩ gst.subframe
        | none => .ok { o.data.data with mack := ms }).bind
        fun d => (d.validateKey S m gst.subframe).bind fun d => .ok ⟨dsm, d⟩) := by
  unfold OsnmaDsm.processSubframe
  have hb0 : index hk.val 0 = .ok b0 := by rw [c.hk_eq]; rfl
  have hb1 : index hk.val 1 = .ok b1 := by rw [c.hk_eq]; rfl
  have hb : CollectSubframe.toBytes 13 (hk.val.drop 2) = .ok block := by
    unfold CollectSubframe.toBytes
    have : hk.val.drop 2 = block.val := by rw [c.hk_eq]; rfl
    rw [dif_pos (by rw [this]; exact block.property)]
    exact congrArg Res.ok (Subtype.ext this)
  rw [hb0]
  simp only [Res.ok_bind]
  rw [c.store]
  simp only [Res.ok_bind]
  rw [hb1]
  simp only [Res.ok_bind]
  rw [hb]
  simp only [Res.ok_bind]
  rw [c.feed]
  simp only [Res.ok_bind]
  cases out <;> rfl

variable {root0 : Option MerkleTreeNode} {pk0 : Option (PublicKey C)} {slow : Bool}
  {hist : List Call} {log : List (KeyEvent C)} {o : Osnma C}

theorem Osnma.Fresh.new {o0 : Osnma C} (h : o0.Fresh S) : ∃ root pk slow, o0 = Osnma.new S root pk slow := by
  rcases h with ⟨r, p, s, rfl⟩ | ⟨p, s, rfl⟩
  · exact ⟨_, _, _, rfl⟩
  · exact ⟨_, _, _, rfl⟩

theorem SensibleLog.mono {a b : List (KeyEvent C)} (h : SensibleLog b) (hab : ∀ e ∈ a, e ∈ b) : SensibleLog a := by
  intro h1 d1 p1 k1 g1 h2 d2 p2 k2 g2 m1 m2
  exact h h1 d1 p1 k1 g1 h2 d2 p2 k2 g2 (hab _ m1) (hab _ m2)

theorem feedOsnma_returns_iff_of (hS : S.Consistent) (hpg : PagesInv S hist o) (hbl : ∃ bs outs, feedBlocks .new bs = .ok (o.data.dsm, outs))
    (hinv : KeyInv root0 pk0 log o.data.data.merkleTree o.data.data.pubkey o.data.data.key) (hnav : CollectNavMessage.Inv S o.data.data.navmessage)
    (data : OsnmaDataMessage) (svn : Svn) (gst : Gst)
    (hg : 360 ≤ gst.subframe.abs) (hs : SensibleLog (log ++ o.events S (.osnma data svn gst))) :
    (∃ o', o.feedOsnma S data svn gst = .ok o') ↔
      ∀ h x, CompletesDsm o data svn gst h x →
        HarmlessDsm o.data.data.pubkey.current o.data.data.pubkey.next o.data.data.merkleTree h x := by
  by_cases hz : data.val.all (fun x => x == 0#8) = true
  · refine iff_of_true ⟨o, ?_⟩ ?_
    · unfold feedOsnma; rw [if_pos hz]; rfl
    · rintro h x ⟨⟨b, hb, hb0⟩, _⟩
      rw [List.all_eq_true] at hz
      exact absurd (by simpa using hz b hb) hb0
  · have hnz : ∃ b ∈ data.val, b ≠ 0#8 := by
      apply Classical.byContradiction
      intro hc
      apply hz
      rw [List.all_eq_true]
      intro b hb
      by_cases hb0 : b = 0#8
      · simp [hb0]
      · exact absurd ⟨b, hb, hb0⟩ hc
    obtain ⟨outs, hpages, _⟩ := id hpg
    obtain ⟨s1, outs1, h1, h2, h3, _⟩ := CollectSubframe.feedPages_spec CollectSubframe.wf_new (pagesOf hist)
      (fun _ => CollectSubframe.Sat.init) CollectSubframe.rep_new
    rw [hpages] at h1; cases h1
    obtain ⟨sf, out, hf, _⟩ := CollectSubframe.feed_emit h2 ⟨data, svn, gst⟩ _ h3
    dsimp only at hf
    cases out with
    | none =>
      refine iff_of_true ⟨{ o with subframe := sf }, ?_⟩ ?_
      · unfold feedOsnma; rw [if_neg hz, hf]; rfl
      · rintro h x ⟨_, sf', hk', m', g', b1, block, c, hf', _⟩
        rw [hf] at hf'; cases hf'
    | some r =>
      obtain ⟨hk, m, g⟩ := r
      obtain ⟨hgs, _⟩ := C04_collected_subframe (pagesOf hist) ⟨data, svn, gst⟩ _ _ outs hk m g hpages hf
      change g = gst.subframe at hgs
      subst hgs
      obtain ⟨b0, b1, block, ms, dsm, out, c⟩ := subframeDone_of hS hpg hbl hk m svn gst
      have hal : gst.subframe.Aligned := Gst.subframe_aligned gst
      have hfeed : o.feedOsnma S data svn gst =
          (o.data.processSubframe S hk m svn gst.subframe).bind fun d => .ok ⟨sf, d⟩ := by
        unfold feedOsnma
        rw [if_neg hz, hf]
        rfl
      rw [hfeed, c.process]
      obtain ⟨L, hrep⟩ := c.rep
      cases out with
      | none =>
        refine iff_of_true ?_ ?_
        · obtain ⟨d', hd'⟩ := OsnmaData.validateKey_returns (S := S) (m := m) (g := gst.subframe)
            (d := { o.data.data with mack := ms }) hinv (hs.mono (fun e he => by simp [he])) hrep hal hg hnav
          refine ⟨⟨sf, dsm, d'⟩, ?_⟩
          show Res.bind (Res.bind (Res.ok _) _) _ = _
          simp only [Res.bind]
          rw [hd']
        · rintro h x ⟨_, sf', hk', m', g', b1', block', c', hf', he, hd⟩
          rw [hf] at hf'; cases hf'
          rw [c.hk_eq] at he
          simp only [List.cons.injEq] at he
          obtain ⟨e1, e2, e3⟩ := he
          rw [← e2, ← Subtype.ext e3, c.feed] at hd
          cases hd
      | some x =>
        have hev : o.events S (.osnma data svn gst) =
            ({ o.data.data with mack := ms } : OsnmaData C).dsmEvents x ⟨b0⟩ gst.subframe ++
              (match ({ o.data.data with mack := ms } : OsnmaData C).processDsm x ⟨b0⟩ gst.subframe with
              | .ok d' => d'.teslaEvents m gst.subframe
              | .panic _ => []) := by
          unfold Osnma.events
          simp only [hz, Bool.false_eq_true, if_false]
          rw [hf]
          dsimp only
          unfold OsnmaDsm.events
          have hb0 : index hk.val 0 = .ok b0 := by rw [c.hk_eq]; rfl
          have hb1 : index hk.val 1 = .ok b1 := by rw [c.hk_eq]; rfl
          have hb : CollectSubframe.toBytes 13 (hk.val.drop 2) = .ok block := by
            unfold CollectSubframe.toBytes
            have : hk.val.drop 2 = block.val := by rw [c.hk_eq]; rfl
            rw [dif_pos (by rw [this]; exact block.property)]
            exact congrArg Res.ok (Subtype.ext this)
          rw [hb0]
          simp only [Res.ok_bind]
          rw [c.store]
          simp only [Res.ok_bind]
          rw [hb1]
          simp only [Res.ok_bind]
          rw [hb]
          simp only [Res.ok_bind]
          rw [c.feed]
          rfl
        have hiff := OsnmaData.processDsm_returns_iff (d := { o.data.data with mack := ms }) (x := x) (h := ⟨b0⟩)
          (g := gst.subframe) hinv.pwf (c.kroot x rfl) (c.pkr x rfl)
        dsimp only at hiff
        have hall : (∀ h x, CompletesDsm o data svn gst h x →
            HarmlessDsm o.data.data.pubkey.current o.data.data.pubkey.next o.data.data.merkleTree h x) ↔
            HarmlessDsm o.data.data.pubkey.current o.data.data.pubkey.next o.data.data.merkleTree ⟨b0⟩ x := by
          constructor
          · intro h
            exact h _ _ ⟨hnz, sf, hk, m, gst.subframe, b1, block, dsm, hf, c.hk_eq, c.feed⟩
          · rintro hh ⟨b0'⟩ x' ⟨_, sf', hk', m', g', b1', block', c', hf', he, hd⟩
            rw [hf] at hf'; cases hf'
            rw [c.hk_eq] at he
            simp only [List.cons.injEq] at he
            obtain ⟨e1, e2, e3⟩ := he
            rw [← e2, ← Subtype.ext e3, c.feed] at hd
            cases hd
            rw [← e1]
            exact hh
        rw [hall, ← hiff]
        constructor
        · rintro ⟨o', ho'⟩
          obtain ⟨d, hd, _⟩ := Res.bind_eq_ok.1 ho'
          obtain ⟨d', hd', _⟩ := Res.bind_eq_ok.1 hd
          exact ⟨d', hd'⟩
        · rintro ⟨d, hd⟩
          have hst := OsnmaData.processDsm_step hd
          obtain ⟨en, em, _⟩ := OsnmaData.processDsm_nav hd
          have hinv' := KeyInv.dsm (log := log) (d := { o.data.data with mack := ms }) (by exact hinv) hst
          obtain ⟨d', hd'⟩ := OsnmaData.validateKey_returns (S := S) (m := m) (g := gst.subframe) (d := d) hinv'
            (hs.mono (fun e he => by
              rw [hev]
              simp only [List.mem_append] at he ⊢
              rcases he with he | he
              · exact .inl he
              · exact .inr (.inl he))) (by rw [em]; exact hrep) hal hg (by rw [en]; exact hnav)
          refine ⟨⟨sf, dsm, d'⟩, ?_⟩
          dsimp only
          rw [hd]
          simp only [Res.bind]
          rw [hd']

theorem feedOsnma_returns_iff (hS : S.Consistent) (h0 : (Osnma.new S root0 pk0 slow : Osnma C).Fresh S)
    (hl : Logs S (Osnma.new S root0 pk0 slow) hist log o) (data : OsnmaDataMessage) (svn : Svn) (gst : Gst)
    (hg : 360 ≤ gst.subframe.abs) (hs : SensibleLog (log ++ o.events S (.osnma data svn gst))) :
    (∃ o', o.feedOsnma S data svn gst = .ok o') ↔
      ∀ h x, CompletesDsm o data svn gst h x →
        HarmlessDsm o.data.data.pubkey.current o.data.data.pubkey.next o.data.data.merkleTree h x :=
  feedOsnma_returns_iff_of hS (received_run hS h0 hl.run) (blocks_run h0 hl.run) (keyInv_run hl) (navInv_run hS h0 hl.run).inv data svn gst hg hs

end Verif
