import Verif.Spec.CaughtMachine
import Verif.Lemmas.Caught
import Verif.Props.KeyMachine
import Verif.Lemmas.NavMachine

/-! # Lemmas: the reference machine for the acceptance of keys, when panics are caught -/

namespace Verif
open CollectSubframe CollectDsm

variable {S : Storage} {C : Crypto} {root0 : Option MerkleTreeNode} {pk0 : Option (PublicKey C)} {slow : Bool}
  {hist : List Call} {log : List (KeyEvent C)} {o o' : Osnma C}

/-- The keys and the Merkle tree root held are those that follow from the messages. -/
structure KeyState (root0 : Option MerkleTreeNode) (pk0 : Option (PublicKey C)) (log : List (KeyEvent C)) (o : Osnma C) : Prop where
  inv : KeyInv root0 pk0 log o.data.data.merkleTree o.data.data.pubkey o.data.data.key
  keys : (o.data.data.pubkey.current, o.data.data.pubkey.next) = keysHeld pk0 log
  held : (o.data.data.key.key0, o.data.data.key.key1) = teslaHeld log
  root : ¬ AlertIn log → o.data.data.merkleTree = root0

theorem KeyState.fresh : KeyState root0 pk0 [] (Osnma.new S root0 pk0 slow : Osnma C) where
  inv := keyInv_run (slow := slow) (S := S) .nil
  keys := by cases pk0 <;> rfl
  held := rfl
  root _ := rfl

/-- A call that returns. -/
theorem KeyState.step {evs : List (KeyEvent C)} (K : KeyState root0 pk0 log o) (st : KeyStep o o' evs) :
    KeyState root0 pk0 (log ++ evs) o' := by
  refine ⟨K.inv.step st, ?_, ?_, ?_⟩
  · have ih := K.keys
    have inv := K.inv
    unfold keysHeld at ih ⊢
    rw [List.foldl_append, ← ih]
    cases st with
    | nothing h1 _ _ => rw [h1]; rfl
    | subframe m g hd d0 d1 l1 l2 hp hk' hm s1 s2 hp' hm' =>
      have hl2 : ∀ x : Option (PublicKey C) × Option (PublicKey C), l2.foldl keysAfter x = x := by
        generalize o'.data.data.key = kse at s2
        cases s2 <;> intro x <;> rfl
      rw [List.foldl_append, hl2, hp', ← hp]
      rw [← hp] at inv
      cases s1 with
      | nothing => rfl
      | kroot kr pkid pk key ps hid happ hkey hmk =>
        obtain ⟨_, w2, w3, w4, w5⟩ := PubkeyStore.makeCurrent_spec inv.pwf hmk
        obtain ⟨_, rfl⟩ := PubkeyStore.applicable_some happ
        have e := PubkeyStore.makeCurrent_exact happ hmk
        simp only [List.foldl_cons, List.foldl_nil, keysAfter]
        rcases OsnmaData.processNmaHeader_spec
          ({ d0 with pubkey := ps, key := d0.key.storeKroot key hd g } : OsnmaData C) hd pk.pkid w3 w5 with
          ⟨ha, _, e2, _⟩ | ⟨ha, _, e2, _⟩
        · rw [e2, if_pos ha]; rfl
        · rw [e2, if_neg ha]; exact e
      | pkr p root pk ps hroot hval hst => exact PubkeyStore.storeNew_exact (d := p.data) hst
      | alert p root hroot hval => rfl
  · have ih := K.held
    have inv := K.inv
    unfold teslaHeld at ih ⊢
    rw [List.foldl_append, ← ih]
    cases st with
    | nothing _ h2 _ => rw [h2]; rfl
    | subframe m g hd d0 d1 l1 l2 hp hk' hm s1 s2 hp' hm' =>
      rw [← hp, ← hk', ← hm] at inv
      rw [List.foldl_append, ← hk', ← dsmStep_tesla inv.pwf s1]
      exact teslaStep_tesla (inv.dsm s1).kdist s2
  · intro hna
    have inv := K.inv
    rw [← K.root (fun ⟨e, he, ha⟩ => hna ⟨e, List.mem_append_left _ he, ha⟩)]
    have hev : ∀ e ∈ evs, ¬ e.IsAlert := fun e he ha => hna ⟨e, List.mem_append_right _ he, ha⟩
    cases st with
    | nothing _ _ h3 => exact h3
    | subframe m g hd d0 d1 l1 l2 hp hk' hm s1 s2 hp' hm' =>
      rw [hm', ← hm]
      rw [← hp] at inv
      cases s1 with
      | nothing => rfl
      | kroot kr pkid pk key ps hid happ hkey hmk =>
        obtain ⟨_, w2, w3, w4, w5⟩ := PubkeyStore.makeCurrent_spec inv.pwf hmk
        rcases OsnmaData.processNmaHeader_spec
          ({ d0 with pubkey := ps, key := d0.key.storeKroot key hd g } : OsnmaData C) hd pkid w3 w5 with
          ⟨ha, _⟩ | ⟨_, e1, _⟩
        · exact absurd ha (hev _ (List.mem_append_left _ (List.mem_singleton.2 rfl)))
        · exact e1
      | pkr p root pk ps hroot hval hst => rfl
      | alert p root hroot hval =>
        exact absurd trivial (hev _ (List.mem_append_left _ (List.mem_singleton.2 rfl)))

/-- The messages of a DSM. -/
theorem KeyState.dsmEvents (K : KeyState root0 pk0 log o) {ms : MackStorage} {x : Dsm} {r : Received}
    {d' : OsnmaData C} (ht : x.dsmType = r.dsmCall.header.dsmType)
    (hp : ({ o.data.data with mack := ms } : OsnmaData C).processDsm x r.header r.gst = .ok d') :
    Exactly (DsmMessage root0 pk0 log r x.data) (({ o.data.data with mack := ms } : OsnmaData C).dsmEvents x r.header r.gst) := by
  have inv := K.inv
  have hkeys := K.keys
  have hty := DsmHeader.type_eq r.dsmCall.header
  unfold OsnmaData.processDsm at hp
  unfold OsnmaData.dsmEvents
  cases hx : x.dsmType with
  | Kroot =>
    rw [hx] at hp
    dsimp only at hp ⊢
    have hid : r.dsmCall.header.dsmId < 12 := by
      rw [hx, hty] at ht
      split at ht
      · cases ht
      · omega
    refine (krootEvents_exact (d := { o.data.data with mack := ms }) inv.pwf hp).congr ?_
    intro e
    constructor
    · rintro ⟨pk, key, k1, k2, k3, k4, k5, rfl⟩
      refine .kroot pk key hid ?_ k2 k3 k4 k5
      rw [← hkeys]
      exact k1
    · rintro (⟨pk, key, _, k1, k2, k3, k4, k5⟩ | ⟨_, _, h, _⟩ | ⟨_, _, h, _⟩)
      · rw [← hkeys] at k1
        exact ⟨pk, key, k1, k2, k3, k4, k5, rfl⟩
      · omega
      · omega
  | Pkr =>
    rw [hx] at hp
    dsimp only at hp ⊢
    have hid : 12 ≤ r.dsmCall.header.dsmId := by
      rw [hx, hty] at ht
      split at ht
      · assumption
      · cases ht
    have hroot : ∀ root, o.data.data.merkleTree = some root ↔ root0 = some root ∧ ¬ AlertIn log := by
      intro root
      constructor
      · intro hm
        have hna : ¬ AlertIn log := by
          intro ha
          rw [(inv.dead ha).1] at hm; cases hm
        rw [← K.root hna]
        exact ⟨hm, hna⟩
      · rintro ⟨hm, hna⟩
        rw [K.root hna]; exact hm
    refine (pkrEvents_exact (d := { o.data.data with mack := ms }) hp).congr ?_
    intro e
    constructor
    · rintro ⟨root, h1, ⟨pk, h2, rfl⟩ | ⟨leaf, h2, h3, h4, rfl⟩⟩
      · exact .pkr root pk hid ((hroot root).1 h1).1 ((hroot root).1 h1).2 h2
      · exact .alert root leaf hid ((hroot root).1 h1).1 ((hroot root).1 h1).2 h2 h3 h4
    · rintro (⟨_, _, h, _⟩ | ⟨root, pk, _, h1, h2, h3⟩ | ⟨root, leaf, _, h1, h2, h3, h4, h5⟩)
      · omega
      · exact ⟨root, (hroot root).2 ⟨h1, h2⟩, .inl ⟨pk, h3, rfl⟩⟩
      · exact ⟨root, (hroot root).2 ⟨h1, h2⟩, .inr ⟨leaf, h3, h4, h5, rfl⟩⟩

/-- What a completed subframe does, in terms of the machine. -/
theorem KeyState.subframeStep {d : OsnmaDataMessage} {s : Svn} {g : Gst} (K : KeyState root0 pk0 log o)
    (c : Osnma.Completes S o o' d s g) {rs : List Received} {outs : List SubframeOut} {douts : List (Option Dsm)}
    (h1 : feedPages .new (pagesOf hist) = .ok (o.subframe, outs))
    (h3 : feedBlocks .new (rs.map Received.dsmCall) = .ok (o.data.dsm, douts)) :
    ∃ l₁, o.events S (.osnma d s g) = l₁ ++ c.d1.teslaEvents c.msg c.g ∧
      SubframeStep root0 pk0 (pagesOf hist) rs log ⟨d, s, g⟩ ⟨s, c.hk, c.msg, c.g⟩ l₁ (c.d1.teslaEvents c.msg c.g) ∧
      (⟨s, c.hk, c.msg, c.g⟩ : Received).header = ⟨c.b0⟩ ∧
      feedPages .new (pagesOf hist ++ [⟨d, s, g⟩]) = .ok (o'.subframe, outs ++ [some (c.hk, c.msg, c.g)]) ∧
      feedBlocks .new ((rs ++ [(⟨s, c.hk, c.msg, c.g⟩ : Received)]).map Received.dsmCall) = .ok (o'.data.dsm, douts ++ [c.out]) ∧
      (c.d1.key.key0, c.d1.key.key1) = teslaHeld (log ++ l₁) ∧
      KeyInv root0 pk0 (log ++ l₁) c.d1.merkleTree c.d1.pubkey c.d1.key := by
  let r : Received := ⟨s, c.hk, c.msg, c.g⟩
  have hr : CompletesSubframe (pagesOf hist) ⟨d, s, g⟩ r := (feed_completes (p := ⟨d, s, g⟩) h1 c.hfeed r).2 ⟨rfl, rfl⟩
  have hhead : r.header = ⟨c.b0⟩ := by
    have := c.hb0
    show NmaHeader.mk (c.hk.val.headD 0) = _
    cases hv : c.hk.val with
    | nil => rw [hv] at this; cases this
    | cons a l => rw [hv] at this; cases this; rfl
  have hcall : r.dsmCall = ⟨⟨c.b1⟩, c.block⟩ := by
    have h1 := c.hb1
    have h2 := c.hblock
    unfold Received.dsmCall
    have e2 : (⟨r.hkroot.val.drop 2, by rw [List.length_drop, r.hkroot.property]⟩ : DsmBlock) = c.block := Subtype.ext h2.symm
    rw [e2]
    have e1 : (r.hkroot.val.drop 1).headD 0 = c.b1 := by
      show (c.hk.val.drop 1).headD 0 = c.b1
      cases hv : c.hk.val with
      | nil => rw [hv] at h1; cases h1
      | cons a l =>
        rw [hv] at h1
        cases l with
        | nil => cases h1
        | cons b l => cases h1; rfl
    rw [e1]
  have hdsm : o.data.dsm.feed r.dsmCall.header r.dsmCall.block = .ok (c.dsm, c.out) := by rw [hcall]; exact c.hdsm
  have hdone := feed_dsm h3 hdsm
  have hal : r.gst.Aligned := by
    have : r.gst = (⟨d, s, g⟩ : Page).sub := hr.gst
    rw [this]; exact Gst.subframe_aligned g
  have e1 : o'.subframe = c.sf := congrArg (fun x => x.subframe) c.ho
  have e2 : o'.data.dsm = c.dsm := congrArg (fun x => x.data.dsm) c.ho
  have inv := K.inv
  have hheld := K.held
  have hd1 := c.hd1
  have st : OsnmaData.DsmStep ({ o.data.data with mack := c.ms } : OsnmaData C) c.g ⟨c.b0⟩
      (match c.out with
        | some x => ({ o.data.data with mack := c.ms } : OsnmaData C).dsmEvents x ⟨c.b0⟩ c.g
        | none => []) c.d1 := by
    cases hout : c.out with
    | none =>
      rw [hout] at hd1
      simp only [Res.ok.injEq] at hd1
      rw [← hd1]; exact .nothing
    | some x =>
      rw [hout] at hd1
      exact OsnmaData.processDsm_step hd1
  have inv' := KeyInv.dsm (d := { o.data.data with mack := c.ms }) inv st
  have hh := dsmStep_tesla (d := { o.data.data with mack := c.ms }) inv.pwf st
  have hh' : (c.d1.key.key0, c.d1.key.key1) = teslaHeld (log ++ (match c.out with
        | some x => ({ o.data.data with mack := c.ms } : OsnmaData C).dsmEvents x ⟨c.b0⟩ c.g
        | none => [])) := by
    rw [hh]
    unfold teslaHeld at hheld ⊢
    rw [List.foldl_append, ← hheld]
  rw [e1, e2]
  refine ⟨_, c.events c.hz, ⟨hr, ?_, teslaEvents_exact (r := r) inv' hh' hal c.hd2⟩, hhead, feedPages_snoc (p := ⟨d, s, g⟩) h1 c.hfeed, ?_, hh', inv'⟩
  · cases hout : c.out with
    | none =>
      refine .inr ⟨rfl, ?_⟩
      rintro e ⟨data, h, _⟩
      exact hdone.2 hout data h
    | some x =>
      rw [hout] at hd1
      dsimp only at hd1 ⊢
      obtain ⟨ht, hcomp⟩ := hdone.1 x hout
      rw [← hhead] at hd1 ⊢
      refine (K.dsmEvents (r := r) ht hd1).congr ?_
      intro e
      constructor
      · intro h; exact ⟨_, hcomp, h⟩
      · rintro ⟨data, h5, h6⟩
        rw [hcomp.unique h5]; exact h6
  · rw [List.map_append]; exact feedBlocks_snoc h3 hdsm

/-! ## Panics -/

theorem CompletesDsmWith.kroot_length {ds : List DsmCall} {p : DsmCall} {data : List Byte} (h : CompletesDsmWith ds p data) :
    13 ≤ data.length := by
  obtain ⟨n, ⟨_, _, hn, _⟩, hl, _⟩ := h.now
  unfold announcedBlocks at hn
  rw [hl]
  dsimp only at hn
  split at hn <;> split at hn <;> cases hn <;> omega

theorem CompletesDsmWith.pkr_length {ds : List DsmCall} {p : DsmCall} {data : List Byte} (h : CompletesDsmWith ds p data)
    (hid : 12 ≤ p.header.dsmId) : 169 ≤ data.length ∧ data.length = 13 * (bitField data 0 4 + 6) := by
  obtain ⟨n, ⟨fb, hfb, hn, hall⟩, hl, hb⟩ := h.now
  unfold announcedBlocks at hn
  dsimp only at hn
  rw [if_pos hid] at hn
  split at hn
  · rename_i hnb
    cases hn
    have hne : data ≠ [] := by
      intro hnil
      rw [hnil] at hl
      simp at hl
    obtain ⟨b, hb1, hb2⟩ := hb 0 (by omega)
    rw [hfb] at hb1
    cases hb1
    rw [Nat.mul_zero] at hb2
    have hhead : data.headD 0 = fb.val.headD 0 := by
      rw [← hb2]
      cases hx' : data with
      | nil => exact absurd hx' hne
      | cons a t => rfl
    rw [bitField_head hne, hhead]
    omega
  · cases hn

/-- Processing a completed DSM returns exactly if the DSM is harmless. -/
theorem KeyState.returns_iff (K : KeyState root0 pk0 log o) {ds : List DsmCall} {r : Received} {x : Dsm} {ms : MackStorage}
    (ht : x.dsmType = r.dsmCall.header.dsmType) (hc : CompletesDsmWith ds r.dsmCall x.data) :
    (∃ d', ({ o.data.data with mack := ms } : OsnmaData C).processDsm x r.header r.gst = .ok d') ↔ Harmless root0 pk0 log r x.data := by
  have hty := DsmHeader.type_eq r.dsmCall.header
  have hidP : x.dsmType = .Pkr → 12 ≤ r.dsmCall.header.dsmId := by
    intro hx
    rw [hx, hty] at ht
    split at ht
    · assumption
    · cases ht
  have hidK : x.dsmType = .Kroot → r.dsmCall.header.dsmId < 12 := by
    intro hx
    rw [hx, hty] at ht
    split at ht
    · cases ht
    · omega
  rw [OsnmaData.processDsm_returns_iff (d := { o.data.data with mack := ms }) K.inv.pwf (fun _ => hc.kroot_length)
    (fun hx => hc.pkr_length (hidP hx))]
  unfold HarmlessDsm
  cases hx : x.dsmType with
  | Kroot =>
    have hid := hidK hx
    dsimp only
    constructor
    · intro h
      refine ⟨fun _ pk hpk hname => h pk ?_ hname, fun h12 => by omega⟩
      rw [← K.keys] at hpk; exact hpk
    · intro h pk hpk hname
      refine h.kroot hid pk ?_ hname
      rw [← K.keys]; exact hpk
  | Pkr =>
    have hid := hidP hx
    dsimp only
    constructor
    · intro h
      refine ⟨fun h12 => by omega, fun _ hna root hr => h root ?_⟩
      rw [K.root hna]; exact hr
    · intro h root hr
      have hna : ¬ AlertIn log := by
        intro ha
        rw [(K.inv.dead ha).1] at hr; cases hr
      refine h.pkr hid hna root ?_
      rw [← K.root hna]; exact hr

theorem header_of {hk : HkrootMessage} {msg : MackMessage} {s : Svn} {g : Gst} {b0 : Byte} (h : hk.val[0]? = some b0) :
    (⟨s, hk, msg, g⟩ : Received).header = ⟨b0⟩ := by
  show NmaHeader.mk (hk.val.headD 0) = _
  cases hv : hk.val with
  | nil => rw [hv] at h; cases h
  | cons a l => rw [hv] at h; cases h; rfl

theorem dsmCall_of {hk : HkrootMessage} {msg : MackMessage} {s : Svn} {g : Gst} {b1 : Byte} {block : DsmBlock}
    (h1 : hk.val[1]? = some b1) (h2 : block.val = hk.val.drop 2) : (⟨s, hk, msg, g⟩ : Received).dsmCall = ⟨⟨b1⟩, block⟩ := by
  unfold Received.dsmCall
  dsimp only
  have e2 : (⟨hk.val.drop 2, by rw [List.length_drop, hk.property]⟩ : DsmBlock) = block := Subtype.ext h2.symm
  rw [e2]
  have e1 : (hk.val.drop 1).headD 0 = b1 := by
    cases hv : hk.val with
    | nil => rw [hv] at h1; cases h1
    | cons a l =>
      rw [hv] at h1
      cases l with
      | nil => cases h1
      | cons b l => cases h1; rfl
  rw [e1]

/-- What the state has to do with the machine. -/
structure MachineState (root0 : Option MerkleTreeNode) (pk0 : Option (PublicKey C)) (hist : List Call) (log : List (KeyEvent C))
    (o : Osnma C) (rs : List Received) : Prop where
  state : KeyState root0 pk0 log o
  pages : ∃ outs, feedPages .new (pagesOf hist) = .ok (o.subframe, outs)
  received : ReceivedIn (pagesOf hist) rs
  blocks : ∃ douts, feedBlocks .new (rs.map Received.dsmCall) = .ok (o.data.dsm, douts)
  machine : CaughtMachine root0 pk0 rs log

/-- A history in which panics are caught keeps pace with the machine. -/
theorem caughtMachine_run (h : Caught S (Osnma.new S root0 pk0 slow) hist log o) : ∃ rs, MachineState root0 pk0 hist log o rs := by
  generalize ho : (Osnma.new S root0 pk0 slow : Osnma C) = o0 at h
  induction h with
  | nil => subst ho; exact ⟨[], .fresh, ⟨[], rfl⟩, .nil, ⟨[], rfl⟩, .nil⟩
  | @returns hi lo oa ob c hl hc ih =>
    obtain ⟨rs, K, ⟨outs, h1⟩, h2, ⟨douts, h3⟩, h4⟩ := ih
    have K' := K.step (Call.keyStep hc)
    cases c with
    | inav w s g b =>
      obtain ⟨n, _, he⟩ := feedInav_of_ok (c := ⟨w, s, g, b⟩) hc
      subst he
      have he : oa.events S (Call.inav w s g b) = [] := rfl
      rw [he, List.append_nil] at K' ⊢
      have hp : pagesOf (hi ++ [Call.inav w s g b]) = pagesOf hi := by rw [pagesOf_snoc]; simp [pagesOf]
      exact ⟨rs, K', by rw [hp]; exact ⟨outs, h1⟩, by rw [hp]; exact h2, ⟨douts, h3⟩, h4⟩
    | osnma d s g =>
      rcases Osnma.feedOsnma_of_ok hc with ⟨hz, rfl⟩ | ⟨hz, hrest⟩
      · have hp := pagesOf_zero hi s g hz
        have he : ob.events S (.osnma d s g) = [] := by
          unfold Osnma.events; simp only [hz, if_true]
        rw [he, List.append_nil]
        exact ⟨rs, K, by rw [hp]; exact ⟨outs, h1⟩, by rw [hp]; exact h2, ⟨douts, h3⟩, h4⟩
      · have hp := pagesOf_page hi s g hz
        rcases hrest with ⟨sf, hf, rfl⟩ | ⟨⟨c⟩⟩
        · have he : oa.events S (.osnma d s g) = [] := by
            unfold Osnma.events; simp only [hz, Bool.false_eq_true, if_false]; rw [hf]
          rw [he, List.append_nil] at K' ⊢
          refine ⟨rs, K', by rw [hp]; exact ⟨_, feedPages_snoc (p := ⟨d, s, g⟩) h1 hf⟩, ?_, ⟨douts, h3⟩, h4⟩
          rw [hp]
          refine .skip _ h2 ?_
          intro r hr
          have := ((feed_completes (p := ⟨d, s, g⟩) h1 hf r).1 hr).1
          cases this
        · obtain ⟨l₁, he, st, hhead, f1, f2, _, _⟩ := K.subframeStep c h1 h3
          refine ⟨_, K', by rw [hp]; exact ⟨_, f1⟩, by rw [hp]; exact .got _ _ h2 st.hr, ⟨_, f2⟩, ?_⟩
          rw [he, ← List.append_assoc]
          refine .step _ h4 ?_ st.h₁ st.h₂
          intro data hdata
          have hdsm : oa.data.dsm.feed (⟨s, c.hk, c.msg, c.g⟩ : Received).dsmCall.header (⟨s, c.hk, c.msg, c.g⟩ : Received).dsmCall.block = .ok (c.dsm, c.out) := by
            rw [dsmCall_of c.hb1 c.hblock]; exact c.hdsm
          have hdone := feed_dsm h3 hdsm
          have hd1 := c.hd1
          cases hout : c.out with
          | none => exact absurd hdata (hdone.2 hout data)
          | some x =>
            rw [hout] at hd1
            dsimp only at hd1
            obtain ⟨ht, hcomp⟩ := hdone.1 x hout
            rw [← hhead] at hd1
            rw [hdata.unique hcomp]
            exact (K.returns_iff (ms := c.ms) ht hcomp).1 ⟨_, hd1⟩
  | @panics hi lo oa ob c hl hpan hleft ih =>
    obtain ⟨rs, K, ⟨outs, h1⟩, h2, ⟨douts, h3⟩, h4⟩ := ih
    obtain ⟨d, s, g, rfl, ⟨k⟩⟩ := left_some hleft
    have e : ob.data.data = { oa.data.data with mack := k.ms } := congrArg (fun x => x.data.data) k.ho
    have es : ob.subframe = k.sf := congrArg (fun x => x.subframe) k.ho
    have ed : ob.data.dsm = k.dsm := congrArg (fun x => x.data.dsm) k.ho
    have hp := pagesOf_page hi s g k.hz
    let r : Received := ⟨s, k.hk, k.msg, k.g⟩
    have hdsm : oa.data.dsm.feed r.dsmCall.header r.dsmCall.block = .ok (k.dsm, some k.x) := by
      rw [dsmCall_of k.hb1 k.hblock]; exact k.hdsm
    obtain ⟨ht, hcomp⟩ := (feed_dsm h3 hdsm).1 k.x rfl
    have hr : CompletesSubframe (pagesOf hi) ⟨d, s, g⟩ r := (feed_completes (p := ⟨d, s, g⟩) h1 k.hfeed r).2 ⟨rfl, rfl⟩
    refine ⟨rs ++ [r], ⟨?_, ?_, ?_, ?_⟩, ?_, ?_, ?_, ?_⟩
    · rw [e]; exact K.inv
    · rw [e]; exact K.keys
    · rw [e]; exact K.held
    · rw [e]; exact K.root
    · rw [hp, es]; exact ⟨_, feedPages_snoc (p := ⟨d, s, g⟩) h1 k.hfeed⟩
    · rw [hp]; exact .got _ _ h2 hr
    · rw [List.map_append, ed]; exact ⟨_, feedBlocks_snoc h3 hdsm⟩
    · refine .pass r k.x.data h4 hcomp ?_
      intro hh
      obtain ⟨d', hd'⟩ := (K.returns_iff (ms := k.ms) ht hcomp).2 hh
      have := k.hpanic
      rw [← header_of (msg := k.msg) (s := s) (g := k.g) k.hb0] at this
      obtain ⟨w, hw⟩ := this
      rw [hw] at hd'
      cases hd'

end Verif
