import Verif.Lemmas.Switch
import Verif.Props.Panics
import Verif.Props.Complete

/-! # C76: joining a genuine broadcast

A receiver in any state that can be reached, then hears a genuine broadcast (`Spec/Broadcast.lean`): the first DSM-KROOT after a DSM-PKR, a
change of the TESLA chain or of the public key, or the next DSM-KROOT of the same chain.  Cases: `Props/SwitchExample.lean`. -/

namespace Verif
open CollectSubframe CollectDsm

variable {S : Storage} {C : Crypto} {b : Broadcast C} {root0 : Option MerkleTreeNode} {pk0 : Option (PublicKey C)} {slow : Bool}
  {hist before after : List Call} {log₁ log : List (KeyEvent C)} {o₁ o : Osnma C}

/-! ## What the calls complete -/

/-- A KROOT is reported only when a DSM is completed. -/
theorem kroot_event {S : Storage} {o : Osnma C} {d : OsnmaDataMessage} {s : Svn} {g g' : Gst} {h : NmaHeader} {data : List Byte} {pk : PublicKey C}
    {key : Key} (he : KeyEvent.kroot h data pk key g' ∈ o.events S (.osnma d s g)) :
    ∃ x, CompletesDsm o d s g h x ∧ x.data = data ∧ AnnouncedKey data key ∧ x.dsmType = .Kroot := by
  have hno : ∀ (dd : OsnmaData C) (m : MackMessage) (g : Gst), KeyEvent.kroot h data pk key g' ∉ dd.teslaEvents m g := by
    intro dd m g hm
    unfold OsnmaData.teslaEvents at hm
    repeat' split at hm
    all_goals simp at hm
  unfold Osnma.events at he
  dsimp only at he
  split at he
  · cases he
  rename_i hz
  split at he
  · rename_i sf hk m g1 hfeed
    unfold OsnmaDsm.events at he
    split at he
    · cases he
    · exact absurd he (hno _ _ _)
    · rename_i b0 ms x hres
      obtain ⟨b0', e0, hres⟩ := Res.bind_eq_ok.1 hres
      obtain ⟨ms', e1, hres⟩ := Res.bind_eq_ok.1 hres
      obtain ⟨b1, e2, hres⟩ := Res.bind_eq_ok.1 hres
      obtain ⟨block, e3, hres⟩ := Res.bind_eq_ok.1 hres
      obtain ⟨⟨c, out⟩, e4, hres⟩ := Res.bind_eq_ok.1 hres
      simp only [Res.pure_eq, Res.ok.injEq, Prod.mk.injEq] at hres
      obtain ⟨rfl, rfl, rfl⟩ := hres
      dsimp only at he
      rw [List.mem_append] at he
      have he' : KeyEvent.kroot h data pk key g' ∈ ({ o.data.data with mack := ms' } : OsnmaData C).dsmEvents x ⟨b0'⟩ g1 := by
        rcases he with he | he
        · exact he
        · split at he
          · exact absurd he (hno _ _ _)
          · cases he
      have hval : hk.val = b0' :: b1 :: block.val := by
        rw [CollectSubframe.toBytes_eq_ok] at e3
        rw [← e3]
        have hl := hk.2
        revert e0 e2 hl
        generalize hk.val = l
        intro e0 e2 hl
        match l with
        | a :: c :: l => cases e0; cases e2; rfl
      unfold OsnmaData.dsmEvents at he'
      split at he'
      · rename_i hty
        unfold OsnmaData.krootEvents at he'
        split at he'
        · cases he'
        · split at he'
          · split at he'
            · rename_i key' h' hkr
              rw [List.mem_singleton] at he'
              injection he' with i1 i2 i3 i4 i5
              subst i1 i2 i4
              obtain ⟨rfl, _, _, hann, _⟩ := Key.fromDsmKroot_eq_ok.1 hkr
              refine ⟨x, ⟨?_, sf, hk, m, g1, b1, block, c, hfeed, hval, e4⟩, rfl, hann, hty⟩
              apply Classical.byContradiction
              intro hc
              apply hz
              rw [List.all_eq_true]
              intro y hy
              by_cases hb0 : y = 0#8
              · simp [hb0]
              · exact absurd ⟨y, hy, hb0⟩ hc
            · cases he'
          · cases he'
      · unfold OsnmaData.pkrEvents at he'
        repeat' split at he'
        all_goals simp at he'
  · cases he

theorem pagesOf_append (a c : List Call) : pagesOf (a ++ c) = pagesOf a ++ pagesOf c := by unfold pagesOf; exact List.filterMap_append

theorem received_sub {ps : List Page} {rs : List Received} (h : ReceivedIn ps rs) {r : Received} (hr : r ∈ rs) : ∃ p ∈ ps, p.sub = r.gst := by
  have := (received_sublist h).subset (List.mem_map_of_mem hr)
  obtain ⟨p, hp, he⟩ := List.mem_map.1 this
  exact ⟨p, hp, he⟩

theorem Follows.joins (hf : Follows b pk0 before log₁ after) (hb : b.Sound) (h₁ : Logs S (Osnma.new S root0 pk0 slow) before log₁ o₁) :
    ∃ rs₁, ReceivedIn (pagesOf before) rs₁ ∧ Joins b root0 pk0 rs₁ log₁ := by
  obtain ⟨rs₁, h1, h2⟩ := C62_reference_machine h₁
  exact ⟨rs₁, h1, hb, h2, hf.held, fun r hr => hf.newId rs₁ r h1 hr⟩

/-- What was received in `before` and in `after`. -/
structure Received2 (b : Broadcast C) (root0 : Option MerkleTreeNode) (pk0 : Option (PublicKey C)) (before after : List Call)
    (log₁ log : List (KeyEvent C)) (rs₁ rs₂ : List Received) : Prop where
  joins : Joins b root0 pk0 rs₁ log₁
  first : ReceivedIn (pagesOf before) rs₁
  all : ReceivedIn (pagesOf before ++ pagesOf after) (rs₁ ++ rs₂)
  sent : ∀ r ∈ rs₂, b.Sent r
  order : (rs₂.map Received.gst).Sublist ((pagesOf after).map Page.sub)
  machine : KeyMachine root0 pk0 (rs₁ ++ rs₂) log

theorem Follows.received (hf : Follows b pk0 before log₁ after) (hb : b.Sound) (h₁ : Logs S (Osnma.new S root0 pk0 slow) before log₁ o₁)
    (h : Logs S (Osnma.new S root0 pk0 slow) (before ++ after) log o) : ∃ rs₁ rs₂, Received2 b root0 pk0 before after log₁ log rs₁ rs₂ := by
  obtain ⟨rs₁, h1, hj⟩ := hf.joins hb h₁
  obtain ⟨rs, h2, hm⟩ := C62_reference_machine h
  rw [pagesOf_append] at h2
  obtain ⟨rs₂, rfl, h3, h4⟩ := received_sent_later h1 h2 hf.later hf.heard
  exact ⟨rs₁, rs₂, hj, h1, h2, h3, h4, hm⟩

theorem Received2.sub {rs₁ rs₂ : List Received} (hr : Received2 b root0 pk0 before after log₁ log rs₁ rs₂) {r : Received} (h : r ∈ rs₂) :
    ∃ p ∈ pagesOf after, p.sub = r.gst := by
  obtain ⟨p, hp, he⟩ := List.mem_map.1 (hr.order.subset (List.mem_map_of_mem h))
  exact ⟨p, hp, he⟩

theorem Received2.leads {rs₁ rs₂ : List Received} (hr : Received2 b root0 pk0 before after log₁ log rs₁ rs₂)
    (hf : Follows b pk0 before log₁ after) : ∀ r ∈ rs₂, Leads b log₁ r.gst := by
  intro r h k hk hid
  obtain ⟨p, hp, he⟩ := hr.sub h
  rw [← he]
  exact hf.leads p hp k hk hid

theorem Received2.sorted {rs₁ rs₂ : List Received} (hr : Received2 b root0 pk0 before after log₁ log rs₁ rs₂)
    (hord : (pagesOf after).Pairwise (fun p q => p.sub.abs ≤ q.sub.abs)) : rs₂.Pairwise (fun p q => p.gst.abs ≤ q.gst.abs) := by
  have := (List.pairwise_map.2 hord : ((pagesOf after).map Page.sub).Pairwise (fun p q => p.abs ≤ q.abs)).sublist hr.order
  rwa [List.pairwise_map] at this

/-- A satellite heard during a whole subframe of `after`. -/
theorem Received2.whole {rs₁ rs₂ : List Received} (hr : Received2 b root0 pk0 before after log₁ log rs₁ rs₂)
    (hf : Follows b pk0 before log₁ after) (hord : (pagesOf after).Pairwise (fun p q => p.sub.abs ≤ q.sub.abs)) {v : Svn} {g : Gst}
    (hw : HeardWhole after v g) : ∃ r ∈ rs₂, r.svn = v ∧ r.gst = g := by
  obtain ⟨r, h1, h2, h3⟩ := heardWhole_received hr.all hf.later hord hw
  rcases List.mem_append.1 h1 with h | h
  · exfalso
    obtain ⟨p, hp, he⟩ := received_sub hr.first h
    obtain ⟨q, hq, hg, _⟩ := heardWhole_mem hw
    have := hf.later p hp q hq
    rw [he, h3, hg] at this
    omega
  · exact ⟨r, h, h2, h3⟩

/-- What is completed by the next call. -/
theorem completesDsm_sent (h₁ : Logs S (Osnma.new S root0 pk0 slow) before log₁ o₁)
    (hl : Logs S (Osnma.new S root0 pk0 slow) (before ++ after) log o) (hb : b.Sound)
    {d : OsnmaDataMessage} {s : Svn} {g : Gst} (hf : Follows b pk0 before log₁ (after ++ [.osnma d s g])) {h : NmaHeader} {x : Dsm}
    (hc : CompletesDsm o d s g h x) :
    h = b.header ∧ x.data = b.kroot ∧ x.dsmType = .Kroot ∧ ∃ ks : List Key, log = log₁ ++ ks.map .tesla := by
  obtain ⟨⟨y, hy, hy0⟩, sf, hk, m, g1, b1, block, c, hfeed, hval, hdsm⟩ := hc
  have hnz : ¬ d.val.all (fun x => x == 0#8) = true := by
    intro hall
    rw [List.all_eq_true] at hall
    exact hy0 (by simpa using hall y hy)
  have hp1 : pagesOf [Call.osnma d s g] = [⟨d, s, g⟩] := by
    simp only [pagesOf, List.filterMap_cons, hnz, if_false, List.filterMap_nil, Bool.false_eq_true]
  have hp : pagesOf (after ++ [Call.osnma d s g]) = pagesOf after ++ [⟨d, s, g⟩] := by rw [pagesOf_append, hp1]
  obtain ⟨rs₁, hr1, hj⟩ := hf.joins hb h₁
  have hfull := hf.heard
  have hlater := hf.later
  unfold Heard at hfull
  rw [hp] at hfull hlater
  obtain ⟨rs, outs, douts, h1, h2, h3, hm⟩ := keyMachine_run hl
  rw [pagesOf_append] at h1 h2
  obtain ⟨rs₂, rfl, hs, hsub⟩ := received_sent_later hr1 h2 (fun p hp q hq => hlater p hp q (by simp [hq])) (fun q hq => hfull q (by simp [hq]))
  have hr : CompletesSubframe (pagesOf before ++ pagesOf after) ⟨d, s, g⟩ ⟨s, hk, m, g1⟩ :=
    (feed_completes (p := ⟨d, s, g⟩) h1 hfeed _).2 ⟨rfl, rfl⟩
  have hsent : b.Sent ⟨s, hk, m, g1⟩ := completes_sent_later hr (by
    intro q hq he
    have := hlater q hq ⟨d, s, g⟩ (by simp)
    rw [he] at this; omega) (fun q hq _ => hfull q hq)
  have hcall : (⟨s, hk, m, g1⟩ : Received).dsmCall = ⟨⟨b1⟩, block⟩ := by
    unfold Received.dsmCall
    have e2 : (⟨hk.val.drop 2, by rw [List.length_drop, hk.property]⟩ : DsmBlock) = block := Subtype.ext (by dsimp only; rw [hval]; rfl)
    show (⟨⟨(hk.val.drop 1).headD 0⟩, _⟩ : DsmCall) = _
    rw [e2, hval]; rfl
  have hdsm' : o.data.dsm.feed (⟨s, hk, m, g1⟩ : Received).dsmCall.header (⟨s, hk, m, g1⟩ : Received).dsmCall.block = .ok (c, some x) := by
    rw [hcall]; exact hdsm
  obtain ⟨ht, hcw⟩ := (feed_dsm h3 hdsm').1 x rfl
  have hall : ∀ r ∈ rs₂ ++ [(⟨s, hk, m, g1⟩ : Received)], b.Sent r := by
    intro r hr
    rw [List.mem_append, List.mem_singleton] at hr
    rcases hr with hr | rfl
    · exact hs r hr
    · exact hsent
  have hbl := blocksOf_sent hb hall
  have hid := (hbl _ (List.mem_map_of_mem (List.mem_append_right rs₂ (List.mem_singleton_self _)))).1
  have hsz := hb.sizes
  have hsame := hj.since hs
  have hcc := (completes_of hb.id hb.size hsz.1 hsz.2 hid (by rw [hsame]; simpa using hbl) _).1 hcw
  refine ⟨?_, hcc.1, ?_, ?_⟩
  · rw [← hsent.header hb]
    show h = NmaHeader.mk (hk.val.headD 0)
    rw [hval]; rfl
  · rw [ht, DsmHeader.type_eq, hid, if_neg (by have := hb.id; omega)]
  · refine (hj.messages hs hm).1 ?_
    rw [← hsame]; exact hcc.2.1

theorem Broadcast.Sound.time (hb : b.Sound) : Key.KrootTimeOk b.kroot ∧ 3570 ≤ b.root.gst.abs := by
  have h1 := hb.announced.time
  have h2 := b.root.gst.abs_representable
  unfold Representable at h2
  refine ⟨⟨hb.hour, ?_⟩, ?_⟩
  · rintro ⟨e1, e2⟩
    rw [e1, e2] at h1
    omega
  · omega

theorem Broadcast.Sound.harmless (hb : b.Sound) : HarmlessKroot C b.pk.key b.header b.kroot := by
  obtain ⟨f, n, hs⟩ := hb.signed
  intro _ _ _ n' hn'
  rw [hs.ks] at hn'
  cases hn'
  refine ⟨f, hs.fits, hs.minimal, hs.blocks, fun _ => ⟨?_, fun _ => hb.time.1⟩⟩
  have := hs.sig
  revert this
  generalize b.pk.key = k
  generalize byteField b.kroot (13 + n) (icdSigBytes f) = sig
  cases k <;> cases f <;> simp [SignatureVerifies, SignatureDecodes] <;> grind

/-- The messages reported during the broadcast. -/
theorem Received2.events {rs₁ rs₂ : List Received} (hr : Received2 b root0 pk0 before after log₁ log rs₁ rs₂) :
    ∀ e ∈ log, e ∈ log₁ ∨ (∃ k, e = .tesla k) ∨ ∃ r ∈ rs₂, e = .kroot b.header b.kroot b.pk b.root r.gst := by
  obtain ⟨h1, h2⟩ := hr.joins.messages hr.sent hr.machine
  intro e he
  by_cases hc : Complete b.dsmId (rs₂.map Received.dsmCall)
  · obtain ⟨r, hr', ks, ks', rfl⟩ := h2 hc
    simp only [List.mem_append, List.mem_map, List.mem_singleton] at he
    rcases he with ((he | ⟨k, _, rfl⟩) | rfl) | ⟨k, _, rfl⟩
    · exact .inl he
    · exact .inr (.inl ⟨k, rfl⟩)
    · exact .inr (.inr ⟨r, hr', rfl⟩)
    · exact .inr (.inl ⟨k, rfl⟩)
  · obtain ⟨ks, rfl⟩ := h1 hc
    rcases List.mem_append.1 he with he | he
    · exact .inl he
    · obtain ⟨k, _, rfl⟩ := List.mem_map.1 he
      exact .inr (.inl ⟨k, rfl⟩)

theorem Follows.sub (hf : Follows b pk0 before log₁ after) {after' : List Call} (h : ∀ p ∈ pagesOf after', p ∈ pagesOf after) :
    Follows b pk0 before log₁ after' :=
  ⟨fun p hp => hf.heard p (h p hp), fun p hp q hq => hf.later p hp q (h q hq), hf.held, hf.newId, fun q hq => hf.leads q (h q hq)⟩

/-- **C76.**  A receiver that then hears a genuine broadcast, of which anything may be missing, in any order, and any words, does not
panic, if the parameters of its chain are sensible also together with those of the chains of the DSM-KROOTs verified before. -/
theorem C76_never_panics (hS : S.Consistent) (h0 : (Osnma.new S root0 pk0 slow : Osnma C).Fresh S) (hb : b.Sound)
    (h₁ : Logs S (Osnma.new S root0 pk0 slow) before log₁ o₁) (hf : Follows b pk0 before log₁ after) (hsense : SensibleLog log₁)
    (hpairs : ∀ h data pk k g, KeyEvent.kroot h data pk k g ∈ log₁ → SensibleChains k.chain b.root.chain ∧ SensibleChains b.root.chain k.chain) :
    ∃ log o, Logs S (Osnma.new S root0 pk0 slow) (before ++ after) log o := by
  induction after using snoc_induction with
  | h0 => exact ⟨_, _, by rw [List.append_nil]; exact h₁⟩
  | h1 l c ih =>
    have hf' : Follows b pk0 before log₁ l := hf.sub (fun p hp => by rw [pagesOf_append]; exact List.mem_append_left _ hp)
    obtain ⟨log, o, hl⟩ := ih hf'
    suffices ∃ o', c.run S o = .ok o' by
      obtain ⟨o', ho'⟩ := this
      refine ⟨log ++ o.events S c, o', ?_⟩
      rw [← List.append_assoc]
      exact .snoc c hl ho'
    cases c with
    | inav w s g bd => exact C38_feed_inav_returns hS h0 hl.run w s g bd
    | osnma d s g =>
      by_cases hz : d.val.all (fun x => x == 0#8) = true
      · exact ⟨o, by show o.feedOsnma S d s g = _; unfold Osnma.feedOsnma; rw [if_pos hz]; rfl⟩
      · have hon : b.On g.subframe := by
          have : (⟨d, s, g⟩ : Page) ∈ pagesOf (l ++ [.osnma d s g]) := by
            rw [pagesOf_append]
            apply List.mem_append_right
            simp only [pagesOf, List.filterMap_cons, hz, if_false, List.filterMap_nil, Bool.false_eq_true, List.mem_singleton]
          exact (hf.heard _ this).1
        have htime := hb.time
        obtain ⟨rs₁, rs₂, hr⟩ := hf'.received hb h₁ hl
        have hch : ∀ h data pk k g', KeyEvent.kroot h data pk k g' ∈ log ++ o.events S (.osnma d s g) →
            KeyEvent.kroot h data pk k g' ∈ log₁ ∨ k.chain = b.root.chain := by
          intro h data pk k g' he
          rw [List.mem_append] at he
          rcases he with he | he
          · rcases hr.events _ he with h | ⟨k, h⟩ | ⟨r, _, h⟩
            · exact .inl h
            · cases h
            · cases h; exact .inr rfl
          · obtain ⟨x, hx, rfl, hann, _⟩ := kroot_event he
            obtain ⟨_, e2, _⟩ := completesDsm_sent h₁ hl hb hf hx
            rw [e2] at hann
            exact .inr (hann.unique hb.announced (fun _ _ _ _ => rfl) rfl).2.1
        refine (feedOsnma_returns_iff hS h0 hl d s g (by have := hon.2.1; omega) ?_).2 ?_
        · intro h data pk k g' h' data' pk' k' g'' he he'
          rcases hch _ _ _ _ _ he with e1 | e1 <;> rcases hch _ _ _ _ _ he' with e2 | e2
          · exact hsense _ _ _ _ _ _ _ _ _ _ e1 e2
          · rw [e2]; exact (hpairs _ _ _ _ _ e1).1
          · rw [e1]; exact (hpairs _ _ _ _ _ e2).2
          · rw [e1, e2]; exact hb.sensible
        · intro h x hx
          obtain ⟨rfl, e2, e3, ks, rfl⟩ := completesDsm_sent h₁ hl hb hf hx
          unfold HarmlessDsm
          rw [e3]
          dsimp only
          intro pk hpk hname
          rw [e2] at hname ⊢
          have hkeys := C29_keys_exact hl
          rw [keysHeld_teslas] at hkeys
          have h1 : o.data.data.pubkey.current = (keysHeld pk0 log₁).1 := congrArg Prod.fst hkeys
          have h2 : o.data.data.pubkey.next = (keysHeld pk0 log₁).2 := congrArg Prod.snd hkeys
          rw [h1, h2] at hpk
          rw [keysHeld_unique hpk hf.held (by rw [hname, hb.named])]
          exact hb.harmless

/-! ## Keys -/

/-- The subframes received until `til` hold the whole DSM-KROOT. -/
theorem kroot_complete {rs₁ rs₂ : List Received} (hr : Received2 b root0 pk0 before after log₁ log rs₁ rs₂)
    (hf : Follows b pk0 before log₁ after) (hord : (pagesOf after).Pairwise (fun p q => p.sub.abs ≤ q.sub.abs)) {til : Gst}
    (hk : KrootHeard b after til) {rs' : List Received} (hsub : ∀ r ∈ rs', r ∈ rs₂) (hall : ∀ r ∈ rs₂, r.gst.abs ≤ til.abs → r ∈ rs') :
    Complete b.dsmId (rs'.map Received.dsmCall) := by
  rw [hr.joins.complete_iff (fun r h => hr.sent r (hsub r h))]
  intro i hi
  obtain ⟨v, g, h1, h2, h3⟩ := hk i hi
  obtain ⟨r, e1, rfl, rfl⟩ := hr.whole hf hord h2
  exact ⟨r.dsmCall, List.mem_map_of_mem (hall r e1 h1), ((hr.sent r e1).block hr.joins.sound hi h3).2.1⟩

theorem split_at (g : Gst) {rs : List Received} (hro : rs.Pairwise (fun p q => p.gst.abs ≤ q.gst.abs)) :
    ∃ x y, rs = x ++ y ∧ (∀ r ∈ x, r.gst.abs ≤ g.abs) ∧ ∀ r ∈ y, ¬ r.gst.abs ≤ g.abs := by
  induction rs with
  | nil => exact ⟨[], [], rfl, by simp, by simp⟩
  | cons a l ih =>
    rw [List.pairwise_cons] at hro
    by_cases ha : a.gst.abs ≤ g.abs
    · obtain ⟨x, y, rfl, h1, h2⟩ := ih hro.2
      refine ⟨a :: x, y, rfl, ?_, h2⟩
      intro r hr
      rcases List.mem_cons.1 hr with rfl | hr
      · exact ha
      · exact h1 r hr
    · refine ⟨[], a :: l, rfl, by simp, ?_⟩
      intro r hr
      rcases List.mem_cons.1 hr with rfl | hr
      · exact ha
      · have := hro.1 r hr; omega

/-- **C76.**  Once all the blocks of the DSM-KROOT were received, it has been accepted, exactly once, by then; apart from it, only TESLA keys
have been reported during the broadcast. -/
theorem C76_kroot_accepted (hb : b.Sound) (h₁ : Logs S (Osnma.new S root0 pk0 slow) before log₁ o₁)
    (h : Logs S (Osnma.new S root0 pk0 slow) (before ++ after) log o) (hf : Follows b pk0 before log₁ after)
    (hord : (pagesOf after).Pairwise (fun p q => p.sub.abs ≤ q.sub.abs)) {til : Gst} (hk : KrootHeard b after til) :
    ∃ (g : Gst) (ks ks' : List Key), g.abs ≤ til.abs ∧
      log = log₁ ++ ks.map .tesla ++ [.kroot b.header b.kroot b.pk b.root g] ++ ks'.map .tesla := by
  obtain ⟨rs₁, rs₂, hr⟩ := hf.received hb h₁ h
  obtain ⟨x, y, hxy, hx, hy⟩ := split_at til (hr.sorted hord)
  subst hxy
  have hsx : ∀ r ∈ x, b.Sent r := fun r h => hr.sent r (List.mem_append_left _ h)
  have hc := kroot_complete hr hf hord hk (rs' := x) (fun r h => List.mem_append_left _ h) (by
    intro r h1 h2
    rcases List.mem_append.1 h1 with h | h
    · exact h
    · exact absurd h2 (hy r h))
  have hm := hr.machine
  rw [← List.append_assoc] at hm
  obtain ⟨lx, _, hmx, _⟩ := hm.prefix
  obtain ⟨r, hrx, ks, ks', rfl⟩ := (hr.joins.messages hsx hmx).2 hc
  obtain ⟨ks'', rfl⟩ := machine_stuck hmx hm (id := b.dsmId) (by rw [hr.joins.since hsx]; exact hc)
    (fun q hq => (blocksOf_sent hb hr.sent _ (List.mem_map_of_mem (List.mem_append_right _ hq))).1)
  exact ⟨r.gst, ks, ks' ++ ks'', hx r hrx, by simp⟩

/-- **C76.**  If all the blocks of the DSM-KROOT were received by the end of a subframe, and some satellite was heard during all of
this subframe, then its TESLA key has been accepted. -/
theorem C76_key_accepted (hb : b.Sound) (h₁ : Logs S (Osnma.new S root0 pk0 slow) before log₁ o₁)
    (h : Logs S (Osnma.new S root0 pk0 slow) (before ++ after) log o) (hf : Follows b pk0 before log₁ after)
    (hord : (pagesOf after).Pairwise (fun p q => p.sub.abs ≤ q.sub.abs)) {g : Gst} (hk : KrootHeard b after g) {v : Svn}
    (hv : HeardWhole after v g) : KeyEvent.tesla (b.key g) ∈ log := by
  obtain ⟨rs₁, rs₂, hr⟩ := hf.received hb h₁ h
  have hro := hr.sorted hord
  obtain ⟨r, hr1, _, hr3⟩ := hr.whole hf hord hv
  -- the subframes up to this one
  obtain ⟨x, y, hxy, hx, hy⟩ := split_at g hro
  subst hxy
  have hm := hr.machine
  rw [← List.append_assoc] at hm
  obtain ⟨lx, ly, hmx, rfl⟩ := hm.prefix
  have hrx : r ∈ x := by
    rcases List.mem_append.1 hr1 with h | h
    · exact h
    · have := hy r h; rw [hr3] at this; omega
  have hc := kroot_complete hr hf hord hk (rs' := x) (fun r h => List.mem_append_left _ h) (by
    intro r h1 h2
    rcases List.mem_append.1 h1 with h | h
    · exact h
    · exact absurd h2 (hy r h))
  have hlead := hr.leads hf
  have hsent := hr.sent
  obtain ⟨x', a, rfl⟩ : ∃ x' a, x = x' ++ [a] := by
    rcases List.eq_nil_or_concat x with rfl | ⟨l, a, rfl⟩
    · cases hrx
    · exact ⟨l, a, List.concat_eq_append⟩
  have hro' := (List.pairwise_append.1 (List.pairwise_append.1 hro).1).2.2
  have hag : a.gst = g := by
    apply Gst.abs_inj
    have h1 := hx a (by simp)
    rcases List.mem_append.1 hrx with h | h
    · have := hro' r h a (by simp)
      rw [hr3] at this; omega
    · rw [List.mem_singleton] at h; rw [← h, hr3]
  have := hr.joins.reported (fun q hq => hsent q (List.mem_append_left _ hq)) (fun q hq => hro' q hq a (by simp))
    (fun q hq => hlead q (List.mem_append_left _ hq)) hmx hc
  rw [hag] at this
  exact List.mem_append_left _ this

/-! ## Data -/

theorem CallsInOrder.pages (h : CallsInOrder hist) : (pagesOf hist).Pairwise (fun p q => p.sub.abs ≤ q.sub.abs) := by
  unfold pagesOf
  rw [List.pairwise_filterMap]
  refine h.imp ?_
  intro c c' hle p hp q hq
  cases c <;> cases c' <;> simp at hp hq
  obtain ⟨_, rfl⟩ := hp
  obtain ⟨_, rfl⟩ := hq
  exact hle

theorem CallsInOrder.words (h : CallsInOrder hist) : Chronological (inavsOf hist) := by
  have : (inavsOf hist).Pairwise (fun a b => a.gst.subframe.abs ≤ b.gst.subframe.abs) := by
    unfold inavsOf
    rw [List.pairwise_filterMap]
    refine h.imp ?_
    intro c c' hle p hp q hq
    cases c <;> cases c' <;> simp at hp hq
    subst hp hq
    exact hle
  intro i a b ha hb
  obtain ⟨hi, rfl⟩ := List.getElem?_eq_some_iff.1 ha
  obtain ⟨hj, rfl⟩ := List.getElem?_eq_some_iff.1 hb
  exact List.pairwise_iff_getElem.1 this i (i + 1) hi hj (Nat.lt_succ_self i)

/-- The call that reported a message. -/
theorem Logs.index {o0 : Osnma C} (h : Logs S o0 hist log o) {e : KeyEvent C} (he : e ∈ log) :
    ∃ i c lo oi oi', hist[i]? = some c ∧ Logs S o0 (hist.take i) lo oi ∧ c.run S oi = .ok oi' ∧ e ∈ oi.events S c ∧
      ∃ rest, log = lo ++ oi.events S c ++ rest := by
  induction h with
  | nil => cases he
  | @snoc hi lo oa ob c hl hc ih =>
    rcases List.mem_append.1 he with he | he
    · obtain ⟨i, c', l', oi, oi', h1, h2, h3, h4, rest, h5⟩ := ih he
      have hlt : i < hi.length := (List.getElem?_eq_some_iff.1 h1).1
      refine ⟨i, c', l', oi, oi', by rw [List.getElem?_append_left hlt]; exact h1, ?_, h3, h4, rest ++ oa.events S c, by rw [h5]; simp⟩
      rw [List.take_append_of_le_length (Nat.le_of_lt hlt)]; exact h2
    · refine ⟨hi.length, c, lo, oa, ob, by simp, ?_, hc, he, [], by simp⟩
      rw [List.take_left]; exact hl

/-- A key is reported in its subframe. -/
theorem tesla_when (hS : S.Consistent) {pk0 : Option (PublicKey C)} (h0 : (Osnma.new S root0 pk0 slow : Osnma C).Fresh S)
    (h : run S (Osnma.new S root0 pk0 slow) hist = .ok o) {c : Call} {o' : Osnma C} (hc : c.run S o = .ok o') {k : Key}
    (he : KeyEvent.tesla k ∈ o.events S c) : c.gst.subframe = k.gst := by
  cases c with
  | inav w s g bd => cases he
  | osnma d s g =>
    obtain ⟨⟨a⟩, h2⟩ := tesla_arrives (navInv_run hS h0 h).inv hc he
    have h3 := h2 a
    have h4 := a.toCompletes.sub hS h0 h
    rw [← h3]
    exact h4.symm

/-- A MACK message is right under a key with the same bytes. -/
theorem MackRight.congr {k k' : Key} {c : Chain} {msg : MackMessage} {prna : Svn} {g : Gst} (h : MackRight C k c msg prna g)
    (hc : k'.chain = k.chain) (hb : k'.bytes = k.bytes) : MackRight C k' c msg prna g := by
  obtain ⟨h1, slots, h2, h3, h4, h5⟩ := h
  refine ⟨?_, slots, by rw [hc]; exact h2, h3, ?_, h5⟩
  · unfold Key.MacUsable at h1 ⊢
    rw [hc]; exact h1
  · unfold MacseqOk macBits at h4 ⊢
    rw [hc, hb]; exact h4

theorem header_status (x : Byte) : bitField [x] 0 2 = nmasCode (NmaHeader.mk x).nmaStatus := by
  revert x; decide +kernel

/-- The pages of a satellite in a subframe of `after`. -/
theorem pagesIn_later (hlater : ∀ p ∈ pagesOf before, ∀ q ∈ pagesOf after, p.sub.abs < q.sub.abs) {g : Gst}
    (h : ∃ q ∈ pagesOf after, q.sub = g) (w : Svn) : pagesIn (before ++ after) w g = pagesIn after w g := by
  obtain ⟨q, hq, rfl⟩ := h
  unfold pagesIn
  rw [pagesOf_append, List.filter_append, List.filter_eq_nil_iff.2, List.nil_append]
  intro p hp hc
  simp only [Bool.and_eq_true, beq_iff_eq] at hc
  have := hlater p hp q hq
  rw [hc.2] at this; omega

/-- What was heard of a tag makes it genuine. -/
theorem TagSent.genuine (hb : b.Sound) (hlater : ∀ p ∈ pagesOf before, ∀ q ∈ pagesOf after, p.sub.abs < q.sub.abs)
    {kd : NavKind} {v : Svn} {bits : List Bool} {u : TagUse} (hheard : ∀ p ∈ pagesOf after, p.svn = u.prna →
      p.hkroot = ((b.hkroot p.svn p.sub).val.drop p.word).take 1 ∧ p.mack = ((b.mack p.svn p.sub).val.drop (4 * p.word)).take 4)
    (hu : TagSent b S slow (before ++ after) after kd v bits u) : u.Genuine C S slow (before ++ after) kd v bits := by
  have hchain : u.key.chain = b.root.chain := by rw [hu.key]; exact (hb.keys _ hu.onKey).2.1
  have hin : pagesIn (before ++ after) u.prna u.gst = pagesIn after u.prna u.gst :=
    pagesIn_later hlater (by obtain ⟨q, h1, h2, _⟩ := heardWhole_mem hu.heard; exact ⟨q, h1, h2⟩) u.prna
  refine ⟨hu.prnd, by rw [hu.status]; exact hb.status, hu.rightKey, hu.verifies,
    ⟨b.mack u.prna u.gst, ⟨by rw [hin]; exact hu.heard, ?_, ?_⟩, ?_, ?_⟩, hu.data, hu.recent, hu.alive, hu.depthNav, hu.depthMack⟩
  · intro p hp
    rw [hin] at hp
    unfold pagesIn at hp
    rw [List.mem_filter] at hp
    obtain ⟨h1, h2⟩ := hp
    simp only [Bool.and_eq_true, beq_iff_eq] at h2
    rw [(hheard p h1 h2.1).2, h2.1, h2.2]
  · intro p hp hw
    rw [hin] at hp
    unfold pagesIn at hp
    rw [List.mem_filter] at hp
    obtain ⟨h1, h2⟩ := hp
    simp only [Bool.and_eq_true, beq_iff_eq] at h2
    obtain ⟨i, _, he⟩ := hb.blocks u.prna u.gst hu.on
    rw [(hheard p h1 h2.1).1, hw, h2.1, h2.2, he, hu.status]
    exact header_status _
  · rw [hchain]; exact hu.sent
  · intro vk n h1 h2 h3
    have hg : b.On vk.gst := by
      obtain ⟨o1, o2, o3⟩ := hu.on
      obtain ⟨p1, p2, p3⟩ := hu.onKey
      refine ⟨by unfold Gst.Aligned at o1 ⊢; omega, by omega, ?_⟩
      have := hu.rightKey
      unfold TagUse.RightKey at this
      omega
    obtain ⟨m, hm, hd⟩ := b.derives hb hg hu.onKey (by
      have := hu.rightKey
      unfold TagUse.RightKey at this
      omega)
    have hk : (b.key u.key.gst).bytes = u.key.bytes := by rw [← hu.key]
    rw [hk, ← hchain] at hd
    have ht := h3.time
    dsimp only at ht
    obtain rfl : m = n := by omega
    have := hd.det h3
    rw [Prod.mk.injEq] at this
    rw [hchain]
    exact (hu.right vk.gst h2).congr (by rw [h1, hchain, (hb.keys _ hg).2.1]) this.2.symm

/-- What was genuine at the end was genuine when the key was accepted. -/
theorem genuine_before {kd : NavKind} {v : Svn} {bits : List Bool} {u : TagUse} {i : Nat} (hu : u.Genuine C S slow hist kd v bits)
    (hlater : ∀ c ∈ hist.drop i, u.gst.abs < c.gst.subframe.abs) : u.Genuine C S slow (hist.take i) kd v bits := by
  have hpages : ∀ p ∈ pagesOf (hist.drop i), p.sub ≠ u.gst := by
    intro p hp hs
    unfold pagesOf at hp
    rw [List.mem_filterMap] at hp
    obtain ⟨c, hc, he⟩ := hp
    have := hlater c hc
    cases c with
    | inav w s g bd => cases he
    | osnma d s g =>
      dsimp only at he
      split at he
      · cases he
      · cases he
        have h2 : g.subframe = u.gst := hs
        have h3 : u.gst.abs < g.subframe.abs := this
        rw [h2] at h3; omega
  have hwords : ∀ c ∈ inavsOf (hist.drop i), u.gst.abs < c.gst.subframe.abs := by
    intro w hw
    unfold inavsOf at hw
    rw [List.mem_filterMap] at hw
    obtain ⟨c, hc, he⟩ := hw
    have := hlater c hc
    cases c with
    | osnma d s g => cases he
    | inav w s g bd => cases he; exact this
  have e1 : pagesOf hist = pagesOf (hist.take i) ++ pagesOf (hist.drop i) := by
    unfold pagesOf
    rw [← List.filterMap_append, List.take_append_drop]
  have e2 : inavsOf hist = inavsOf (hist.take i) ++ inavsOf (hist.drop i) := by
    unfold inavsOf
    rw [← List.filterMap_append, List.take_append_drop]
  have e3 : pagesIn hist u.prna u.gst = pagesIn (hist.take i) u.prna u.gst := by
    unfold pagesIn
    rw [e1, List.filter_append]
    refine (congrArg (_ ++ ·) (List.filter_eq_nil_iff.2 ?_)).trans (List.append_nil _)
    intro p hp hc
    simp only [Bool.and_eq_true, beq_iff_eq] at hc
    exact hpages p hp hc.2
  have e4 : wordsUpTo hist (u.gst.abs - 30) = wordsUpTo (hist.take i) (u.gst.abs - 30) := by
    unfold wordsUpTo
    rw [e2, List.filter_append]
    refine (congrArg (_ ++ ·) (List.filter_eq_nil_iff.2 ?_)).trans (List.append_nil _)
    intro c hc hd
    have := hwords c hc
    simp only [decide_eq_true_eq] at hd
    omega
  have e5 : ∀ c ∈ inavsOf hist, c.gst.subframe.abs ≤ u.gst.abs - 30 → c ∈ inavsOf (hist.take i) := by
    intro c hc hle
    rw [e2] at hc
    rcases List.mem_append.1 hc with h | h
    · exact h
    · have := hwords c h; omega
  obtain ⟨msg, hw, hm⟩ := hu.mack
  refine ⟨hu.prnd, hu.status, hu.rightKey, hu.verifies, ⟨msg, ⟨?_, ?_, ?_⟩, hm⟩, by rw [← e4]; exact hu.data, ?_, ?_, hu.depthNav, hu.depthMack⟩
  · rw [← e3]; exact hw.words
  · rw [← e3]; exact hw.mack
  · rw [← e3]; exact hw.status
  · intro f hf
    obtain ⟨c, h1, h2, h3, h4, h5⟩ := hu.recent f hf
    exact ⟨c, e5 c h1 h4, h2, h3, h4, h5⟩
  · obtain ⟨c, h1, h2⟩ := hu.alive
    exact ⟨c, e5 c h1 (by omega), h2⟩


/-- The verified DSM-KROOTs: headers and times. -/
def krootTimes (log : List (KeyEvent C)) : List (NmaHeader × Gst) :=
  log.filterMap (fun e => match e with
    | .kroot h _ _ _ g => some (h, g)
    | _ => none)

theorem krootTimes_append (l l' : List (KeyEvent C)) : krootTimes (l ++ l') = krootTimes l ++ krootTimes l' := by
  unfold krootTimes; exact List.filterMap_append

theorem krootTimes_none {l : List (KeyEvent C)} (h : ∀ e ∈ l, e.header? = none) : krootTimes l = [] := by
  unfold krootTimes
  rw [List.filterMap_eq_nil_iff]
  intro e he
  have := h e he
  cases e <;> simp [KeyEvent.header?] at this ⊢

theorem krootTimes_teslas (ks : List Key) : krootTimes (ks.map (KeyEvent.tesla (C := C))) = [] := by
  apply krootTimes_none
  intro e he
  obtain ⟨k, _, rfl⟩ := List.mem_map.1 he
  rfl

theorem krootTimes_cons (e : KeyEvent C) (l : List (KeyEvent C)) : krootTimes (e :: l) = krootTimes [e] ++ krootTimes l :=
  krootTimes_append [e] l

theorem krootTimes_fst (l : List (KeyEvent C)) : (krootTimes l).map Prod.fst = l.filterMap KeyEvent.header? := by
  induction l with
  | nil => rfl
  | cons e l ih =>
    rw [krootTimes_cons, List.map_append, ih]
    cases e <;> rfl

theorem lastHeader_times (l : List (KeyEvent C)) : lastHeader l = (krootTimes l).getLast?.map Prod.fst := by
  unfold lastHeader
  rw [← krootTimes_fst, List.getLast?_map]

theorem noChange_times {log : List (KeyEvent C)} {t : Int}
    (h : ∀ l x, krootTimes log = l ++ [x] → ∀ y, l.getLast? = some y → y.1.chainId ≠ x.1.chainId → x.2.abs ≤ t) : NoChangeAfter log t := by
  intro l₁ hd data pk key g l₂ he hn h' hl hne
  have h1 : krootTimes log = krootTimes l₁ ++ [(hd, g)] := by
    rw [he, krootTimes_append]
    have : krootTimes (KeyEvent.kroot hd data pk key g :: l₂) = (hd, g) :: krootTimes l₂ := rfl
    rw [this, krootTimes_none hn]
  rw [lastHeader_times, Option.map_eq_some_iff] at hl
  obtain ⟨y, hy, rfl⟩ := hl
  have h2 := h (krootTimes l₁) (hd, g) h1 y hy hne
  dsimp only at h2
  exact h2

/-- A DSM-KROOT is reported in its subframe. -/
theorem machine_kroot_time {rs : List Received} (h : KeyMachine root0 pk0 rs log) {x : NmaHeader × Gst} (hx : x ∈ krootTimes log) :
    ∃ r ∈ rs, r.gst = x.2 := by
  induction h with
  | nil => cases hx
  | @step rs lo l₁ l₂ r h e₁ e₂ ih =>
    obtain ⟨ks, rfl⟩ := teslas_of e₂
    rw [krootTimes_append, krootTimes_teslas, List.append_nil, krootTimes_append] at hx
    rcases List.mem_append.1 hx with hx | hx
    · obtain ⟨q, h1, h2⟩ := ih hx
      exact ⟨q, by simp [h1], h2⟩
    · rcases e₁ with ⟨e, ⟨data, _, hm⟩, rfl⟩ | ⟨rfl, _⟩
      · cases hm with
        | kroot pk key =>
          have : krootTimes [KeyEvent.kroot r.header data pk key r.gst] = [(r.header, r.gst)] := rfl
          rw [this, List.mem_singleton] at hx
          exact ⟨r, by simp, by rw [hx]⟩
        | pkr => cases hx
        | alert => cases hx
      · cases hx

/-- The chain in force does not change after `t` if the DSM-KROOT of the broadcast was accepted by then, or is of the chain in force. -/
theorem Received2.noChange {rs₁ rs₂ : List Received} (hr : Received2 b root0 pk0 before after log₁ log rs₁ rs₂) {t : Int}
    (hbefore : ∀ p ∈ pagesOf before, p.sub.abs ≤ t)
    (hchange : (∀ h, lastHeader log₁ = some h → h.chainId = b.header.chainId) ∨
      ∀ g, KeyEvent.kroot b.header b.kroot b.pk b.root g ∈ log → KeyEvent.kroot b.header b.kroot b.pk b.root g ∈ log₁ ∨ g.abs ≤ t) :
    NoChangeAfter log t := by
  apply noChange_times
  intro l x hl y hy hne
  have old : x ∈ krootTimes log₁ → x.2.abs ≤ t := by
    intro hx
    obtain ⟨r, h1, h2⟩ := machine_kroot_time hr.joins.before hx
    obtain ⟨p, hp, he⟩ := received_sub hr.first h1
    rw [← h2, ← he]
    exact hbefore p hp
  obtain ⟨h1, h2⟩ := hr.joins.messages hr.sent hr.machine
  by_cases hc : Complete b.dsmId (rs₂.map Received.dsmCall)
  · obtain ⟨r, _, ks, ks', he⟩ := h2 hc
    have hk : krootTimes log = krootTimes log₁ ++ [(b.header, r.gst)] := by
      rw [he, krootTimes_append, krootTimes_append, krootTimes_append, krootTimes_teslas, krootTimes_teslas]
      simp [krootTimes]
    rw [hk] at hl
    obtain ⟨rfl, rfl⟩ := append_singleton_cancel hl
    rcases hchange with hcg | hcg
    · exact absurd (hcg y.1 (by rw [lastHeader_times, hy]; rfl)) hne
    · rcases hcg r.gst (by rw [he]; simp) with h | h
      · apply old
        unfold krootTimes
        rw [List.mem_filterMap]
        exact ⟨_, h, rfl⟩
      · exact h
  · obtain ⟨ks, he⟩ := h1 hc
    apply old
    have hk : krootTimes log = krootTimes log₁ := by rw [he, krootTimes_append, krootTimes_teslas, List.append_nil]
    rw [← hk, hl]; simp

/-- Genuine tags whose keys were reported authenticate the data. -/
theorem authenticates_of_keys (hS : S.Consistent) (h0 : (Osnma.new S root0 pk0 slow : Osnma C).Fresh S)
    (hl : Logs S (Osnma.new S root0 pk0 slow) hist log o) (hord : CallsInOrder hist) (hfit : Fits S (inavsOf hist))
    (hroom : ∀ g : Gst, ∃ sats : List Svn, sats.length ≤ S.numSats ∧ ∀ p ∈ pagesOf hist, p.sub = g → p.svn ∈ sats)
    (hweek : ∀ c ∈ inavsOf hist, 7650 ≤ c.gst.abs) (kd : NavKind) (v : Svn) (bits : List Bool) (n : Nat)
    (hn : n ≤ hist.length) (hfed : ∃ c ∈ inavsOf (hist.take n), c.svn = v)
    (hsame : ∀ i, n ≤ i → i ≤ hist.length → kd.expected (inavsOf (hist.take i)) v = bits)
    (tags : List TagUse) (hnd : tags.Nodup) (htags : ∀ u ∈ tags, u.Genuine C S slow hist kd v bits ∧ KeyEvent.tesla u.key ∈ log ∧
      (∀ c ∈ hist.take n, c.gst.subframe.abs < u.key.gst.abs) ∧
      (u.tag.adkd = 12 → ∀ i c lo oi rest, hist[i]? = some c → c.gst.subframe = u.key.gst → (∃ p ∈ pagesOf [c], p.sub = c.gst.subframe) →
        Logs S (Osnma.new S root0 pk0 slow) (hist.take (i + 1)) lo oi → log = lo ++ rest → NoChangeAfter lo (u.gst.abs + 30)))
    (henough : 40 ≤ (tags.map (fun u => u.tag.tag.length)).sum) :
    ∃ d, o.get S kd v = .ok (some d) ∧ d.data = bits ∧ min 65535 (tags.map (fun u => u.tag.tag.length)).sum ≤ d.authbits := by
  have hidx : ∀ u, ∃ i, u ∈ tags → n ≤ i ∧ TagDue S (Osnma.new S root0 pk0 slow) slow hist kd v bits i u := by
    intro u
    by_cases hu : u ∈ tags
    · obtain ⟨hu1, hev, hu2, hu3⟩ := htags u hu
      obtain ⟨i, c, lo, oi, oi', h1, h2, h3, h4, rest, h5⟩ := hl.index hev
      have hwhen := tesla_when hS h0 h2.run h3 h4
      have hi : i < hist.length := (List.getElem?_eq_some_iff.1 h1).1
      have hc : hist[i] = c := (List.getElem?_eq_some_iff.1 h1).2
      have hlt : u.gst.abs < u.key.gst.abs := by
        have := hu1.rightKey
        unfold TagUse.RightKey at this
        omega
      have hni : n ≤ i := by
        apply Classical.byContradiction
        intro hlt'
        have := hu2 c (by
          rw [List.mem_take_iff_getElem]
          exact ⟨i, by omega, hc⟩)
        rw [hwhen] at this; omega
      have hup : ∀ c' ∈ hist.take (i + 1), c'.gst.subframe.abs ≤ u.key.gst.abs := by
        intro c' hc'
        rw [List.mem_take_iff_getElem] at hc'
        obtain ⟨j, hj, rfl⟩ := hc'
        rw [← hwhen, ← hc]
        rcases Nat.lt_or_ge j i with hji | hji
        · exact List.pairwise_iff_getElem.1 hord j i (by omega) hi hji
        · have : j = i := by omega
          subst this; exact Int.le_refl _
      have hdown : ∀ c' ∈ hist.drop (i + 1), u.gst.abs < c'.gst.subframe.abs := by
        intro c' hc'
        rw [List.mem_drop_iff_getElem] at hc'
        obtain ⟨j, hj, rfl⟩ := hc'
        have := List.pairwise_iff_getElem.1 hord i (i + 1 + j) hi (by omega) (by omega)
        rw [hc, hwhen] at this
        omega
      have hord' : CallsInOrder (hist.take (i + 1)) := List.Pairwise.sublist (List.take_sublist _ _) hord
      have hsub : ∀ p ∈ pagesOf (hist.take (i + 1)), p ∈ pagesOf hist := fun p hp =>
        ((List.take_sublist _ _).filterMap _).subset hp
      refine ⟨i, fun _ => ⟨hni, lo, oi, c, h1, h2, h4, ⟨hord'.pages, hord'.words, ?_, ?_⟩, genuine_before hu1 hdown, ?_⟩⟩
      · intro w hw
        unfold inavsOf at hw
        rw [List.mem_filterMap] at hw
        obtain ⟨c', hc', he⟩ := hw
        have := hup c' hc'
        cases c' with
        | osnma d s g => cases he
        | inav w s g bd => cases he; exact this
      · intro g
        obtain ⟨sats, e1, e2⟩ := hroom g
        exact ⟨sats, e1, fun p hp => e2 p (hsub p hp)⟩
      · intro h12
        refine hu3 h12 i c _ oi' rest h1 hwhen ?_ ?_ h5
        · cases c with
          | inav w s g bd => cases h4
          | osnma d s g =>
            have hz : ¬ d.val.all (fun x => x == 0#8) = true := by
              intro hz
              simp [Osnma.events, hz] at h4
            refine ⟨⟨d, s, g⟩, ?_, rfl⟩
            unfold pagesOf
            rw [List.mem_filterMap]
            exact ⟨_, List.mem_singleton_self _, by simp only [hz, if_false, Bool.false_eq_true]⟩
        · rw [List.take_add_one, h1]
          exact .snoc c h2 h3
    · exact ⟨0, fun h => absurd h hu⟩
  obtain ⟨f, hf⟩ := Classical.axiomOfChoice hidx
  have hmap : (tags.map (fun u => (f u, u))).map (fun p => p.2.tag.tag.length) = tags.map (fun u => u.tag.tag.length) := by
    rw [List.map_map]; rfl
  have := C52_genuine_data_is_authenticated hS h0 hl.run hfit hweek kd v bits n hfed hsame (tags.map (fun u => (f u, u)))
    (List.pairwise_map.2 (hnd.imp (fun h e => h (congrArg Prod.snd e)))) (by
      intro p hp
      obtain ⟨u, hu, rfl⟩ := List.mem_map.1 hp
      exact hf u hu) hn (by rw [hmap]; exact henough)
  rw [hmap] at this
  exact this

/-- A call made during `after`. -/
theorem split_after {i : Nat} {c : Call} (hlater : ∀ p ∈ pagesOf before, ∀ q ∈ pagesOf after, p.sub.abs < q.sub.abs)
    (h1 : (before ++ after)[i]? = some c) (hc : ∃ p ∈ pagesOf [c], p.sub = c.gst.subframe) {q : Page} (hq : q ∈ pagesOf after)
    (hle : q.sub.abs ≤ c.gst.subframe.abs) :
    (before ++ after).take (i + 1) = before ++ after.take (i + 1 - before.length) := by
  have hi : i < (before ++ after).length := (List.getElem?_eq_some_iff.1 h1).1
  have he : (before ++ after)[i] = c := (List.getElem?_eq_some_iff.1 h1).2
  have hib : before.length ≤ i := by
    apply Classical.byContradiction
    intro hlt
    have hcb : c ∈ before := by
      rw [← he, List.getElem_append_left (by omega)]
      exact List.getElem_mem _
    obtain ⟨p, hp, hps⟩ := hc
    have hp' : p ∈ pagesOf before := by
      have : [c].Sublist before := List.singleton_sublist.2 hcb
      exact (this.filterMap _).subset hp
    have := hlater p hp' q hq
    rw [hps] at this
    omega
  rw [List.take_append, List.take_of_length_le (by omega)]

/-- **C76.**  Let a receiver in any state then hear a genuine broadcast, all in chronological order, with room for all satellites.  If
the data of satellite `v` has been `bits` from call number `n` on, and different tags of this data with together 40 bits or more were heard
during the broadcast, with keys that were disclosed later than these first `n` calls and after the DSM-KROOT was received, then the getter
returns `bits`, with at least as many authentication bits.  For Slow MAC tags, the DSM-KROOT announces the chain that was already in force, or was
received by the end of the subframe that follows the tag's. -/
theorem C76_authenticates (hS : S.Consistent) (h0 : (Osnma.new S root0 pk0 slow : Osnma C).Fresh S) (hb : b.Sound)
    (h₁ : Logs S (Osnma.new S root0 pk0 slow) before log₁ o₁) (h : run S (Osnma.new S root0 pk0 slow) (before ++ after) = .ok o)
    (hf : Follows b pk0 before log₁ after) (hord : CallsInOrder (before ++ after)) (hfit : Fits S (inavsOf (before ++ after)))
    (hroom : ∀ g : Gst, ∃ sats : List Svn, sats.length ≤ S.numSats ∧ ∀ p ∈ pagesOf (before ++ after), p.sub = g → p.svn ∈ sats)
    (hweek : ∀ c ∈ inavsOf (before ++ after), 7650 ≤ c.gst.abs) (kd : NavKind) (v : Svn) (bits : List Bool) (n : Nat)
    (hn : n ≤ (before ++ after).length) (hfed : ∃ c ∈ inavsOf ((before ++ after).take n), c.svn = v)
    (hsame : ∀ i, n ≤ i → i ≤ (before ++ after).length → kd.expected (inavsOf ((before ++ after).take i)) v = bits)
    (tags : List TagUse) (hnd : tags.Nodup) (htags : ∀ u ∈ tags, TagHeard b S slow (before ++ after) after kd v bits u ∧
      (∀ c ∈ (before ++ after).take n, c.gst.subframe.abs < u.key.gst.abs) ∧
      (u.tag.adkd = 12 → (∀ hd, lastHeader log₁ = some hd → hd.chainId = b.header.chainId) ∨
        ∃ g : Gst, g.abs ≤ u.gst.abs + 30 ∧ KrootHeard b after g))
    (henough : 40 ≤ (tags.map (fun u => u.tag.tag.length)).sum) :
    ∃ d, o.get S kd v = .ok (some d) ∧ d.data = bits ∧ min 65535 (tags.map (fun u => u.tag.tag.length)).sum ≤ d.authbits := by
  have hordA : (pagesOf after).Pairwise (fun p q => p.sub.abs ≤ q.sub.abs) := by
    have := hord.pages
    rw [pagesOf_append] at this
    exact (List.pairwise_append.1 this).2.1
  obtain ⟨log, hl⟩ := Logs.of_run h
  refine authenticates_of_keys hS h0 hl hord hfit hroom hweek kd v bits n hn hfed hsame tags hnd ?_ henough
  intro u hu
  obtain ⟨hu1, hu2, hu3⟩ := htags u hu
  obtain ⟨w, hw⟩ := hu1.disclosed
  have hev := C76_key_accepted hb h₁ hl hf hordA hu1.kroot hw
  rw [← hu1.key] at hev
  refine ⟨hu1.toTagSent.genuine hb hf.later (fun p hp _ => (hf.heard p hp).2), hev, hu2, ?_⟩
  intro h12 i c lo oi rest h1 hwhen hc h2 h5
  -- the key was accepted during the broadcast
  obtain ⟨qk, hqk, hqkg, _⟩ := heardWhole_mem hw
  obtain ⟨qu, hqu, hqug, _⟩ := heardWhole_mem hu1.heard
  rw [split_after hf.later h1 hc hqk (by rw [hqkg, hwhen]; exact Int.le_refl _)] at h2
  have hf' : Follows b pk0 before log₁ (after.take (i + 1 - before.length)) :=
    hf.sub (fun p hp => ((List.take_sublist _ _).filterMap _).subset hp)
  obtain ⟨rs₁, rs₂, hr⟩ := hf'.received hb h₁ h2
  refine hr.noChange ?_ ?_
  · intro p hp
    have := hf.later p hp qu hqu
    rw [hqug] at this
    omega
  · rcases hu3 h12 with h | ⟨g, hg, hkg⟩
    · exact .inl h
    · right
      intro g' hg'
      obtain ⟨gk, ks, ks', hle, he⟩ := C76_kroot_accepted hb h₁ hl hf hordA hkg
      have : KeyEvent.kroot b.header b.kroot b.pk b.root g' ∈ log := by rw [h5]; exact List.mem_append_left _ hg'
      rw [he] at this
      simp only [List.mem_append, List.mem_map, List.mem_singleton, reduceCtorEq, and_false, exists_false, or_false,
        KeyEvent.kroot.injEq, true_and] at this
      rcases this with h | h
      · exact .inl h
      · right; rw [h]; omega

end Verif
