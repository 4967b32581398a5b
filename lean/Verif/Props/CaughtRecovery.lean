import Verif.Lemmas.CaughtComplete

/-! # C97: joining a genuine broadcast after caught panics

As C76, for a receiver whose panics were caught.  Cases: `Props/CaughtRecoveryExample.lean`. -/

namespace Verif
open CollectSubframe CollectDsm

variable {S : Storage} {C : Crypto} {b : Broadcast C} {root0 : Option MerkleTreeNode} {pk0 : Option (PublicKey C)} {slow : Bool}
  {before after : List Call} {log₁ l log : List (KeyEvent C)} {o₁ o : Osnma C} {rs₁ rs₂ : List Received}

/-- What was received in `before` and in `after`. -/
structure ReceivedAfter (b : Broadcast C) (root0 : Option MerkleTreeNode) (pk0 : Option (PublicKey C)) (before after : List Call)
    (log₁ log : List (KeyEvent C)) (rs₁ rs₂ : List Received) : Prop where
  joins : Rejoins b root0 pk0 rs₁ log₁
  first : ReceivedIn (pagesOf before) rs₁
  all : ReceivedIn (pagesOf before ++ pagesOf after) (rs₁ ++ rs₂)
  sent : ∀ r ∈ rs₂, b.Sent r
  order : (rs₂.map Received.gst).Sublist ((pagesOf after).map Page.sub)
  machine : MachineFrom root0 pk0 rs₁ log₁ rs₂ log

theorem Follows.rejoins (hf : Follows b pk0 before log₁ after) (hb : b.Sound) (h₁ : Caught S (Osnma.new S root0 pk0 slow) before log₁ o₁) :
    ∃ rs₁, ReceivedIn (pagesOf before) rs₁ ∧ Rejoins b root0 pk0 rs₁ log₁ := by
  obtain ⟨rs₁, h1, h2⟩ := C96_reference_machine h₁
  exact ⟨rs₁, h1, hb, h2, hf.held, fun r hr => hf.newId rs₁ r h1 hr⟩

theorem Follows.receivedAfter (hf : Follows b pk0 before log₁ after) (hb : b.Sound) (h₁ : Caught S (Osnma.new S root0 pk0 slow) before log₁ o₁)
    (h : Caught S (Osnma.new S root0 pk0 slow) (before ++ after) log o) : ∃ rs₁ rs₂, ReceivedAfter b root0 pk0 before after log₁ log rs₁ rs₂ := by
  obtain ⟨rs₁, h1, hj⟩ := hf.rejoins hb h₁
  obtain ⟨rs, h2, hm⟩ := C96_reference_machine h
  rw [pagesOf_append] at h2
  obtain ⟨rs₂, rfl, h3, h4⟩ := received_sent_later h1 h2 hf.later hf.heard
  exact ⟨rs₁, rs₂, hj, h1, h2, h3, h4, hj.from h3 hm⟩

theorem ReceivedAfter.sub (hr : ReceivedAfter b root0 pk0 before after log₁ log rs₁ rs₂) {r : Received} (h : r ∈ rs₂) :
    ∃ p ∈ pagesOf after, p.sub = r.gst := by
  obtain ⟨p, hp, he⟩ := List.mem_map.1 (hr.order.subset (List.mem_map_of_mem h))
  exact ⟨p, hp, he⟩

theorem ReceivedAfter.leads (hr : ReceivedAfter b root0 pk0 before after log₁ log rs₁ rs₂) (hf : Follows b pk0 before log₁ after) :
    ∀ r ∈ rs₂, Leads b log₁ r.gst := by
  intro r h k hk hid
  obtain ⟨p, hp, he⟩ := hr.sub h
  rw [← he]
  exact hf.leads p hp k hk hid

theorem ReceivedAfter.sorted (hr : ReceivedAfter b root0 pk0 before after log₁ log rs₁ rs₂)
    (hord : (pagesOf after).Pairwise (fun p q => p.sub.abs ≤ q.sub.abs)) : rs₂.Pairwise (fun p q => p.gst.abs ≤ q.gst.abs) := by
  have := (List.pairwise_map.2 hord : ((pagesOf after).map Page.sub).Pairwise (fun p q => p.abs ≤ q.abs)).sublist hr.order
  rwa [List.pairwise_map] at this

/-- A satellite heard during a whole subframe of `after`. -/
theorem ReceivedAfter.whole (hr : ReceivedAfter b root0 pk0 before after log₁ log rs₁ rs₂)
    (hf : Follows b pk0 before log₁ after) (hord : (pagesOf after).Pairwise (fun p q => p.sub.abs ≤ q.sub.abs)) {v : Svn} {g : Gst}
    (hw : HeardWhole after v g) : ∃ r ∈ rs₂, r.svn = v ∧ r.gst = g := by
  obtain ⟨r, h1, h2, h3⟩ := heardWhole_received hr.all hf.later hord hw
  rcases List.mem_append.1 h1 with h | h
  · exfalso
    obtain ⟨p, hp, he⟩ := received_sub hr.first h
    obtain ⟨q, hq, hg, _⟩ := heardWhole_mem hw
    have := hf.later p hp q hq
    rw [he, h3, hg] at this
    omega
  · exact ⟨r, h, h2, h3⟩

/-- What is completed by the next call. -/
theorem completesDsm_sentAfter (h₁ : Caught S (Osnma.new S root0 pk0 slow) before log₁ o₁)
    (hl : Caught S (Osnma.new S root0 pk0 slow) (before ++ after) log o) (hb : b.Sound)
    {d : OsnmaDataMessage} {s : Svn} {g : Gst} (hf : Follows b pk0 before log₁ (after ++ [.osnma d s g])) {h : NmaHeader} {x : Dsm}
    (hc : CompletesDsm o d s g h x) :
    h = b.header ∧ x.data = b.kroot ∧ x.dsmType = .Kroot ∧ ∃ ks : List Key, log = log₁ ++ ks.map .tesla := by
  obtain ⟨⟨y, hy, hy0⟩, sf, hk, m, g1, b1, block, c, hfeed, hval, hdsm⟩ := hc
  have hnz : ¬ d.val.all (fun x => x == 0#8) = true := by
    intro hall
    rw [List.all_eq_true] at hall
    exact hy0 (by simpa using hall y hy)
  have hp1 : pagesOf [Call.osnma d s g] = [⟨d, s, g⟩] := by
    simp only [pagesOf, List.filterMap_cons, hnz, if_false, List.filterMap_nil, Bool.false_eq_true]
  have hp : pagesOf (after ++ [Call.osnma d s g]) = pagesOf after ++ [⟨d, s, g⟩] := by rw [pagesOf_append, hp1]
  obtain ⟨rs₁, hr1, hj⟩ := hf.rejoins hb h₁
  have hfull := hf.heard
  have hlater := hf.later
  unfold Heard at hfull
  rw [hp] at hfull hlater
  obtain ⟨rs, M⟩ := caughtMachine_run hl
  obtain ⟨outs, h1⟩ := M.pages
  obtain ⟨douts, h3⟩ := M.blocks
  have h2 := M.received
  have hm := M.machine
  rw [pagesOf_append] at h1 h2
  obtain ⟨rs₂, rfl, hs, hsub⟩ := received_sent_later hr1 h2 (fun p hp q hq => hlater p hp q (by simp [hq])) (fun q hq => hfull q (by simp [hq]))
  have hr : CompletesSubframe (pagesOf before ++ pagesOf after) ⟨d, s, g⟩ ⟨s, hk, m, g1⟩ :=
    (feed_completes (p := ⟨d, s, g⟩) h1 hfeed _).2 ⟨rfl, rfl⟩
  have hsent : b.Sent ⟨s, hk, m, g1⟩ := completes_sent_later hr (by
    intro q hq he
    have := hlater q hq ⟨d, s, g⟩ (by simp)
    rw [he] at this; omega) (fun q hq _ => hfull q hq)
  have hcall : (⟨s, hk, m, g1⟩ : Received).dsmCall = ⟨⟨b1⟩, block⟩ := by
    unfold Received.dsmCall
    have e2 : (⟨hk.val.drop 2, by rw [List.length_drop, hk.property]⟩ : DsmBlock) = block := Subtype.ext (by dsimp only; rw [hval]; rfl)
    show (⟨⟨(hk.val.drop 1).headD 0⟩, _⟩ : DsmCall) = _
    rw [e2, hval]; rfl
  have hdsm' : o.data.dsm.feed (⟨s, hk, m, g1⟩ : Received).dsmCall.header (⟨s, hk, m, g1⟩ : Received).dsmCall.block = .ok (c, some x) := by
    rw [hcall]; exact hdsm
  obtain ⟨ht, hcw⟩ := (feed_dsm h3 hdsm').1 x rfl
  have hall : ∀ r ∈ rs₂ ++ [(⟨s, hk, m, g1⟩ : Received)], b.Sent r := by
    intro r hr
    rw [List.mem_append, List.mem_singleton] at hr
    rcases hr with hr | rfl
    · exact hs r hr
    · exact hsent
  have hbl := blocksOf_sent hb hall
  have hid := (hbl _ (List.mem_map_of_mem (List.mem_append_right rs₂ (List.mem_singleton_self _)))).1
  have hsz := hb.sizes
  have hsame := hj.since hs
  have hcc := (completes_of hb.id hb.size hsz.1 hsz.2 hid (by rw [hsame]; simpa using hbl) _).1 hcw
  refine ⟨?_, hcc.1, ?_, ?_⟩
  · rw [← hsent.header hb]
    show h = NmaHeader.mk (hk.val.headD 0)
    rw [hval]; rfl
  · rw [ht, DsmHeader.type_eq, hid, if_neg (by have := hb.id; omega)]
  · refine (hj.messages hs (hj.from hs hm)).1 ?_
    rw [← hsame]; exact hcc.2.1

/-- The messages reported during the broadcast. -/
theorem ReceivedAfter.events (hr : ReceivedAfter b root0 pk0 before after log₁ log rs₁ rs₂) :
    ∀ e ∈ log, e ∈ log₁ ∨ (∃ k, e = .tesla k) ∨ ∃ r ∈ rs₂, e = .kroot b.header b.kroot b.pk b.root r.gst := by
  obtain ⟨h1, h2⟩ := hr.joins.messages hr.sent hr.machine
  intro e he
  by_cases hc : Complete b.dsmId (rs₂.map Received.dsmCall)
  · obtain ⟨r, hr', ks, ks', rfl⟩ := h2 hc
    simp only [List.mem_append, List.mem_map, List.mem_singleton] at he
    rcases he with ((he | ⟨k, _, rfl⟩) | rfl) | ⟨k, _, rfl⟩
    · exact .inl he
    · exact .inr (.inl ⟨k, rfl⟩)
    · exact .inr (.inr ⟨r, hr', rfl⟩)
    · exact .inr (.inl ⟨k, rfl⟩)
  · obtain ⟨ks, rfl⟩ := h1 hc
    rcases List.mem_append.1 he with he | he
    · exact .inl he
    · obtain ⟨k, _, rfl⟩ := List.mem_map.1 he
      exact .inr (.inl ⟨k, rfl⟩)

/-- **C97.**  Whatever was received before, and however many panics were caught: when a genuine broadcast follows, of which anything may be missing, in any order, and
with any words, then all its calls return, if the parameters of its chain are sensible also together with those of the chains of the DSM-KROOTs verified
before. -/
theorem C97_no_more_panics (hS : S.Consistent) (h0 : (Osnma.new S root0 pk0 slow : Osnma C).Fresh S) (hb : b.Sound)
    (h₁ : Caught S (Osnma.new S root0 pk0 slow) before log₁ o₁) (hf : Follows b pk0 before log₁ after) (hsense : SensibleLog log₁)
    (hpairs : ∀ h data pk k g, KeyEvent.kroot h data pk k g ∈ log₁ → SensibleChains k.chain b.root.chain ∧ SensibleChains b.root.chain k.chain) :
    ∃ l o, Logs S o₁ after l o := by
  induction after using snoc_induction with
  | h0 => exact ⟨_, _, .nil⟩
  | h1 ca c ih =>
    have hf' : Follows b pk0 before log₁ ca := hf.sub (fun p hp => by rw [pagesOf_append]; exact List.mem_append_left _ hp)
    obtain ⟨l, o, hll⟩ := ih hf'
    suffices ∃ o', c.run S o = .ok o' by
      obtain ⟨o', ho'⟩ := this
      exact ⟨l ++ o.events S c, o', .snoc c hll ho'⟩
    have hl := h₁.append hll
    cases c with
    | inav w s g bd => exact C89_feed_inav_returns hS h0 hl w s g bd
    | osnma d s g =>
      by_cases hz : d.val.all (fun x => x == 0#8) = true
      · exact ⟨o, by show o.feedOsnma S d s g = _; unfold Osnma.feedOsnma; rw [if_pos hz]; rfl⟩
      · have hon : b.On g.subframe := by
          have : (⟨d, s, g⟩ : Page) ∈ pagesOf (ca ++ [.osnma d s g]) := by
            rw [pagesOf_append]
            apply List.mem_append_right
            simp only [pagesOf, List.filterMap_cons, hz, if_false, List.filterMap_nil, Bool.false_eq_true, List.mem_singleton]
          exact (hf.heard _ this).1
        have htime := hb.time
        obtain ⟨rs₁, rs₂, hr⟩ := hf'.receivedAfter hb h₁ hl
        have hch : ∀ h data pk k g', KeyEvent.kroot h data pk k g' ∈ log₁ ++ l ++ o.events S (.osnma d s g) →
            KeyEvent.kroot h data pk k g' ∈ log₁ ∨ k.chain = b.root.chain := by
          intro h data pk k g' he
          rw [List.mem_append] at he
          rcases he with he | he
          · rcases hr.events _ he with h | ⟨k, h⟩ | ⟨r, _, h⟩
            · exact .inl h
            · cases h
            · cases h; exact .inr rfl
          · obtain ⟨x, hx, rfl, hann, _⟩ := kroot_event he
            obtain ⟨_, e2, _⟩ := completesDsm_sentAfter h₁ hl hb hf hx
            rw [e2] at hann
            exact .inr (hann.unique hb.announced (fun _ _ _ _ => rfl) rfl).2.1
        have hiff := C89_panics_iff hS h0 hl d s g (by have := hon.2.1; omega) (by
          intro h data pk k g' h' data' pk' k' g'' he he'
          rcases hch _ _ _ _ _ he with e1 | e1 <;> rcases hch _ _ _ _ _ he' with e2 | e2
          · exact hsense _ _ _ _ _ _ _ _ _ _ e1 e2
          · rw [e2]; exact (hpairs _ _ _ _ _ e1).1
          · rw [e1]; exact (hpairs _ _ _ _ _ e2).2
          · rw [e1, e2]; exact hb.sensible)
        cases hrun : o.feedOsnma S d s g with
        | ok o' => exact ⟨o', hrun⟩
        | panic w =>
          exfalso
          obtain ⟨h, x, hx, hn⟩ := hiff.1 ⟨w, hrun⟩
          apply hn
          obtain ⟨rfl, e2, e3, ks, hks⟩ := completesDsm_sentAfter h₁ hl hb hf hx
          unfold HarmlessDsm
          rw [e3]
          dsimp only
          intro pk hpk hname
          rw [e2] at hname ⊢
          obtain ⟨_, M⟩ := caughtMachine_run hl
          have hkeys := M.state.keys
          rw [hks, keysHeld_teslas] at hkeys
          have h1 : o.data.data.pubkey.current = (keysHeld pk0 log₁).1 := congrArg Prod.fst hkeys
          have h2 : o.data.data.pubkey.next = (keysHeld pk0 log₁).2 := congrArg Prod.snd hkeys
          rw [h1, h2] at hpk
          rw [keysHeld_unique hpk hf.held (by rw [hname, hb.named])]
          exact hb.harmless

/-- The subframes received until `til` hold the whole DSM-KROOT. -/
theorem kroot_completeAfter (hr : ReceivedAfter b root0 pk0 before after log₁ log rs₁ rs₂)
    (hf : Follows b pk0 before log₁ after) (hord : (pagesOf after).Pairwise (fun p q => p.sub.abs ≤ q.sub.abs)) {til : Gst}
    (hk : KrootHeard b after til) {rs' : List Received} (hsub : ∀ r ∈ rs', r ∈ rs₂) (hall : ∀ r ∈ rs₂, r.gst.abs ≤ til.abs → r ∈ rs') :
    Complete b.dsmId (rs'.map Received.dsmCall) := by
  rw [hr.joins.complete_iff (fun r h => hr.sent r (hsub r h))]
  intro i hi
  obtain ⟨v, g, h1, h2, h3⟩ := hk i hi
  obtain ⟨r, e1, rfl, rfl⟩ := hr.whole hf hord h2
  exact ⟨r.dsmCall, List.mem_map_of_mem (hall r e1 h1), ((hr.sent r e1).block hr.joins.sound hi h3).2.1⟩

/-- **C97.**  Once all the blocks of the DSM-KROOT were received, it has been accepted, exactly once, by then; apart from it, only TESLA keys
have been accepted during the broadcast. -/
theorem C97_kroot_accepted (hb : b.Sound) (h₁ : Caught S (Osnma.new S root0 pk0 slow) before log₁ o₁) (h : Logs S o₁ after l o)
    (hf : Follows b pk0 before log₁ after) (hord : (pagesOf after).Pairwise (fun p q => p.sub.abs ≤ q.sub.abs)) {til : Gst}
    (hk : KrootHeard b after til) :
    ∃ (g : Gst) (ks ks' : List Key), g.abs ≤ til.abs ∧ l = ks.map .tesla ++ [.kroot b.header b.kroot b.pk b.root g] ++ ks'.map .tesla := by
  obtain ⟨rs₁, rs₂, hr⟩ := hf.receivedAfter hb h₁ (h₁.append h)
  obtain ⟨x, y, hxy, hx, hy⟩ := split_at til (hr.sorted hord)
  subst hxy
  have hsx : ∀ r ∈ x, b.Sent r := fun r h => hr.sent r (List.mem_append_left _ h)
  have hc := kroot_completeAfter hr hf hord hk (rs' := x) (fun r h => List.mem_append_left _ h) (by
    intro r h1 h2
    rcases List.mem_append.1 h1 with h | h
    · exact h
    · exact absurd h2 (hy r h))
  have hm := hr.machine
  obtain ⟨lx, _, hmx, _⟩ := hm.prefix
  obtain ⟨r, hrx, ks, ks', rfl⟩ := (hr.joins.messages hsx hmx).2 hc
  obtain ⟨ks'', he⟩ := hm.stuck (id := b.dsmId) (by rw [hr.joins.since hsx]; exact hc)
    (fun q hq => (blocksOf_sent hb hr.sent _ (List.mem_map_of_mem (List.mem_append_right _ hq))).1) (fun l hl => hl.det hmx)
  refine ⟨r.gst, ks, ks' ++ ks'', hx r hrx, ?_⟩
  apply List.append_cancel_left (as := log₁)
  rw [he]; simp

/-- The key of a subframe has been accepted. -/
theorem key_accepted_after (hb : b.Sound) (h₁ : Caught S (Osnma.new S root0 pk0 slow) before log₁ o₁) (h : Logs S o₁ after l o)
    (hf : Follows b pk0 before log₁ after) (hord : (pagesOf after).Pairwise (fun p q => p.sub.abs ≤ q.sub.abs)) {g : Gst}
    (hk : KrootHeard b after g) {v : Svn} (hv : HeardWhole after v g) : KeyEvent.tesla (b.key g) ∈ log₁ ++ l := by
  obtain ⟨rs₁, rs₂, hr⟩ := hf.receivedAfter hb h₁ (h₁.append h)
  have hro := hr.sorted hord
  obtain ⟨r, hr1, _, hr3⟩ := hr.whole hf hord hv
  obtain ⟨x, y, hxy, hx, hy⟩ := split_at g hro
  subst hxy
  have hm := hr.machine
  obtain ⟨lx, ly, hmx, he⟩ := hm.prefix
  rw [he]
  have hrx : r ∈ x := by
    rcases List.mem_append.1 hr1 with h | h
    · exact h
    · have := hy r h; rw [hr3] at this; omega
  have hc := kroot_completeAfter hr hf hord hk (rs' := x) (fun r h => List.mem_append_left _ h) (by
    intro r h1 h2
    rcases List.mem_append.1 h1 with h | h
    · exact h
    · exact absurd h2 (hy r h))
  have hlead := hr.leads hf
  have hsent := hr.sent
  obtain ⟨x', a, rfl⟩ : ∃ x' a, x = x' ++ [a] := by
    rcases List.eq_nil_or_concat x with rfl | ⟨l, a, rfl⟩
    · cases hrx
    · exact ⟨l, a, List.concat_eq_append⟩
  have hro' := (List.pairwise_append.1 (List.pairwise_append.1 hro).1).2.2
  have hag : a.gst = g := by
    apply Gst.abs_inj
    have h1 := hx a (by simp)
    rcases List.mem_append.1 hrx with h | h
    · have := hro' r h a (by simp)
      rw [hr3] at this; omega
    · rw [List.mem_singleton] at h; rw [← h, hr3]
  have := hr.joins.reported (fun q hq => hsent q (List.mem_append_left _ hq)) (fun q hq => hro' q hq a (by simp))
    (fun q hq => hlead q (List.mem_append_left _ hq)) hmx hc
  rw [hag] at this
  exact List.mem_append_left _ this

/-- **C97.**  If all the blocks of the DSM-KROOT were received by the end of a subframe, and some satellite was heard during all of
this subframe, then its TESLA key has been accepted during the broadcast. -/
theorem C97_key_accepted (hS : S.Consistent) (h0 : (Osnma.new S root0 pk0 slow : Osnma C).Fresh S) (hb : b.Sound)
    (h₁ : Caught S (Osnma.new S root0 pk0 slow) before log₁ o₁) (h : Logs S o₁ after l o)
    (hf : Follows b pk0 before log₁ after) (hord : (pagesOf after).Pairwise (fun p q => p.sub.abs ≤ q.sub.abs)) {g : Gst}
    (hk : KrootHeard b after g) {v : Svn} (hv : HeardWhole after v g) : KeyEvent.tesla (b.key g) ∈ l := by
  rcases List.mem_append.1 (key_accepted_after hb h₁ h hf hord hk hv) with he | he
  · exfalso
    obtain ⟨p, hp, hps⟩ := h₁.tesla_heard hS h0 he
    obtain ⟨q, hq, hqg, _⟩ := heardWhole_mem hv
    have hon : b.On g := by rw [← hqg]; exact (hf.heard q hq).1
    have hlt := hf.later p hp q hq
    rw [hps, hqg, (hb.keys g hon).1] at hlt
    omega
  · exact he

/-- A DSM-KROOT is reported in its subframe. -/
theorem caughtMachine_kroot_time {rs : List Received} (h : CaughtMachine root0 pk0 rs log) {x : NmaHeader × Gst} (hx : x ∈ krootTimes log) :
    ∃ r ∈ rs, r.gst = x.2 := by
  induction h with
  | nil => cases hx
  | @step rs lo l₁ l₂ r h hok e₁ e₂ ih =>
    obtain ⟨ks, rfl⟩ := teslas_of e₂
    rw [krootTimes_append, krootTimes_teslas, List.append_nil, krootTimes_append] at hx
    rcases List.mem_append.1 hx with hx | hx
    · obtain ⟨q, h1, h2⟩ := ih hx
      exact ⟨q, by simp [h1], h2⟩
    · rcases e₁ with ⟨e, ⟨data, _, hm⟩, rfl⟩ | ⟨rfl, _⟩
      · cases hm with
        | kroot pk key =>
          have : krootTimes [KeyEvent.kroot r.header data pk key r.gst] = [(r.header, r.gst)] := rfl
          rw [this, List.mem_singleton] at hx
          exact ⟨r, by simp, by rw [hx]⟩
        | pkr => cases hx
        | alert => cases hx
      · cases hx
  | pass r data h hc hn ih =>
    obtain ⟨q, h1, h2⟩ := ih hx
    exact ⟨q, by simp [h1], h2⟩

/-- The chain in force does not change after `t` if the DSM-KROOT of the broadcast was accepted by then, or is of the chain in force. -/
theorem ReceivedAfter.noChange (hr : ReceivedAfter b root0 pk0 before after log₁ log rs₁ rs₂) {t : Int}
    (hbefore : ∀ p ∈ pagesOf before, p.sub.abs ≤ t)
    (hchange : (∀ h, lastHeader log₁ = some h → h.chainId = b.header.chainId) ∨
      ∀ g, KeyEvent.kroot b.header b.kroot b.pk b.root g ∈ log → KeyEvent.kroot b.header b.kroot b.pk b.root g ∈ log₁ ∨ g.abs ≤ t) :
    NoChangeAfter log t := by
  apply noChange_times
  intro l x hl y hy hne
  have old : x ∈ krootTimes log₁ → x.2.abs ≤ t := by
    intro hx
    obtain ⟨r, h1, h2⟩ := caughtMachine_kroot_time hr.joins.before hx
    obtain ⟨p, hp, he⟩ := received_sub hr.first h1
    rw [← h2, ← he]
    exact hbefore p hp
  obtain ⟨h1, h2⟩ := hr.joins.messages hr.sent hr.machine
  by_cases hc : Complete b.dsmId (rs₂.map Received.dsmCall)
  · obtain ⟨r, _, ks, ks', he⟩ := h2 hc
    have hk : krootTimes log = krootTimes log₁ ++ [(b.header, r.gst)] := by
      rw [he, krootTimes_append, krootTimes_append, krootTimes_append, krootTimes_teslas, krootTimes_teslas]
      simp [krootTimes]
    rw [hk] at hl
    obtain ⟨rfl, rfl⟩ := append_singleton_cancel hl
    rcases hchange with hcg | hcg
    · exact absurd (hcg y.1 (by rw [lastHeader_times, hy]; rfl)) hne
    · rcases hcg r.gst (by rw [he]; simp) with h | h
      · apply old
        unfold krootTimes
        rw [List.mem_filterMap]
        exact ⟨_, h, rfl⟩
      · exact h
  · obtain ⟨ks, he⟩ := h1 hc
    apply old
    have hk : krootTimes log = krootTimes log₁ := by rw [he, krootTimes_append, krootTimes_teslas, List.append_nil]
    rw [← hk, hl]; simp

/-- **C97.**  Let panics have been caught before, and let a genuine broadcast follow, all in chronological order, with room for all
satellites.  If the data of satellite `v` has been `bits` from call number `n` on, and different tags of this data with together 40 bits or more
were heard during the broadcast, with keys that were disclosed later than these first `n` calls and after the DSM-KROOT was received, then the
getter returns `bits`, with at least as many authentication bits.  (As C76; the same condition for Slow MAC tags.) -/
theorem C97_authenticates (hS : S.Consistent) (h0 : (Osnma.new S root0 pk0 slow : Osnma C).Fresh S) (hb : b.Sound)
    (h₁ : Caught S (Osnma.new S root0 pk0 slow) before log₁ o₁) (h : Logs S o₁ after l o)
    (hf : Follows b pk0 before log₁ after) (hord : CallsInOrder (before ++ after)) (hfit : Fits S (inavsOf (before ++ after)))
    (hroom : ∀ g : Gst, ∃ sats : List Svn, sats.length ≤ S.numSats ∧ ∀ p ∈ pagesOf (before ++ after), p.sub = g → p.svn ∈ sats)
    (hweek : ∀ c ∈ inavsOf (before ++ after), 7650 ≤ c.gst.abs) (kd : NavKind) (v : Svn) (bits : List Bool) (n : Nat)
    (hn : n ≤ (before ++ after).length) (hfed : ∃ c ∈ inavsOf ((before ++ after).take n), c.svn = v)
    (hsame : ∀ i, n ≤ i → i ≤ (before ++ after).length → kd.expected (inavsOf ((before ++ after).take i)) v = bits)
    (tags : List TagUse) (hnd : tags.Nodup) (htags : ∀ u ∈ tags, TagHeard b S slow (before ++ after) after kd v bits u ∧
      (∀ c ∈ (before ++ after).take n, c.gst.subframe.abs < u.key.gst.abs) ∧
      (u.tag.adkd = 12 → (∀ hd, lastHeader log₁ = some hd → hd.chainId = b.header.chainId) ∨
        ∃ g : Gst, g.abs ≤ u.gst.abs + 30 ∧ KrootHeard b after g))
    (henough : 40 ≤ (tags.map (fun u => u.tag.tag.length)).sum) :
    ∃ d, o.get S kd v = .ok (some d) ∧ d.data = bits ∧ min 65535 (tags.map (fun u => u.tag.tag.length)).sum ≤ d.authbits := by
  have hordA : (pagesOf after).Pairwise (fun p q => p.sub.abs ≤ q.sub.abs) := by
    have := hord.pages
    rw [pagesOf_append] at this
    exact (List.pairwise_append.1 this).2.1
  have hcau := h₁.append h
  have hidx : ∀ u, ∃ i, u ∈ tags → n ≤ before.length + i ∧ TagDueAfter S o₁ slow before log₁ after kd v bits i u := by
    intro u
    by_cases hu : u ∈ tags
    · obtain ⟨hu1, hu2, hu3⟩ := htags u hu
      obtain ⟨w, hw⟩ := hu1.disclosed
      obtain ⟨qk, hqk, hqkg, _⟩ := heardWhole_mem hw
      obtain ⟨qu, hqu, hqug, _⟩ := heardWhole_mem hu1.heard
      have hev := C97_key_accepted hS h0 hb h₁ h hf hordA hu1.kroot hw
      rw [← hu1.key] at hev
      have hgen := hu1.toTagSent.genuine hb hf.later (fun p hp _ => (hf.heard p hp).2)
      obtain ⟨i, c, lo, oi, oi', h1, h2, h3, h4, rest, h5⟩ := h.index hev
      obtain ⟨pk, _, hp1, hp2⟩ := ((h₁.append h2).kept hS h0).tesla_when h3 h4
      have hwhen : c.gst.subframe = u.key.gst := hp1.symm.trans hp2
      have hi : i < after.length := (List.getElem?_eq_some_iff.1 h1).1
      have hc : after[i] = c := (List.getElem?_eq_some_iff.1 h1).2
      have hib : before.length + i < (before ++ after).length := by simp; omega
      have hcb : (before ++ after)[before.length + i] = c := by
        rw [List.getElem_append_right (by omega)]
        simpa using hc
      have hlt : u.gst.abs < u.key.gst.abs := by
        have := hgen.rightKey
        unfold TagUse.RightKey at this
        omega
      have hni : n ≤ before.length + i := by
        apply Classical.byContradiction
        intro hlt'
        have := hu2 c (by
          rw [List.mem_take_iff_getElem]
          exact ⟨before.length + i, by omega, hcb⟩)
        rw [hwhen] at this; omega
      have htk : (before ++ after).take (before.length + i + 1) = before ++ after.take (i + 1) := by
        rw [List.take_append, List.take_of_length_le (by omega)]
        congr 2; omega
      have hup : ∀ c' ∈ (before ++ after).take (before.length + i + 1), c'.gst.subframe.abs ≤ u.key.gst.abs := by
        intro c' hc'
        rw [List.mem_take_iff_getElem] at hc'
        obtain ⟨j, hj, rfl⟩ := hc'
        rw [← hwhen, ← hcb]
        rcases Nat.lt_or_ge j (before.length + i) with hji | hji
        · exact List.pairwise_iff_getElem.1 hord j (before.length + i) (by omega) hib hji
        · have : j = before.length + i := by omega
          subst this; exact Int.le_refl _
      have hdown : ∀ c' ∈ (before ++ after).drop (before.length + i + 1), u.gst.abs < c'.gst.subframe.abs := by
        intro c' hc'
        rw [List.mem_drop_iff_getElem] at hc'
        obtain ⟨j, hj, rfl⟩ := hc'
        have := List.pairwise_iff_getElem.1 hord (before.length + i) (before.length + i + 1 + j) hib (by omega) (by omega)
        rw [hcb, hwhen] at this
        omega
      have hord' : CallsInOrder ((before ++ after).take (before.length + i + 1)) := List.Pairwise.sublist (List.take_sublist _ _) hord
      have hsub : ∀ p ∈ pagesOf ((before ++ after).take (before.length + i + 1)), p ∈ pagesOf (before ++ after) := fun p hp =>
        ((List.take_sublist _ _).filterMap _).subset hp
      have hin : InOrder S ((before ++ after).take (before.length + i + 1)) u.key.gst := by
        refine ⟨hord'.pages, hord'.words, ?_, ?_⟩
        · intro w hw
          unfold inavsOf at hw
          rw [List.mem_filterMap] at hw
          obtain ⟨c', hc', he⟩ := hw
          have := hup c' hc'
          cases c' with
          | osnma d s g => cases he
          | inav w s g bd => cases he; exact this
        · intro g
          obtain ⟨sats, e1, e2⟩ := hroom g
          exact ⟨sats, e1, fun p hp => e2 p (hsub p hp)⟩
      have hgen' := genuine_before hgen hdown
      rw [htk] at hin hgen'
      refine ⟨i, fun _ => ⟨hni, lo, oi, c, h1, h2, h4, hin, hgen', ?_⟩⟩
      intro h12
      have hf' : Follows b pk0 before log₁ (after.take (i + 1)) :=
        hf.sub (fun p hp => ((List.take_sublist _ _).filterMap _).subset hp)
      have h2' : Logs S o₁ (after.take (i + 1)) (lo ++ oi.events S c) oi' := by
        rw [List.take_add_one, h1]
        exact .snoc c h2 h3
      obtain ⟨rs₁, rs₂, hr⟩ := hf'.receivedAfter hb h₁ (h₁.append h2')
      rw [List.append_assoc]
      refine hr.noChange ?_ ?_
      · intro p hp
        have := hf.later p hp qu hqu
        rw [hqug] at this
        omega
      · rcases hu3 h12 with h' | ⟨g, hg, hkg⟩
        · exact .inl h'
        · right
          intro g' hg'
          obtain ⟨gk, ks, ks', hle, he⟩ := C97_kroot_accepted hb h₁ h hf hordA hkg
          rcases List.mem_append.1 hg' with hg' | hg'
          · exact .inl hg'
          · right
            have : KeyEvent.kroot b.header b.kroot b.pk b.root g' ∈ l := by rw [h5]; exact List.mem_append_left _ hg'
            rw [he] at this
            simp only [List.mem_append, List.mem_map, List.mem_singleton, reduceCtorEq, and_false, exists_false, or_false,
              KeyEvent.kroot.injEq, true_and, false_or] at this
            rw [this]; omega
    · exact ⟨0, fun h => absurd h hu⟩
  obtain ⟨f, hfi⟩ := Classical.axiomOfChoice hidx
  have hmap : (tags.map (fun u => (f u, u))).map (fun p => p.2.tag.tag.length) = tags.map (fun u => u.tag.tag.length) := by
    rw [List.map_map]; rfl
  obtain ⟨s, x, hs, hx, hxv, hxb, hxa⟩ := caught_authbits hS h0 h₁ kd v bits n h hfit hn hfed hsame (tags.map (fun u => (f u, u)))
    (List.pairwise_map.2 (hnd.imp (fun h e => h (congrArg Prod.snd e)))) (by
      intro p hp
      obtain ⟨u, hu, rfl⟩ := List.mem_map.1 hp
      exact hfi u hu)
  rw [hmap] at hxa
  -- the getter finds the current entry
  have hinv := (hcau.kept hS h0).stored
  obtain ⟨r, hr⟩ := C89_getters_return hS h0 hcau hweek kd v
  have hbest : ∀ g y, bestEntry (o.stored S) kd v = some (g, y) → y = x := by
    intro g y hb
    obtain ⟨k, t, k1, k2, k3, k4, k5, k6⟩ := bestEntry_some hb
    have hk0 : k = 0 := by
      rcases Nat.eq_zero_or_pos k with h | h
      · exact h
      · have := k6 0 s h hs x hx hxv
        omega
    subst hk0
    rw [hs] at k1; cases k1
    obtain ⟨a, ha, hya⟩ := List.mem_iff_getElem.1 k3
    obtain ⟨c, hc, hxe⟩ := List.mem_iff_getElem.1 hx
    have := (hinv.good hS kd (List.mem_of_getElem? hs)).distinct a c y x v
      (by rw [List.getElem?_eq_getElem ha, hya]) (by rw [List.getElem?_eq_getElem hc, hxe]) k4 hxv
    subst this
    rw [← hya, hxe]
  cases r with
  | none =>
    rw [get_eq hinv] at hr
    cases hb : bestEntry (o.stored S) kd v with
    | none =>
      have := bestEntry_none.1 hb s (List.mem_of_getElem? hs) x hx hxv
      omega
    | some p =>
      obtain ⟨g, y⟩ := p
      rw [hb] at hr
      simp only [resultOf] at hr
      split at hr <;> cases hr
  | some d =>
    obtain ⟨g, y, hb, e1, e2, _⟩ := get_some hinv hr
    obtain rfl := hbest g y hb
    exact ⟨d, hr, by rw [e1]; exact hxb, by rw [e2]; exact hxa⟩

end Verif
