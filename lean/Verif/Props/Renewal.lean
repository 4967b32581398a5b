import Verif.Props.Switch
import Verif.Props.Recovery
import Verif.Spec.Renewal
import Verif.Props.Disclosure

/-! # C90: public keys received over the air

A receiver that was given the root of the Merkle tree hears a DSM-PKR with a public key, and then a broadcast signed with this key: from the root alone, and
when the public key is renewed.  Cases: `Props/RenewalExample.lean`. -/

namespace Verif
open CollectSubframe CollectDsm

variable {S : Storage} {C : Crypto} {a : KeyBroadcast C} {b : Broadcast C} {root : MerkleTreeNode} {root0 : Option MerkleTreeNode}
  {pk0 : Option (PublicKey C)} {slow : Bool} {before mid after : List Call} {log₁ log : List (KeyEvent C)} {o₁ o : Osnma C}

/-! ## What is received -/

theorem completes_hkroot {ps₁ ps₂ : List Page} {p : Page} {r : Received} (hc : CompletesSubframe (ps₁ ++ ps₂) p r)
    (hlater : ∀ q ∈ ps₁, q.sub.abs < p.sub.abs)
    (hh : ∀ q ∈ ps₂ ++ [p], q.hkroot = ((a.hkroot q.svn q.sub).val.drop q.word).take 1) : r.hkroot = a.hkroot r.svn r.gst := by
  have hmem : ∀ q ∈ inOrder 0 ((sinceSubframe (ps₁ ++ ps₂) p.sub).filter (fun q => q.svn == p.svn)) ++ [p],
      q ∈ ps₂ ++ [p] ∧ q.svn = p.svn ∧ q.sub = p.sub := by
    intro q hq
    rw [List.mem_append] at hq
    rcases hq with hq | hq
    · have := (inOrder_sublist _ _).subset hq
      rw [List.mem_filter] at this
      obtain ⟨h1, h2⟩ := mem_sinceSubframe this.1
      refine ⟨?_, by simpa using this.2, h2⟩
      rcases List.mem_append.1 h1 with h1 | h1
      · have := hlater q h1
        rw [h2] at this
        omega
      · simp [h1]
    · rw [List.mem_singleton] at hq; subst hq; exact ⟨by simp, rfl, rfl⟩
  have hw : (inOrder 0 ((sinceSubframe (ps₁ ++ ps₂) p.sub).filter (fun q => q.svn == p.svn)) ++ [p]).map Page.word = List.range 15 := by
    rw [List.map_append, inOrder_words, hc.words, List.map_cons, List.map_nil, hc.last]
    rfl
  apply Subtype.ext
  rw [hc.hkroot, hc.gst, hc.svn]
  refine flatMap_take_drop1 _ _ hw (a.hkroot p.svn p.sub).2 ?_
  intro q hq
  obtain ⟨h1, h2, h3⟩ := hmem q hq
  rw [hh q h1, h2, h3]

theorem received_hkroot {ps₁ ps₂ : List Page} {rs₁ rs : List Received} (h₁ : ReceivedIn ps₁ rs₁) (h : ReceivedIn (ps₁ ++ ps₂) rs)
    (hlater : ∀ p ∈ ps₁, ∀ q ∈ ps₂, p.sub.abs < q.sub.abs)
    (hh : ∀ q ∈ ps₂, q.hkroot = ((a.hkroot q.svn q.sub).val.drop q.word).take 1) :
    ∃ rs₂, rs = rs₁ ++ rs₂ ∧ ∀ r ∈ rs₂, r.hkroot = a.hkroot r.svn r.gst := by
  induction ps₂ using snoc_induction generalizing rs with
  | h0 =>
    rw [List.append_nil] at h
    exact ⟨[], by rw [h.unique h₁]; simp, by simp⟩
  | h1 l p ih =>
    rw [← List.append_assoc] at h
    generalize hx : ps₁ ++ l ++ [p] = x at h
    have hl : ∀ a ∈ ps₁, ∀ q ∈ l, a.sub.abs < q.sub.abs := fun a ha q hq => hlater a ha q (by simp [hq])
    have hh' : ∀ q ∈ l, _ := fun q hq => hh q (by simp [hq])
    cases h with
    | nil => simp at hx
    | skip p' h' hn =>
      obtain ⟨rfl, rfl⟩ := append_singleton_cancel hx
      exact ih h' hl hh'
    | got p' r' h' hr =>
      obtain ⟨rfl, rfl⟩ := append_singleton_cancel hx
      obtain ⟨rs₂, rfl, e2⟩ := ih h' hl hh'
      refine ⟨rs₂ ++ [r'], by simp, ?_⟩
      intro q hq
      rcases List.mem_append.1 hq with hq | hq
      · exact e2 q hq
      · rw [List.mem_singleton] at hq
        subst hq
        exact completes_hkroot hr (fun a ha => hlater a ha p (by simp)) hh

theorem KeyBroadcast.Sound.sizes (ha : a.Sound root) : 7 ≤ bitField a.pkr 0 4 := by
  have h1 : 163 ≤ a.pkr.length := by
    rcases ha.proved.key with ⟨_, h, _⟩ | ⟨_, h, _⟩ <;> omega
  have := ha.size
  omega

theorem KeyBroadcast.Sound.announces (ha : a.Sound root) : Announces a.dsmId a.pkr (bitField a.pkr 0 4 + 6) :=
  .pkr ha.id.1 ha.size ha.sizes ha.nb

theorem KeyBroadcast.Sound.block (ha : a.Sound root) {r : Received} (hr : r.hkroot = a.hkroot r.svn r.gst) {i : Nat} (hi : 13 * i < a.pkr.length)
    (he : a.Carries r.svn r.gst i) :
    r.dsmCall.header.dsmId = a.dsmId ∧ r.dsmCall.header.dsmBlockId = i ∧ r.dsmCall.block.val = byteField a.pkr (13 * i) 13 := by
  have hsz := ha.size
  have hnb := ha.nb
  have hd := dsmHeader_of a.dsmId i ha.id.2 (by omega)
  unfold KeyBroadcast.Carries at he
  have e1 : (r.hkroot.val.drop 1).headD 0 = BitVec.ofNat 8 (16 * a.dsmId + i) := by rw [hr, he]; rfl
  have e2 : r.hkroot.val.drop 2 = byteField a.pkr (13 * i) 13 := by
    rw [hr, show 2 = 1 + 1 from rfl, ← List.drop_drop, he]; rfl
  refine ⟨?_, ?_, e2⟩
  · show (DsmHeader.mk _).dsmId = _
    rw [e1]; exact hd.1
  · show (DsmHeader.mk _).dsmBlockId = _
    rw [e1]; exact hd.2

theorem KeyBroadcast.Sound.blocksOf (ha : a.Sound root) {rs : List Received} (h : ∀ r ∈ rs, r.hkroot = a.hkroot r.svn r.gst) :
    BlocksOf a.dsmId a.pkr (rs.map Received.dsmCall) := by
  intro d hd
  obtain ⟨r, hr, rfl⟩ := List.mem_map.1 hd
  obtain ⟨i, hi, he⟩ := ha.blocks r.svn r.gst
  obtain ⟨e1, e2, e3⟩ := ha.block (h r hr) hi he
  exact ⟨e1, fun _ => by rw [e2, e3]⟩

theorem KeyFollows.sub (hf : KeyFollows a before after) {after' : List Call} (h : ∀ p ∈ pagesOf after', p ∈ pagesOf after) :
    KeyFollows a before after' :=
  ⟨fun p hp => hf.heard p (h p hp), fun p hp q hq => hf.later p hp q (h q hq), hf.newId⟩

/-- The DSM-PKR is accepted at most once, and nothing else but TESLA keys. -/
theorem KeyFollows.messages (ha : a.Sound root) (hna : ¬ AlertIn log₁) (h₁ : Logs S (Osnma.new S (some root) pk0 slow) before log₁ o₁)
    (h : Logs S (Osnma.new S (some root) pk0 slow) (before ++ after) log o) (hf : KeyFollows a before after) :
    ∃ rs₁ rs₂, ReceivedIn (pagesOf before) rs₁ ∧ ReceivedIn (pagesOf before ++ pagesOf after) (rs₁ ++ rs₂) ∧
      (∀ r ∈ rs₂, r.hkroot = a.hkroot r.svn r.gst) ∧
      (¬ Complete a.dsmId (rs₂.map Received.dsmCall) → ∃ ks : List Key, log = log₁ ++ ks.map .tesla) ∧
      (Complete a.dsmId (rs₂.map Received.dsmCall) → ∃ ks ks' : List Key, log = log₁ ++ ks.map .tesla ++ [.pkr a.pkr a.pk] ++ ks'.map .tesla) := by
  obtain ⟨rs₁, h1, m1⟩ := C62_reference_machine h₁
  obtain ⟨rs, h2, m2⟩ := C62_reference_machine h
  rw [pagesOf_append] at h2
  obtain ⟨rs₂, rfl, h3⟩ := received_hkroot h1 h2 hf.later hf.heard
  obtain ⟨q1, q2⟩ := machine_recovers_pkr m1 m2 (hf.newId rs₁ · h1) ha.id.1 (ha.blocksOf h3) hna ha.size ha.nb ha.proved
  exact ⟨rs₁, rs₂, h1, h2, h3, q1, q2⟩

theorem KeyFollows.noAlert (ha : a.Sound root) (hna : ¬ AlertIn log₁) (h₁ : Logs S (Osnma.new S (some root) pk0 slow) before log₁ o₁)
    (h : Logs S (Osnma.new S (some root) pk0 slow) (before ++ after) log o) (hf : KeyFollows a before after) : ¬ AlertIn log := by
  rintro ⟨e, he, hal⟩
  obtain ⟨rs₁, rs₂, _, _, _, q1, q2⟩ := hf.messages ha hna h₁ h
  have : e ∈ log₁ := by
    by_cases hc : Complete a.dsmId (rs₂.map Received.dsmCall)
    · obtain ⟨ks, ks', rfl⟩ := q2 hc
      simp only [List.mem_append, List.mem_map, List.mem_singleton] at he
      rcases he with ((he | ⟨k, _, rfl⟩) | rfl) | ⟨k, _, rfl⟩
      · exact he
      all_goals exact absurd hal (by simp [KeyEvent.IsAlert])
    · obtain ⟨ks, rfl⟩ := q1 hc
      simp only [List.mem_append, List.mem_map] at he
      rcases he with he | ⟨k, _, rfl⟩
      · exact he
      · exact absurd hal (by simp [KeyEvent.IsAlert])
  exact hna ⟨e, this, hal⟩

/-- **C90.**  A receiver with the Merkle tree root, in any state in which no alert was verified, that hears a whole DSM-PKR of the tree under a DSM id other
than the last one heard: it accepts the key, once, and apart from it nothing but TESLA keys. -/
theorem C90_key_accepted (ha : a.Sound root) (hna : ¬ AlertIn log₁) (h₁ : Logs S (Osnma.new S (some root) pk0 slow) before log₁ o₁)
    (h : Logs S (Osnma.new S (some root) pk0 slow) (before ++ after) log o) (hf : KeyFollows a before after)
    (hord : (pagesOf after).Pairwise (fun p q => p.sub.abs ≤ q.sub.abs)) (hw : WholeKeyHeard a after) :
    ∃ ks ks' : List Key, log = log₁ ++ ks.map .tesla ++ [.pkr a.pkr a.pk] ++ ks'.map .tesla := by
  obtain ⟨rs₁, rs₂, h1, h2, h3, _, q2⟩ := hf.messages ha hna h₁ h
  apply q2
  rw [complete_iff_gen (ha.blocksOf h3) ha.announces]
  intro i hi
  obtain ⟨v, g, hv, hc⟩ := hw i hi
  obtain ⟨r, e1, e2, e3⟩ := heardWhole_received h2 hf.later hord hv
  have hr2 : r ∈ rs₂ := by
    rcases List.mem_append.1 e1 with h | h
    · exfalso
      obtain ⟨p, hp, he⟩ := received_sub h1 h
      obtain ⟨q, hq, hg, _⟩ := heardWhole_mem hv
      have := hf.later p hp q hq
      rw [he, e3, hg] at this
      omega
    · exact h
  refine ⟨r.dsmCall, List.mem_map_of_mem hr2, (ha.block (h3 r hr2) hi ?_).2.1⟩
  rw [e2, e3]; exact hc

/-- The keys held after a newer one was proved. -/
theorem keysHeld_pkr (pk0 : Option (PublicKey C)) (log₁ : List (KeyEvent C)) (ks ks' : List Key) (data : List Byte) {pk : PublicKey C}
    (hnew : Newer pk (keysHeld pk0 log₁)) :
    (keysHeld pk0 (log₁ ++ ks.map .tesla ++ [.pkr data pk] ++ ks'.map .tesla)).1 = some pk ∨
      (keysHeld pk0 (log₁ ++ ks.map .tesla ++ [.pkr data pk] ++ ks'.map .tesla)).2 = some pk := by
  rw [keysHeld_teslas]
  have e : keysHeld pk0 (log₁ ++ ks.map .tesla ++ [.pkr data pk]) = keysAfter (keysHeld pk0 log₁) (.pkr data pk) := by
    rw [← keysHeld_teslas log₁ ks]
    unfold keysHeld
    rw [List.foldl_append]; rfl
  rw [e]
  obtain ⟨n1, n2⟩ := hnew
  generalize keysHeld pk0 log₁ = held at n1 n2
  obtain ⟨x, y⟩ := held
  unfold keysAfter
  cases x with
  | none => exact .inl rfl
  | some c =>
    have hc := n1 c rfl
    cases y with
    | none => dsimp only; rw [if_pos hc]; exact .inr rfl
    | some n => dsimp only; rw [if_pos ⟨hc, n2 n rfl⟩]; exact .inr rfl

/-- **C90.**  If the key is newer than those held (or there is none), it is then held. -/
theorem C90_key_held (ha : a.Sound root) (hna : ¬ AlertIn log₁) (h₁ : Logs S (Osnma.new S (some root) pk0 slow) before log₁ o₁)
    (h : Logs S (Osnma.new S (some root) pk0 slow) (before ++ after) log o) (hf : KeyFollows a before after)
    (hord : (pagesOf after).Pairwise (fun p q => p.sub.abs ≤ q.sub.abs)) (hw : WholeKeyHeard a after)
    (hnew : Newer a.pk (keysHeld pk0 log₁)) :
    o.data.data.pubkey.current = some a.pk ∨ o.data.data.pubkey.next = some a.pk := by
  obtain ⟨ks, ks', rfl⟩ := C90_key_accepted ha hna h₁ h hf hord hw
  have hk := C29_keys_exact h
  have h1 := congrArg Prod.fst hk
  have h2 := congrArg Prod.snd hk
  rw [show o.data.data.pubkey.current = _ from h1, show o.data.data.pubkey.next = _ from h2]
  exact keysHeld_pkr pk0 log₁ ks ks' a.pkr hnew

/-! ## No panics -/

theorem KeyBroadcast.Sound.harmless (ha : a.Sound root) : HarmlessPkr C root.val a.pkr := by
  constructor
  · intro ht _
    rcases ha.proved.key with ⟨_, _, _, k, hk, _⟩ | ⟨ht', _⟩
    · rw [hk]; rfl
    · rw [ht] at ht'; cases ht'
  · intro ht
    rcases ha.proved.key with ⟨ht', _⟩ | ⟨_, hl, _, _, k, hk, _⟩
    · rw [ht] at ht'; cases ht'
    · exact ⟨hl, fun _ _ => by rw [hk]; rfl⟩

/-- What is completed by the next call. -/
theorem completesDsm_key (ha : a.Sound root) (h₁ : Logs S (Osnma.new S (some root) pk0 slow) before log₁ o₁)
    (hl : Logs S (Osnma.new S (some root) pk0 slow) (before ++ after) log o)
    {d : OsnmaDataMessage} {s : Svn} {g : Gst} (hf : KeyFollows a before (after ++ [.osnma d s g])) {h : NmaHeader} {x : Dsm}
    (hc : CompletesDsm o d s g h x) : x.data = a.pkr ∧ x.dsmType = .Pkr := by
  obtain ⟨⟨y, hy, hy0⟩, sf, hk, m, g1, b1, block, c, hfeed, hval, hdsm⟩ := hc
  have hnz : ¬ d.val.all (fun x => x == 0#8) = true := by
    intro hall
    rw [List.all_eq_true] at hall
    exact hy0 (by simpa using hall y hy)
  have hp1 : pagesOf [Call.osnma d s g] = [⟨d, s, g⟩] := by
    simp only [pagesOf, List.filterMap_cons, hnz, if_false, List.filterMap_nil, Bool.false_eq_true]
  have hp : pagesOf (after ++ [Call.osnma d s g]) = pagesOf after ++ [⟨d, s, g⟩] := by rw [pagesOf_append, hp1]
  have hfull := hf.heard
  have hlater := hf.later
  unfold KeyHeard at hfull
  rw [hp] at hfull hlater
  obtain ⟨rs₁, hr1, _⟩ := C62_reference_machine h₁
  obtain ⟨rs, outs, douts, h1, h2, h3, hm⟩ := keyMachine_run hl
  rw [pagesOf_append] at h1 h2
  obtain ⟨rs₂, rfl, hs⟩ := received_hkroot hr1 h2 (fun p hp q hq => hlater p hp q (by simp [hq])) (fun q hq => hfull q (by simp [hq]))
  have hr : CompletesSubframe (pagesOf before ++ pagesOf after) ⟨d, s, g⟩ ⟨s, hk, m, g1⟩ :=
    (feed_completes (p := ⟨d, s, g⟩) h1 hfeed _).2 ⟨rfl, rfl⟩
  have hsent := completes_hkroot (a := a) hr (fun q hq => hlater q hq ⟨d, s, g⟩ (by simp)) hfull
  have hcall : (⟨s, hk, m, g1⟩ : Received).dsmCall = ⟨⟨b1⟩, block⟩ := by
    unfold Received.dsmCall
    have e2 : (⟨hk.val.drop 2, by rw [List.length_drop, hk.property]⟩ : DsmBlock) = block := Subtype.ext (by dsimp only; rw [hval]; rfl)
    show (⟨⟨(hk.val.drop 1).headD 0⟩, _⟩ : DsmCall) = _
    rw [e2, hval]; rfl
  have hdsm' : o.data.dsm.feed (⟨s, hk, m, g1⟩ : Received).dsmCall.header (⟨s, hk, m, g1⟩ : Received).dsmCall.block = .ok (c, some x) := by
    rw [hcall]; exact hdsm
  obtain ⟨ht, hcw⟩ := (feed_dsm h3 hdsm').1 x rfl
  have hall : ∀ r ∈ rs₂ ++ [(⟨s, hk, m, g1⟩ : Received)], r.hkroot = a.hkroot r.svn r.gst := by
    intro r hr
    rw [List.mem_append, List.mem_singleton] at hr
    rcases hr with hr | rfl
    · exact hs r hr
    · exact hsent
  have hbl := ha.blocksOf hall
  have hid := (hbl _ (List.mem_map_of_mem (List.mem_append_right rs₂ (List.mem_singleton_self _)))).1
  have hsame : sinceId ((rs₁ ++ rs₂).map Received.dsmCall) a.dsmId = rs₂.map Received.dsmCall := by
    rw [List.map_append, sinceId_append_same (fun d hd => (ha.blocksOf hs d hd).1), sinceId_other, List.nil_append]
    intro d hd'
    rw [List.getLast?_map, Option.map_eq_some_iff] at hd'
    obtain ⟨q, hq, rfl⟩ := hd'
    exact hf.newId rs₁ q hr1 hq
  have hcc := (completes_of_gen ha.announces hid (by rw [hsame]; simpa using hbl) _).1 hcw
  refine ⟨hcc.1, ?_⟩
  rw [ht, DsmHeader.type_eq, hid, if_pos ha.id.1]

/-- **C90.**  It does not panic while the DSM-PKR is heard, of which anything may be missing, in any order, and any words; from 6 minutes after the origin of GST on, if the
parameters of the chains signed so far fit together. -/
theorem C90_never_panics (hS : S.Consistent) (h0 : (Osnma.new S (some root) pk0 slow : Osnma C).Fresh S) (ha : a.Sound root) (hna : ¬ AlertIn log₁)
    (h₁ : Logs S (Osnma.new S (some root) pk0 slow) before log₁ o₁) (hf : KeyFollows a before after) (hsense : SensibleLog log₁)
    (htime : ∀ p ∈ pagesOf after, 360 ≤ p.sub.abs) :
    ∃ log o, Logs S (Osnma.new S (some root) pk0 slow) (before ++ after) log o := by
  induction after using snoc_induction with
  | h0 => exact ⟨_, _, by rw [List.append_nil]; exact h₁⟩
  | h1 l c ih =>
    have hsub : ∀ p ∈ pagesOf l, p ∈ pagesOf (l ++ [c]) := fun p hp => by rw [pagesOf_append]; exact List.mem_append_left _ hp
    have hf' : KeyFollows a before l := hf.sub hsub
    obtain ⟨log, o, hl⟩ := ih hf' (fun p hp => htime p (hsub p hp))
    suffices ∃ o', c.run S o = .ok o' by
      obtain ⟨o', ho'⟩ := this
      refine ⟨log ++ o.events S c, o', ?_⟩
      rw [← List.append_assoc]
      exact .snoc c hl ho'
    cases c with
    | inav w s g bd => exact C38_feed_inav_returns hS h0 hl.run w s g bd
    | osnma d s g =>
      by_cases hz : d.val.all (fun x => x == 0#8) = true
      · exact ⟨o, by show o.feedOsnma S d s g = _; unfold Osnma.feedOsnma; rw [if_pos hz]; rfl⟩
      · have hg : 360 ≤ g.subframe.abs := by
          have : (⟨d, s, g⟩ : Page) ∈ pagesOf (l ++ [.osnma d s g]) := by
            rw [pagesOf_append]
            apply List.mem_append_right
            simp only [pagesOf, List.filterMap_cons, hz, if_false, List.filterMap_nil, Bool.false_eq_true, List.mem_singleton]
          have := htime _ this
          rwa [show Page.sub ⟨d, s, g⟩ = g.subframe from rfl] at this
        have hch : ∀ h data pk k g', KeyEvent.kroot h data pk k g' ∈ log ++ o.events S (.osnma d s g) → KeyEvent.kroot h data pk k g' ∈ log₁ := by
          intro h data pk k g' he
          rw [List.mem_append] at he
          rcases he with he | he
          · obtain ⟨rs₁, rs₂, _, _, _, q1, q2⟩ := hf'.messages ha hna h₁ hl
            by_cases hc : Complete a.dsmId (rs₂.map Received.dsmCall)
            · obtain ⟨ks, ks', rfl⟩ := q2 hc
              simp only [List.mem_append, List.mem_map, List.mem_singleton] at he
              rcases he with ((he | ⟨k, _, he⟩) | he) | ⟨k, _, he⟩
              · exact he
              all_goals cases he
            · obtain ⟨ks, rfl⟩ := q1 hc
              simp only [List.mem_append, List.mem_map] at he
              rcases he with he | ⟨k, _, he⟩
              · exact he
              · cases he
          · exfalso
            obtain ⟨x, hx, _, _, hk⟩ := kroot_event he
            obtain ⟨_, e3⟩ := completesDsm_key ha h₁ hl hf hx
            rw [hk] at e3
            cases e3
        refine (feedOsnma_returns_iff hS h0 hl d s g hg ?_).2 ?_
        · intro h data pk k g' h' data' pk' k' g'' he he'
          exact hsense _ _ _ _ _ _ _ _ _ _ (hch _ _ _ _ _ he) (hch _ _ _ _ _ he')
        · intro h x hx
          obtain ⟨e2, e3⟩ := completesDsm_key ha h₁ hl hf hx
          unfold HarmlessDsm
          rw [e3]
          dsimp only
          intro r hr
          rw [e2]
          rw [merkleTree_run hl (hf'.noAlert ha hna h₁ hl)] at hr
          cases hr
          exact ha.harmless

/-! ## Then a broadcast signed with the key -/

/-- If a TESLA key of the chain is held, then the keys of the broadcast heard in `after` lead to it in at most 3000 steps. -/
def LeadsTo (b : Broadcast C) (log : List (KeyEvent C)) (after : List Call) : Prop :=
  ∀ q ∈ pagesOf after, ∀ k, (teslaHeld log).1 = some k ∨ (teslaHeld log).2 = some k → k.chain.id = b.root.chain.id →
    k.chain = b.root.chain ∧ ∃ n, 1 ≤ n ∧ n ≤ 3000 ∧ Derives C b.root.chain n (q.sub, (b.key q.sub).bytes) (k.gst, k.bytes)

variable {log₂ : List (KeyEvent C)} {o₂ : Osnma C}

/-- A broadcast signed with the key can be joined (C76). -/
theorem C90_can_join (ha : a.Sound root) (hna : ¬ AlertIn log₁) (h₁ : Logs S (Osnma.new S (some root) pk0 slow) before log₁ o₁)
    (h₂ : Logs S (Osnma.new S (some root) pk0 slow) (before ++ mid) log₂ o₂) (hf : KeyFollows a before mid)
    (hord : (pagesOf mid).Pairwise (fun p q => p.sub.abs ≤ q.sub.abs)) (hw : WholeKeyHeard a mid)
    (hnew : Newer a.pk (keysHeld pk0 log₁)) (hb : b.Sound) (hpk : b.pk = a.pk) (hh : Heard b after)
    (hlater : ∀ p ∈ pagesOf (before ++ mid), ∀ q ∈ pagesOf after, p.sub.abs < q.sub.abs) (hlead : LeadsTo b log₂ after) :
    Follows b pk0 (before ++ mid) log₂ after where
  heard := hh
  later := hlater
  held := by
    obtain ⟨ks, ks', rfl⟩ := C90_key_accepted ha hna h₁ h₂ hf hord hw
    rw [hpk]
    exact keysHeld_pkr pk0 log₁ ks ks' a.pkr hnew
  newId := by
    intro rs r hr hlast
    obtain ⟨rs₁, rs₂, h1, h2, h3, q1, q2⟩ := hf.messages ha hna h₁ h₂
    rw [pagesOf_append] at hr
    obtain rfl := hr.unique h2
    have hne : rs₂ ≠ [] := by
      rintro rfl
      obtain ⟨ks, ks', e⟩ := C90_key_accepted ha hna h₁ h₂ hf hord hw
      obtain ⟨ks'', e'⟩ := q1 (by simpa using not_complete_nil a.dsmId)
      have hm : KeyEvent.pkr a.pkr a.pk ∈ (ks''.map KeyEvent.tesla : List (KeyEvent C)) := by
        have : (ks''.map KeyEvent.tesla : List (KeyEvent C)) = ks.map .tesla ++ [.pkr a.pkr a.pk] ++ ks'.map .tesla := by
          rw [e, List.append_assoc, List.append_assoc] at e'
          have := List.append_cancel_left e'
          rw [← this]; simp
        rw [this]; simp
      obtain ⟨k, _, hk⟩ := List.mem_map.1 hm
      cases hk
    have hr2 : r ∈ rs₂ := by
      rcases List.eq_nil_or_concat rs₂ with e | ⟨l, x, rfl⟩
      · exact absurd e hne
      · rw [List.concat_eq_append, ← List.append_assoc, List.getLast?_append] at hlast
        simp only [List.getLast?_singleton, Option.some_or, Option.some.injEq] at hlast
        simp [hlast]
    have hid := (ha.blocksOf h3 _ (List.mem_map_of_mem hr2)).1
    rw [hid]
    have := hb.id
    have := ha.id.1
    omega
  leads := hlead

/-- **C90.**  A receiver with the Merkle tree root, in any state in which no alert was verified, hears a whole DSM-PKR with a newer public key, and then a
genuine broadcast whose DSM-KROOT is signed with this key: once all blocks of this DSM-KROOT were received, it is accepted, and the new key is the one
in use. -/
theorem C90_kroot_accepted (ha : a.Sound root) (hna : ¬ AlertIn log₁) (h₁ : Logs S (Osnma.new S (some root) pk0 slow) before log₁ o₁)
    (h₂ : Logs S (Osnma.new S (some root) pk0 slow) (before ++ mid) log₂ o₂) (hf : KeyFollows a before mid)
    (hord : (pagesOf mid).Pairwise (fun p q => p.sub.abs ≤ q.sub.abs)) (hw : WholeKeyHeard a mid)
    (hnew : Newer a.pk (keysHeld pk0 log₁)) (hb : b.Sound) (hpk : b.pk = a.pk) (hh : Heard b after)
    (hlater : ∀ p ∈ pagesOf (before ++ mid), ∀ q ∈ pagesOf after, p.sub.abs < q.sub.abs) (hlead : LeadsTo b log₂ after)
    (h : Logs S (Osnma.new S (some root) pk0 slow) (before ++ mid ++ after) log o)
    (hord' : (pagesOf after).Pairwise (fun p q => p.sub.abs ≤ q.sub.abs)) {til : Gst} (hk : KrootHeard b after til) :
    (∃ (g : Gst) (ks ks' : List Key), g.abs ≤ til.abs ∧ log = log₂ ++ ks.map .tesla ++ [.kroot b.header b.kroot a.pk b.root g] ++ ks'.map .tesla) ∧
      o.data.data.pubkey.current = some a.pk := by
  have hfol := C90_can_join ha hna h₁ h₂ hf hord hw hnew hb hpk hh hlater hlead
  obtain ⟨g, ks, ks', hg, rfl⟩ := C76_kroot_accepted hb h₂ h hfol hord' hk
  rw [hpk]
  refine ⟨⟨g, ks, ks', hg, rfl⟩, ?_⟩
  have hx := congrArg Prod.fst (C29_keys_exact h)
  rw [show o.data.data.pubkey.current = _ from hx, keysHeld_teslas]
  have e : keysHeld pk0 (log₂ ++ ks.map .tesla ++ [.kroot b.header b.kroot b.pk b.root g]) =
      keysAfter (keysHeld pk0 log₂) (.kroot b.header b.kroot b.pk b.root g) := by
    rw [← keysHeld_teslas log₂ ks]
    unfold keysHeld
    rw [List.foldl_append]; rfl
  rw [e]
  have hheld := hfol.held
  have hdist := keysHeld_ordered pk0 log₂
  rw [hpk] at hheld ⊢
  generalize keysHeld pk0 log₂ = held at hheld hdist
  obtain ⟨x, y⟩ := held
  unfold keysAfter
  dsimp only
  rw [if_neg hb.calm]
  cases x with
  | none => rfl
  | some c =>
    dsimp only
    split
    · rename_i hid
      rcases hheld with e | e
      · exact e
      · obtain ⟨c', hc', hlt⟩ := hdist a.pk e
        cases hc'
        omega
    · rfl

/-- **C90.**  Under the same conditions, the data gets authenticated by the tags of the new broadcast as after a cold start (C75). -/
theorem C90_authenticates (hS : S.Consistent) (h0 : (Osnma.new S (some root) pk0 slow : Osnma C).Fresh S)
    (ha : a.Sound root) (hna : ¬ AlertIn log₁) (h₁ : Logs S (Osnma.new S (some root) pk0 slow) before log₁ o₁)
    (h₂ : Logs S (Osnma.new S (some root) pk0 slow) (before ++ mid) log₂ o₂) (hf : KeyFollows a before mid)
    (hw : WholeKeyHeard a mid) (hnew : Newer a.pk (keysHeld pk0 log₁)) (hb : b.Sound) (hpk : b.pk = a.pk) (hh : Heard b after)
    (hlater : ∀ p ∈ pagesOf (before ++ mid), ∀ q ∈ pagesOf after, p.sub.abs < q.sub.abs) (hlead : LeadsTo b log₂ after)
    (h : run S (Osnma.new S (some root) pk0 slow) (before ++ mid ++ after) = .ok o)
    (hord : CallsInOrder (before ++ mid ++ after)) (hfit : Fits S (inavsOf (before ++ mid ++ after)))
    (hroom : ∀ g : Gst, ∃ sats : List Svn, sats.length ≤ S.numSats ∧ ∀ p ∈ pagesOf (before ++ mid ++ after), p.sub = g → p.svn ∈ sats)
    (hweek : ∀ c ∈ inavsOf (before ++ mid ++ after), 7650 ≤ c.gst.abs) (kd : NavKind) (v : Svn) (bits : List Bool) (n : Nat)
    (hn : n ≤ (before ++ mid ++ after).length) (hfed : ∃ c ∈ inavsOf ((before ++ mid ++ after).take n), c.svn = v)
    (hsame : ∀ i, n ≤ i → i ≤ (before ++ mid ++ after).length → kd.expected (inavsOf ((before ++ mid ++ after).take i)) v = bits)
    (tags : List TagUse) (hnd : tags.Nodup) (htags : ∀ u ∈ tags, TagHeard b S slow (before ++ mid ++ after) after kd v bits u ∧
      (∀ c ∈ (before ++ mid ++ after).take n, c.gst.subframe.abs < u.key.gst.abs) ∧
      (u.tag.adkd = 12 → (∀ hd, lastHeader log₁ = some hd → hd.chainId = b.header.chainId) ∨
        ∃ g : Gst, g.abs ≤ u.gst.abs + 30 ∧ KrootHeard b after g))
    (henough : 40 ≤ (tags.map (fun u => u.tag.tag.length)).sum) :
    ∃ d, o.get S kd v = .ok (some d) ∧ d.data = bits ∧ min 65535 (tags.map (fun u => u.tag.tag.length)).sum ≤ d.authbits := by
  have hord1 : (pagesOf mid).Pairwise (fun p q => p.sub.abs ≤ q.sub.abs) := by
    have := hord.pages
    rw [pagesOf_append, pagesOf_append] at this
    exact (List.pairwise_append.1 (List.pairwise_append.1 this).1).2.1
  have hfol := C90_can_join ha hna h₁ h₂ hf hord1 hw hnew hb hpk hh hlater hlead
  refine C76_authenticates hS h0 hb h₂ h hfol hord hfit hroom hweek kd v bits n hn hfed hsame tags hnd ?_ henough
  intro u hu
  obtain ⟨u1, u2, u3⟩ := htags u hu
  refine ⟨u1, u2, fun ht => (u3 ht).imp_left ?_⟩
  intro hl hd hhd
  apply hl hd
  obtain ⟨ks, ks', rfl⟩ := C90_key_accepted ha hna h₁ h₂ hf hord1 hw
  rw [← hhd]
  unfold lastHeader
  simp only [List.filterMap_append, List.filterMap_map, List.filterMap_cons, List.filterMap_nil, KeyEvent.header?]
  have hz : ∀ l : List Key, l.filterMap (KeyEvent.header? ∘ KeyEvent.tesla (C := C)) = [] := by
    intro l
    induction l with
    | nil => rfl
    | cons k l ih => rw [List.filterMap_cons]; exact ih
  rw [hz, hz]
  simp

/-! ## From the root of the Merkle tree alone -/

theorem fresh_root : (Osnma.new S (some root) pk0 slow : Osnma C).Fresh S := .inl ⟨root, pk0, slow, rfl⟩

/-- No TESLA key is held before a DSM-KROOT was verified. -/
theorem teslaHeld_pkr (ks ks' : List Key) (data : List Byte) (pk : PublicKey C) :
    teslaHeld (([] : List (KeyEvent C)) ++ ks.map .tesla ++ [.pkr data pk] ++ ks'.map .tesla) = (none, none) := by
  have hz : ∀ l : List Key, (l.map (KeyEvent.tesla (C := C))).foldl teslaAfter (none, none) = (none, none) := by
    intro l
    induction l with
    | nil => rfl
    | cons k l ih => rw [List.map_cons, List.foldl_cons]; exact ih
  unfold teslaHeld
  rw [List.nil_append, List.foldl_append, List.foldl_append, hz]
  exact hz ks'

/-- **C90.**  A receiver that was given the root of the Merkle tree and nothing else hears a DSM-PKR of the tree, in any whole subframes, and then a genuine
broadcast signed with the key in it.  It does not panic. -/
theorem C90_from_root_never_panics (hS : S.Consistent) (ha : a.Sound root) (hm : KeyHeard a mid) (hw : WholeKeyHeard a mid)
    (hord : (pagesOf mid).Pairwise (fun p q => p.sub.abs ≤ q.sub.abs)) (htime : ∀ p ∈ pagesOf mid, 360 ≤ p.sub.abs)
    (hb : b.Sound) (hpk : b.pk = a.pk) (hh : Heard b after) (hlater : ∀ p ∈ pagesOf mid, ∀ q ∈ pagesOf after, p.sub.abs < q.sub.abs) :
    ∃ (log : List (KeyEvent C)) (o : Osnma C), Logs S (Osnma.new S (some root) none slow) (mid ++ after) log o := by
  have hf : KeyFollows a [] mid := ⟨hm, fun p hp => (by cases hp), fun rs r hr hl => by
    have : rs = [] := hr.unique .nil
    rw [this] at hl; cases hl⟩
  have hna : ¬ AlertIn ([] : List (KeyEvent C)) := by rintro ⟨e, he, _⟩; cases he
  obtain ⟨log₂, o₂, h₂⟩ := C90_never_panics hS fresh_root ha hna (.nil : Logs S (Osnma.new S (some root) none slow) [] [] _) hf
    (by intro h data pk k g h' data' pk' k' g' he; cases he) htime
  obtain ⟨ks, ks', e⟩ := C90_key_accepted ha hna .nil h₂ hf hord hw
  have hlead : LeadsTo b log₂ after := by
    intro q hq k hk
    rw [e, teslaHeld_pkr] at hk
    rcases hk with hk | hk <;> cases hk
  have hfol := C90_can_join ha hna .nil h₂ hf hord hw ⟨fun k hk => (by cases hk), fun k hk => (by cases hk)⟩ hb hpk hh hlater hlead
  have hnok : ∀ h data pk k g, KeyEvent.kroot h data pk k g ∉ log₂ := by
    intro h data pk k g he
    rw [e] at he
    simp only [List.mem_append, List.mem_map, List.mem_singleton] at he
    rcases he with ((he | ⟨k, _, he⟩) | he) | ⟨k, _, he⟩ <;> cases he
  exact C76_never_panics hS fresh_root hb h₂ hfol (fun h data pk k g _ _ _ _ _ he => absurd he (hnok h data pk k g))
    (fun h data pk k g he => absurd he (hnok h data pk k g))

/-- **C90.**  Then, once tags of 40 bits or more in total of the unchanged data of a satellite, and their keys, were heard, the getter returns exactly that
data. -/
theorem C90_from_root_authenticates (hS : S.Consistent) (ha : a.Sound root) (hm : KeyHeard a mid) (hw : WholeKeyHeard a mid)
    (hb : b.Sound) (hpk : b.pk = a.pk) (hh : Heard b after) (hlater : ∀ p ∈ pagesOf mid, ∀ q ∈ pagesOf after, p.sub.abs < q.sub.abs)
    (h : run S (Osnma.new S (some root) none slow) (mid ++ after) = .ok o)
    (hord : CallsInOrder (mid ++ after)) (hfit : Fits S (inavsOf (mid ++ after)))
    (hroom : ∀ g : Gst, ∃ sats : List Svn, sats.length ≤ S.numSats ∧ ∀ p ∈ pagesOf (mid ++ after), p.sub = g → p.svn ∈ sats)
    (hweek : ∀ c ∈ inavsOf (mid ++ after), 7650 ≤ c.gst.abs) (kd : NavKind) (v : Svn) (bits : List Bool) (n : Nat)
    (hn : n ≤ (mid ++ after).length) (hfed : ∃ c ∈ inavsOf ((mid ++ after).take n), c.svn = v)
    (hsame : ∀ i, n ≤ i → i ≤ (mid ++ after).length → kd.expected (inavsOf ((mid ++ after).take i)) v = bits)
    (tags : List TagUse) (hnd : tags.Nodup) (htags : ∀ u ∈ tags, TagHeard b S slow (mid ++ after) after kd v bits u ∧
      ∀ c ∈ (mid ++ after).take n, c.gst.subframe.abs < u.key.gst.abs)
    (henough : 40 ≤ (tags.map (fun u => u.tag.tag.length)).sum) :
    ∃ d, o.get S kd v = .ok (some d) ∧ d.data = bits ∧ min 65535 (tags.map (fun u => u.tag.tag.length)).sum ≤ d.authbits := by
  have hf : KeyFollows a [] mid := ⟨hm, fun p hp => (by cases hp), fun rs r hr hl => by
    have : rs = [] := hr.unique .nil
    rw [this] at hl; cases hl⟩
  have hna : ¬ AlertIn ([] : List (KeyEvent C)) := by rintro ⟨e, he, _⟩; cases he
  obtain ⟨log, hlog⟩ := Logs.of_run h
  obtain ⟨log₂, o₂, lq, h₂, _, _⟩ := hlog.split
  have hord1 : (pagesOf mid).Pairwise (fun p q => p.sub.abs ≤ q.sub.abs) := by
    have := hord.pages
    rw [pagesOf_append] at this
    exact (List.pairwise_append.1 this).1
  obtain ⟨ks, ks', e⟩ := C90_key_accepted ha hna .nil h₂ hf hord1 hw
  have hlead : LeadsTo b log₂ after := by
    intro q hq k hk
    rw [e, teslaHeld_pkr] at hk
    rcases hk with hk | hk <;> cases hk
  refine C90_authenticates hS fresh_root ha hna .nil h₂ hf hw ⟨fun k hk => (by cases hk), fun k hk => (by cases hk)⟩ hb hpk hh hlater hlead h
    hord hfit hroom hweek kd v bits n hn hfed hsame tags hnd ?_ henough
  intro u hu
  exact ⟨(htags u hu).1, (htags u hu).2, fun _ => .inl (fun hd hhd => by cases hhd)⟩

end Verif
