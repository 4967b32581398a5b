import Verif.Lemmas.Spoofing
import Verif.Props.Switch

/-! # C77: spoofed satellites do not stop authentication

A receiver that follows a genuine broadcast (`Spec/Broadcast.lean`), then is fed with pages of genuine satellites and with anything under
the numbers of other satellites (`Spec/Spoofing.lean`).  Cases, and what is not true: `Props/SpoofingExample.lean`. -/

namespace Verif
open CollectSubframe CollectDsm

variable {S : Storage} {C : Crypto} {b : Broadcast C} {root0 : Option MerkleTreeNode} {pk0 : Option (PublicKey C)} {slow : Bool}
  {before after mid : List Call} {log₁ log₂ log : List (KeyEvent C)} {o₁ o₂ o : Osnma C} {G : Svn → Prop}

theorem Spoofed.sub (hf : Spoofed b G before log₁ after) {after' : List Call} (h : ∀ p ∈ pagesOf after', p ∈ pagesOf after) :
    Spoofed b G before log₁ after' :=
  ⟨fun p hp => hf.time p (h p hp), fun p hp q hq => hf.later p hp q (h q hq), fun p hp => hf.genuine p (h p hp), hf.header, hf.held,
    fun q hq => hf.leads q (h q hq)⟩

/-- What was received in `before` and in `after`. -/
structure Received3 (b : Broadcast C) (root0 : Option MerkleTreeNode) (pk0 : Option (PublicKey C)) (G : Svn → Prop)
    (before after : List Call) (log₁ log : List (KeyEvent C)) (rs₁ rs₂ : List Received) : Prop where
  tracks : Tracks b root0 pk0 rs₁ log₁
  first : ReceivedIn (pagesOf before) rs₁
  all : ReceivedIn (pagesOf before ++ pagesOf after) (rs₁ ++ rs₂)
  sent : ∀ r ∈ rs₂, G r.svn → b.Sent r
  order : (rs₂.map Received.gst).Sublist ((pagesOf after).map Page.sub)
  machine : KeyMachine root0 pk0 (rs₁ ++ rs₂) log

theorem Spoofed.received (hf : Spoofed b G before log₁ after) (hb : b.Sound) (h₁ : Logs S (Osnma.new S root0 pk0 slow) before log₁ o₁)
    (h : Logs S (Osnma.new S root0 pk0 slow) (before ++ after) log o) : ∃ rs₁ rs₂, Received3 b root0 pk0 G before after log₁ log rs₁ rs₂ := by
  obtain ⟨rs₁, h1, hm1⟩ := C62_reference_machine h₁
  obtain ⟨rs, h2, hm⟩ := C62_reference_machine h
  rw [pagesOf_append] at h2
  obtain ⟨rs₂, rfl, h3, h4⟩ := received_spoofed h1 h2 hf.later hf.time hf.genuine
  exact ⟨rs₁, rs₂, ⟨hb, hm1, hf.header, hf.held⟩, h1, h2, h3, h4, hm⟩

variable {rs₁ rs₂ : List Received}

theorem Received3.sub (hr : Received3 b root0 pk0 G before after log₁ log rs₁ rs₂) {r : Received} (h : r ∈ rs₂) :
    ∃ p ∈ pagesOf after, p.sub = r.gst := by
  obtain ⟨p, hp, he⟩ := List.mem_map.1 (hr.order.subset (List.mem_map_of_mem h))
  exact ⟨p, hp, he⟩

theorem Received3.on (hr : Received3 b root0 pk0 G before after log₁ log rs₁ rs₂) (hf : Spoofed b G before log₁ after) :
    ∀ r ∈ rs₂, b.On r.gst := by
  intro r h
  obtain ⟨p, hp, he⟩ := hr.sub h
  rw [← he]; exact hf.time p hp

theorem Received3.leads (hr : Received3 b root0 pk0 G before after log₁ log rs₁ rs₂) (hf : Spoofed b G before log₁ after) :
    ∀ r ∈ rs₂, Leads b log₁ r.gst := by
  intro r h k hk hid
  obtain ⟨p, hp, he⟩ := hr.sub h
  rw [← he]
  exact hf.leads p hp k hk hid

theorem Received3.sorted (hr : Received3 b root0 pk0 G before after log₁ log rs₁ rs₂)
    (hord : (pagesOf after).Pairwise (fun p q => p.sub.abs ≤ q.sub.abs)) : rs₂.Pairwise (fun p q => p.gst.abs ≤ q.gst.abs) := by
  have := (List.pairwise_map.2 hord : ((pagesOf after).map Page.sub).Pairwise (fun p q => p.abs ≤ q.abs)).sublist hr.order
  rwa [List.pairwise_map] at this

theorem Received3.whole (hr : Received3 b root0 pk0 G before after log₁ log rs₁ rs₂)
    (hf : Spoofed b G before log₁ after) (hord : (pagesOf after).Pairwise (fun p q => p.sub.abs ≤ q.sub.abs)) {v : Svn} {g : Gst}
    (hw : HeardWhole after v g) : ∃ r ∈ rs₂, r.svn = v ∧ r.gst = g := by
  obtain ⟨r, h1, h2, h3⟩ := heardWhole_received hr.all hf.later hord hw
  rcases List.mem_append.1 h1 with h | h
  · exfalso
    obtain ⟨p, hp, he⟩ := received_sub hr.first h
    obtain ⟨q, hq, hg, _⟩ := heardWhole_mem hw
    have := hf.later p hp q hq
    rw [he, h3, hg] at this
    omega
  · exact ⟨r, h, h2, h3⟩

/-- **C77.**  A receiver that has heard a genuine broadcast (C76), with all the blocks of its DSM-KROOT, follows it: what is asked of it in the
other theorems is so, for all later calls during the broadcast. -/
theorem C77_established (hb : b.Sound) (h₁ : Logs S (Osnma.new S root0 pk0 slow) before log₁ o₁)
    (h₂ : Logs S (Osnma.new S root0 pk0 slow) (before ++ mid) log₂ o₂) (hf : Follows b pk0 before log₁ mid)
    (hord : (pagesOf mid).Pairwise (fun p q => p.sub.abs ≤ q.sub.abs)) {til : Gst} (hk : KrootHeard b mid til)
    (htime : ∀ p ∈ pagesOf after, b.On p.sub) (hlater : ∀ p ∈ pagesOf (before ++ mid), ∀ q ∈ pagesOf after, p.sub.abs < q.sub.abs)
    (hgen : ∀ p ∈ pagesOf after, G p.svn → p.hkroot = ((b.hkroot p.svn p.sub).val.drop p.word).take 1 ∧
      p.mack = ((b.mack p.svn p.sub).val.drop (4 * p.word)).take 4)
    (hleads : ∀ q ∈ pagesOf after, ∀ k, (teslaHeld log₁).1 = some k ∨ (teslaHeld log₁).2 = some k → k.chain.id = b.root.chain.id →
      k.chain = b.root.chain ∧ ∃ n, 1 ≤ n ∧ n ≤ 3000 ∧ Derives C b.root.chain n (q.sub, (b.key q.sub).bytes) (k.gst, k.bytes)) :
    Spoofed b G (before ++ mid) log₂ after := by
  obtain ⟨rs₁, rs₂, hr⟩ := hf.received hb h₁ h₂
  obtain ⟨g, ks, ks', _, he⟩ := C76_kroot_accepted hb h₁ h₂ hf hord hk
  refine ⟨htime, hlater, hgen, by rw [he]; exact lastHeader_after _ _ _ _ _ _ _, by
    rw [he]; exact held_teslas_some (held_kroot_some hb _ g) ks', ?_⟩
  intro q hq k hheld hid
  have hqon := htime q hq
  rcases hr.joins.source hr.sent (hr.leads hf) hr.machine hheld hid with h | rfl | ⟨r, hrm, rfl, _⟩
  · exact hleads q hq k h hid
  · exact ⟨rfl, b.derives_root hb hqon⟩
  · have hron := (hr.sent r hrm).1
    obtain ⟨p, hp, hpg⟩ := hr.sub hrm
    have hlt := hlater p (by rw [pagesOf_append]; exact List.mem_append_right _ hp) q hq
    rw [hpg] at hlt
    obtain ⟨n, hn, hd⟩ := b.derives hb hron hqon (by omega)
    refine ⟨(hb.keys _ hron).2.1, n, by omega, ?_, by rw [(hb.keys _ hron).1]; exact hd⟩
    have := hb.window
    have := hqon.2.2
    have := hron.2.1
    omega

/-- **C77.**  The TESLA key of every subframe in which some genuine satellite was heard is accepted, whatever the other satellites send, as
long as no other NMA header is verified; or else a key was accepted that gives an explicit collision of the one-way function. -/
theorem C77_key_accepted (hb : b.Sound) (h₁ : Logs S (Osnma.new S root0 pk0 slow) before log₁ o₁)
    (h : Logs S (Osnma.new S root0 pk0 slow) (before ++ after) log o) (hf : Spoofed b G before log₁ after)
    (hord : (pagesOf after).Pairwise (fun p q => p.sub.abs ≤ q.sub.abs)) (hsame : SameHeader b log₁ log) {v : Svn} (hG : G v) {g : Gst}
    (hv : HeardWhole after v g) : KeyEvent.tesla (b.key g) ∈ log ∨ ForgedKey b log := by
  by_cases hno : ForgedKey b log
  · exact .inr hno
  · obtain ⟨rs₁, rs₂, hr⟩ := hf.received hb h₁ h
    obtain ⟨r, hr1, rfl, rfl⟩ := hr.whole hf hord hv
    exact .inl ((hr.tracks.state (hr.on hf) (hr.leads hf) (hr.sorted hord) hr.machine hsame hno).2.2.2.2 r hr1 (hr.sent r hr1 hG))

/-- **C77.**  And no other key of the chain is accepted. -/
theorem C77_only_genuine_keys (hb : b.Sound) (h₁ : Logs S (Osnma.new S root0 pk0 slow) before log₁ o₁)
    (h : Logs S (Osnma.new S root0 pk0 slow) (before ++ after) log o) (hf : Spoofed b G before log₁ after)
    (hord : (pagesOf after).Pairwise (fun p q => p.sub.abs ≤ q.sub.abs)) (hsame : SameHeader b log₁ log) {rest : List (KeyEvent C)}
    (hl : log = log₁ ++ rest) {k : Key} (hk : KeyEvent.tesla k ∈ rest) : k = b.key k.gst ∨ ForgedKey b log := by
  by_cases hno : ForgedKey b log
  · exact .inr hno
  · obtain ⟨rs₁, rs₂, hr⟩ := hf.received hb h₁ h
    obtain ⟨rest', h1, h2⟩ := (hr.tracks.state (hr.on hf) (hr.leads hf) (hr.sorted hord) hr.machine hsame hno).1
    rw [hl] at h1
    obtain rfl := List.append_cancel_left h1
    exact .inl (h2 k hk)

/-- The chain in force does not change. -/
theorem Received3.noChange (hr : Received3 b root0 pk0 G before after log₁ log rs₁ rs₂) (hsame : SameHeader b log₁ log) {t : Int}
    (hbefore : ∀ p ∈ pagesOf before, p.sub.abs ≤ t) : NoChangeAfter log t := by
  apply noChange_times
  intro l x hl y hy hne
  obtain ⟨l0, rest, hm0, rfl⟩ := hr.machine.prefix
  obtain rfl := C62_machine_deterministic hm0 hr.tracks.before
  have hrest : ∀ z ∈ krootTimes rest, z.1 = b.header := by
    intro z hz
    unfold krootTimes at hz
    rw [List.mem_filterMap] at hz
    obtain ⟨e, he, hz⟩ := hz
    cases e with
    | kroot h data pk k g =>
      cases hz
      exact (hsame _ (by rw [List.drop_left]; exact he)).1 _ _ _ _ _ rfl
    | tesla k => cases hz
    | pkr d pk => cases hz
    | alert d => cases hz
  have hlast := hr.tracks.header
  rw [lastHeader_times, Option.map_eq_some_iff] at hlast
  obtain ⟨z, hz, hzb⟩ := hlast
  rw [krootTimes_append] at hl
  rcases List.eq_nil_or_concat (krootTimes rest) with hn | ⟨r', w, hw⟩
  · rw [hn, List.append_nil] at hl
    obtain ⟨r, h1, h2⟩ := machine_kroot_time hr.tracks.before (x := x) (by rw [hl]; simp)
    obtain ⟨p, hp, he⟩ := received_sub hr.first h1
    rw [← h2, ← he]
    exact hbefore p hp
  · exfalso
    rw [List.concat_eq_append] at hw
    rw [hw, ← List.append_assoc] at hl
    obtain ⟨rfl, rfl⟩ := append_singleton_cancel hl
    apply hne
    have h1 := hrest w (by rw [hw]; simp)
    have h2 : y.1 = b.header := by
      rcases List.eq_nil_or_concat r' with rfl | ⟨r'', w', rfl⟩
      · rw [List.append_nil, hz] at hy
        cases hy; exact hzb
      · rw [List.concat_eq_append, ← List.append_assoc, List.getLast?_concat] at hy
        cases hy
        exact hrest y (by rw [hw]; simp)
    rw [h1, h2]

theorem SameHeader.prefix (hsame : SameHeader b log₁ (log ++ log₂)) : SameHeader b log₁ log := by
  intro e he
  refine hsame e ?_
  rw [List.drop_append]
  exact List.mem_append_left _ he

/-- **C77.**  Let a receiver that follows a genuine broadcast be fed in chronological order, with room for all satellites, with anything under the
numbers of satellites that are not genuine, and let no other NMA header be verified.  If the data of satellite `v` has been `bits` from call number
`n` on, and different tags of this data with together 40 bits or more were heard from genuine satellites, with keys that were disclosed by genuine
satellites later than these first `n` calls, then the getter returns `bits`, with at least as many authentication bits; or else a key was accepted
that gives an explicit collision of the one-way function. -/
theorem C77_authenticates (hS : S.Consistent) (h0 : (Osnma.new S root0 pk0 slow : Osnma C).Fresh S) (hb : b.Sound)
    (h₁ : Logs S (Osnma.new S root0 pk0 slow) before log₁ o₁) (h : Logs S (Osnma.new S root0 pk0 slow) (before ++ after) log o)
    (hf : Spoofed b G before log₁ after) (hsame : SameHeader b log₁ log)
    (hord : CallsInOrder (before ++ after)) (hfit : Fits S (inavsOf (before ++ after)))
    (hroom : ∀ g : Gst, ∃ sats : List Svn, sats.length ≤ S.numSats ∧ ∀ p ∈ pagesOf (before ++ after), p.sub = g → p.svn ∈ sats)
    (hweek : ∀ c ∈ inavsOf (before ++ after), 7650 ≤ c.gst.abs) (kd : NavKind) (v : Svn) (bits : List Bool) (n : Nat)
    (hn : n ≤ (before ++ after).length) (hfed : ∃ c ∈ inavsOf ((before ++ after).take n), c.svn = v)
    (hbits : ∀ i, n ≤ i → i ≤ (before ++ after).length → kd.expected (inavsOf ((before ++ after).take i)) v = bits)
    (tags : List TagUse) (hnd : tags.Nodup) (htags : ∀ u ∈ tags, TagSent b S slow (before ++ after) after kd v bits u ∧ G u.prna ∧
      (∃ w, G w ∧ HeardWhole after w u.key.gst) ∧ ∀ c ∈ (before ++ after).take n, c.gst.subframe.abs < u.key.gst.abs)
    (henough : 40 ≤ (tags.map (fun u => u.tag.tag.length)).sum) :
    (∃ d, o.get S kd v = .ok (some d) ∧ d.data = bits ∧ min 65535 (tags.map (fun u => u.tag.tag.length)).sum ≤ d.authbits) ∨
      ForgedKey b log := by
  have hordA : (pagesOf after).Pairwise (fun p q => p.sub.abs ≤ q.sub.abs) := by
    have := hord.pages
    rw [pagesOf_append] at this
    exact (List.pairwise_append.1 this).2.1
  by_cases hno : ForgedKey b log
  · exact .inr hno
  left
  refine authenticates_of_keys hS h0 h hord hfit hroom hweek kd v bits n hn hfed hbits tags hnd ?_ henough
  intro u hu
  obtain ⟨hu1, hG, ⟨w, hGw, hw⟩, hu2⟩ := htags u hu
  have hev : KeyEvent.tesla u.key ∈ log := by
    rw [hu1.key]
    exact (C77_key_accepted hb h₁ h hf hordA hsame hGw hw).resolve_right hno
  refine ⟨hu1.genuine hb hf.later (fun p hp hs => hf.genuine p hp (by rw [hs]; exact hG)), hev, hu2, ?_⟩
  intro _ i c lo oi rest h1 hwhen hc h2 h5
  obtain ⟨qk, hqk, hqkg, _⟩ := heardWhole_mem hw
  obtain ⟨qu, hqu, hqug, _⟩ := heardWhole_mem hu1.heard
  rw [split_after hf.later h1 hc hqk (by rw [hqkg, hwhen]; exact Int.le_refl _)] at h2
  have hf' : Spoofed b G before log₁ (after.take (i + 1 - before.length)) :=
    hf.sub (fun p hp => ((List.take_sublist _ _).filterMap _).subset hp)
  obtain ⟨rs₁, rs₂, hr⟩ := hf'.received hb h₁ h2
  rw [h5] at hsame
  refine hr.noChange hsame.prefix ?_
  intro p hp
  have := hf.later p hp qu hqu
  rw [hqug] at this
  omega

end Verif
