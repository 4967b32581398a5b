import Verif.Lemmas.Disclosure
import Verif.Lemmas.NavGet
import Verif.Props.Keys
import Verif.Props.Switch

/-! # C78: what a key authenticates was received before the key -/

namespace Verif
open CollectNavMessage

variable {S : Storage} {C : Crypto} {root0 : Option MerkleTreeNode} {pk0 : Option (PublicKey C)} {slow : Bool}
  {hist : List Call} {log : List (KeyEvent C)} {o : Osnma C}

/-- **C78.** If a getter returns data, then the reported `authbits` is the total length of tags each of which proves the data (as in
C31) and was in time: its key was accepted by some call, and before this call the tag and the data had been received.  No tag is counted
twice in one call.  This holds whatever the order in which words and pages are fed. -/
theorem C78_in_time (hS : S.Consistent) (h0 : (Osnma.new S root0 pk0 slow : Osnma C).Fresh S)
    (h : run S (Osnma.new S root0 pk0 slow) hist = .ok o) (kd : NavKind) {svn : Svn} {d : NavMessageData}
    (hd : o.get S kd svn = .ok (some d)) :
    ∃ us : List (Nat × TagUse), us.Nodup ∧ 40 ≤ d.authbits ∧ d.authbits = min 65535 (us.map (fun p => p.2.tag.tag.length)).sum ∧
      ∀ p ∈ us, p.2.Proves root0 pk0 slow hist kd svn d.data ∧
        p.2.InTime S (Osnma.new S root0 pk0 slow) hist kd svn d.data p.1 := by
  have hinv := navInv_run hS h0 h
  obtain ⟨g, x, hb, e1, e2, _⟩ := get_some hinv hd
  obtain ⟨k, s, k1, _, k3, k4, k5, _⟩ := bestEntry_some hb
  have hm : x ∈ o.data.data.navmessage.arr kd := (Rep.mem hinv.rep).2 (.inl ⟨s, List.mem_of_getElem? k1, k3⟩)
  obtain ⟨us, a0, a1, a2⟩ := timed_evidence hS h0 h kd x hm
  refine ⟨us, a0, by omega, by rw [e2]; exact a1, ?_⟩
  intro p hp
  obtain ⟨v, hv, b1, b2⟩ := a2 p hp
  rw [k4] at hv; cases hv
  rw [e1]
  exact ⟨b1, b2⟩

/-- A history cut in two. -/
theorem Logs.split {o0 : Osnma C} {p q : List Call} (h : Logs S o0 (p ++ q) log o) :
    ∃ lp op lq, Logs S o0 p lp op ∧ Logs S op q lq o ∧ log = lp ++ lq := by
  induction q using CollectSubframe.snoc_induction generalizing log o with
  | h0 => exact ⟨log, o, [], by simpa using h, .nil, by simp⟩
  | h1 q c ih =>
    rw [← List.append_assoc] at h
    obtain ⟨l, o', h1, h2, h3⟩ := h.snoc_inv
    obtain ⟨lp, op, lq, e1, e2, e3⟩ := ih h1
    exact ⟨lp, op, lq ++ o'.events S c, e1, .snoc c e2 h2, by rw [h3, e3, List.append_assoc]⟩

/-- The log and the state are determined by the history. -/
theorem Logs.unique {o0 : Osnma C} {o' : Osnma C} {log' : List (KeyEvent C)} (h : Logs S o0 hist log o) (h' : Logs S o0 hist log' o') :
    log' = log ∧ o' = o := by
  induction hist using CollectSubframe.snoc_induction generalizing log o log' o' with
  | h0 =>
    have e : o' = o := by have := h.run; rw [h'.run] at this; exact Res.ok.inj this
    refine ⟨?_, e⟩
    have hn : ∀ {l : List (KeyEvent C)} {x : Osnma C} {hh : List Call}, Logs S o0 hh l x → hh = [] → l = [] := by
      intro l x hh hl he
      cases hl with
      | nil => rfl
      | snoc => simp at he
    rw [hn h rfl, hn h' rfl]
  | h1 hs c ih =>
    obtain ⟨l, a, h1, h2, h3⟩ := h.snoc_inv
    obtain ⟨l', a', h1', h2', h3'⟩ := h'.snoc_inv
    obtain ⟨rfl, rfl⟩ := ih h1 h1'
    rw [h2] at h2'
    exact ⟨by rw [h3, h3'], (Res.ok.inj h2').symm⟩

theorem inavsOf_append (p q : List Call) : inavsOf (p ++ q) = inavsOf p ++ inavsOf q := by
  unfold inavsOf; rw [List.filterMap_append]

theorem ReceivedMack.append {p q : List Call} {v : Svn} {g : Gst} {st : NmaStatus} {msg : MackMessage} (h : ReceivedMack p v g st msg) :
    ReceivedMack (p ++ q) v g st msg := by
  obtain ⟨ps, h1, h2⟩ := h
  exact ⟨ps, by rw [pagesOf_append]; exact h1.trans (List.sublist_append_left _ _), h2⟩

theorem ReceivedData.mono {p q : List InavCall} {kd : NavKind} {v : Svn} {bits : List Bool} (hpq : ∀ c ∈ p, c.svn = v → c ∈ q)
    (h : ReceivedData p kd v bits) : ReceivedData q kd v bits := by
  obtain ⟨w, h1, h2, h3⟩ := h
  exact ⟨w, h1, fun c hc => ⟨hpq c (h2 c hc).1 (h2 c hc).2, (h2 c hc).2⟩, h3⟩

/-- Calls in the order of their subframes, cut at an instant. -/
theorem calls_split (t : Int) {hist : List Call} (hord : CallsInOrder hist) :
    ∃ a b, hist = a ++ b ∧ (∀ c ∈ a, c.gst.subframe.abs < t) ∧ ∀ c ∈ b, t ≤ c.gst.subframe.abs := by
  unfold CallsInOrder at hord
  induction hist with
  | nil => exact ⟨[], [], rfl, by simp, by simp⟩
  | cons x l ih =>
    rw [List.pairwise_cons] at hord
    by_cases hx : x.gst.subframe.abs < t
    · obtain ⟨a, b, rfl, h1, h2⟩ := ih hord.2
      refine ⟨x :: a, b, rfl, ?_, h2⟩
      intro c hc
      rcases List.mem_cons.1 hc with rfl | hc
      · exact hx
      · exact h1 c hc
    · refine ⟨[], x :: l, rfl, by simp, ?_⟩
      intro c hc
      rcases List.mem_cons.1 hc with rfl | hc
      · omega
      · have := hord.1 c hc; omega

/-- Data put together from the last words. -/
theorem ReceivedData.of_latest {p : List InavCall} {kd : NavKind} {v : Svn}
    (h : ∀ f ∈ kd.fields, ∃ c, kd.latest p v f = some c) : ReceivedData p kd v (kd.expected p v) := by
  classical
  have hl : ∀ {f : NavField} {c : InavCall}, kd.latest p v f = some c → c ∈ p ∧ c.svn = v ∧ kd.carries c f = true := by
    intro f c hc
    unfold NavKind.latest at hc
    have := List.mem_of_getLast? hc
    rw [List.mem_filter] at this
    simpa using this
  obtain ⟨f0, hf0⟩ := kd.fields_nonempty
  obtain ⟨c0, hc0⟩ := h f0 hf0
  refine ⟨kd.fields.map (fun f => (kd.latest p v f).getD c0), by simp, ?_, ?_, ?_⟩
  · intro c hc
    obtain ⟨f, hf, rfl⟩ := List.mem_map.1 hc
    obtain ⟨c, hc⟩ := h f hf
    rw [hc]
    exact ⟨(hl hc).1, (hl hc).2.1⟩
  · intro x hx
    rw [List.zip_map_right, List.zip_eq_zipWith, List.zipWith_self, List.map_map] at hx
    obtain ⟨f, hf, rfl⟩ := List.mem_map.1 hx
    obtain ⟨c, hc⟩ := h f hf
    dsimp only [Function.comp, Prod.map]
    rw [hc]
    exact (hl hc).2.2
  · rw [List.zip_map_right, List.zip_eq_zipWith, List.zipWith_self, List.map_map, List.flatMap_map]
    unfold NavKind.expected
    simp only [List.flatMap_def]
    refine congrArg List.flatten (List.map_congr_left ?_)
    intro f hf
    obtain ⟨c, hc⟩ := h f hf
    unfold NavKind.fieldAfter
    dsimp only [Function.comp, Prod.map]
    rw [hc]
    rfl

variable {before after : List Call} {log₁ log₂ : List (KeyEvent C)} {o₁ : Osnma C}

/-- A key not later than one accepted in `before` is accepted in `before` only. -/
theorem TagUse.InTime.before_key (h1 : Logs S (Osnma.new S root0 pk0 slow) before log₁ o₁) (h2 : Logs S o₁ after log₂ o)
    {k' : Key} {l₁ l₂ : List (KeyEvent C)} (hk' : log₁ = l₁ ++ .tesla k' :: l₂) (hnd : ∀ e ∈ l₂ ++ log₂, ¬ e.Drops k'.chain.id)
    {kd : NavKind} {svn : Svn} {bits : List Bool} {i : Nat} {u : TagUse}
    (ht : u.InTime S (Osnma.new S root0 pk0 slow) (before ++ after) kd svn bits i) (hid : u.key.chain.id = k'.chain.id)
    (hle : u.key.gst.abs ≤ k'.gst.abs) : i < before.length := by
  apply Classical.byContradiction
  intro hge
  obtain ⟨lo, oi, c, hc, hlo, hev⟩ := ht.accepted
  have hi : i < (before ++ after).length := (List.getElem?_eq_some_iff.1 hc).1
  have hall := h1.trans h2
  have e1 : (before ++ after).take i = before ++ after.take (i - before.length) := by
    rw [List.take_append, List.take_of_length_le (by omega)]
  have e2 : before ++ after = ((before ++ after).take i ++ [c]) ++ (before ++ after).drop (i + 1) := by
    conv => lhs; rw [← List.take_append_drop i (before ++ after)]
    rw [List.drop_eq_getElem_cons hi, (List.getElem?_eq_some_iff.1 hc).2]
    simp
  have hall' := hall
  rw [e2] at hall'
  obtain ⟨lp, op, lq, s1, _, s3⟩ := hall'.split
  obtain ⟨lo', oi', t1, _, t3⟩ := s1.snoc_inv
  obtain ⟨rfl, rfl⟩ := hlo.unique t1
  rw [e1] at hlo
  obtain ⟨lb, ob, lx, x1, _, x3⟩ := hlo.split
  obtain ⟨rfl, rfl⟩ := h1.unique x1
  obtain ⟨ea, eb, hab⟩ := List.append_of_mem hev
  have hl2 : log₂ = lx ++ (ea ++ .tesla u.key :: eb) ++ lq := by
    rw [t3, x3, hab, List.append_assoc, List.append_assoc] at s3
    rw [List.append_cancel_left s3]
    simp only [List.append_assoc]
  have := C30_accepted_keys_increase (l1 := l₁) (k := k') (l2 := l₂ ++ lx ++ ea) (k' := u.key) (l3 := eb ++ lq) hall
    (by rw [hk', hl2]; simp) hid (by
      intro e he
      refine hnd e ?_
      rw [hl2]
      simp only [List.mem_append] at he ⊢
      rcases he with (he | he) | he
      · exact .inl he
      · exact .inr (.inl (.inl he))
      · exact .inr (.inl (.inr (.inl he))))
  omega

/-- **C78.** Once a TESLA key is public, nothing new can be passed off with it: after the receiver has accepted a key `k'`, and as long
as its chain is neither revoked nor displaced, whatever is fed, a tag with that key or an earlier one of the chain counts only if it
counted already when `k'` was accepted: the tag, and the data it is for, were received before. -/
theorem C78_nothing_after_disclosure (hS : S.Consistent) (h0 : (Osnma.new S root0 pk0 slow : Osnma C).Fresh S)
    (h1 : Logs S (Osnma.new S root0 pk0 slow) before log₁ o₁) (h2 : Logs S o₁ after log₂ o)
    {k' : Key} {l₁ l₂ : List (KeyEvent C)} (hk' : log₁ = l₁ ++ .tesla k' :: l₂) (hnd : ∀ e ∈ l₂ ++ log₂, ¬ e.Drops k'.chain.id)
    (kd : NavKind) {svn : Svn} {d : NavMessageData} (hd : o.get S kd svn = .ok (some d)) :
    ∃ us : List (Nat × TagUse), us.Nodup ∧ 40 ≤ d.authbits ∧ d.authbits = min 65535 (us.map (fun p => p.2.tag.tag.length)).sum ∧
      ∀ p ∈ us, p.2.Proves root0 pk0 slow (before ++ after) kd svn d.data ∧
        p.2.InTime S (Osnma.new S root0 pk0 slow) (before ++ after) kd svn d.data p.1 ∧
        (p.2.key.chain.id = k'.chain.id → p.2.key.gst.abs ≤ k'.gst.abs → p.1 < before.length ∧
          (∃ msg, ReceivedMack before p.2.prna p.2.gst p.2.st msg ∧ p.2.tag ∈ mackTags msg p.2.key.chain p.2.prna) ∧
          ReceivedData (inavsOf before) kd svn d.data) := by
  obtain ⟨us, a0, a1, a2, a3⟩ := C78_in_time hS h0 (h1.trans h2).run kd hd
  refine ⟨us, a0, a1, a2, ?_⟩
  intro p hp
  obtain ⟨b1, b2⟩ := a3 p hp
  refine ⟨b1, b2, ?_⟩
  intro hid hle
  have hi := b2.before_key h1 h2 hk' hnd hid hle
  have e : (before ++ after).take p.1 = before.take p.1 := List.take_append_of_le_length (Nat.le_of_lt hi)
  refine ⟨hi, ?_, ?_⟩
  · obtain ⟨msg, m1, m2⟩ := b2.tag
    rw [e] at m1
    refine ⟨msg, ?_, m2⟩
    rw [← List.take_append_drop p.1 before]
    exact m1.append
  · have := b2.data
    rw [e] at this
    refine this.mono ?_
    intro c hc _
    rw [← List.take_append_drop p.1 before, inavsOf_append]
    exact List.mem_append_left _ hc

/-- **C78.** Hence data that was not received when the key `k'` was accepted is authenticated only by tags with later keys of the chain,
or keys of another chain. -/
theorem C78_new_data_needs_later_keys (hS : S.Consistent) (h0 : (Osnma.new S root0 pk0 slow : Osnma C).Fresh S)
    (h1 : Logs S (Osnma.new S root0 pk0 slow) before log₁ o₁) (h2 : Logs S o₁ after log₂ o)
    {k' : Key} {l₁ l₂ : List (KeyEvent C)} (hk' : log₁ = l₁ ++ .tesla k' :: l₂) (hnd : ∀ e ∈ l₂ ++ log₂, ¬ e.Drops k'.chain.id)
    (kd : NavKind) {svn : Svn} {d : NavMessageData} (hd : o.get S kd svn = .ok (some d))
    (hnew : ¬ ReceivedData (inavsOf before) kd svn d.data) :
    ∃ us : List (Nat × TagUse), us.Nodup ∧ 40 ≤ d.authbits ∧ d.authbits = min 65535 (us.map (fun p => p.2.tag.tag.length)).sum ∧
      ∀ p ∈ us, p.2.Proves root0 pk0 slow (before ++ after) kd svn d.data ∧
        (p.2.key.chain.id = k'.chain.id → k'.gst.abs < p.2.key.gst.abs) := by
  obtain ⟨us, a0, a1, a2, a3⟩ := C78_nothing_after_disclosure hS h0 h1 h2 hk' hnd kd hd
  refine ⟨us, a0, a1, a2, ?_⟩
  intro p hp
  obtain ⟨b1, _, b3⟩ := a3 p hp
  refine ⟨b1, ?_⟩
  intro hid
  apply Classical.byContradiction
  intro hh
  exact hnew (b3 hid (by omega)).2.2

/-- **C78.** If the calls come in the order of their subframes, then each tag that counts, and the data, were received in subframes
before the one in which the key is sent: at the beginning `a` of the history, of which every call is of an earlier subframe than the
key's. -/
theorem C78_before_key_is_sent (hS : S.Consistent) (h0 : (Osnma.new S root0 pk0 slow : Osnma C).Fresh S)
    (h : run S (Osnma.new S root0 pk0 slow) hist = .ok o) (hord : CallsInOrder hist) (kd : NavKind) {svn : Svn} {d : NavMessageData}
    (hd : o.get S kd svn = .ok (some d)) :
    ∃ us : List (Nat × TagUse), us.Nodup ∧ 40 ≤ d.authbits ∧ d.authbits = min 65535 (us.map (fun p => p.2.tag.tag.length)).sum ∧
      ∀ p ∈ us, p.2.Proves root0 pk0 slow hist kd svn d.data ∧
        p.2.InTime S (Osnma.new S root0 pk0 slow) hist kd svn d.data p.1 ∧
        ∃ a b, hist = a ++ b ∧ (∀ c ∈ a, c.gst.subframe.abs < p.2.key.gst.abs) ∧ (∀ c ∈ b, p.2.key.gst.abs ≤ c.gst.subframe.abs) ∧
          (∃ msg, ReceivedMack a p.2.prna p.2.gst p.2.st msg ∧ p.2.tag ∈ mackTags msg p.2.key.chain p.2.prna) ∧
          ReceivedData (inavsOf a) kd svn d.data := by
  obtain ⟨us, a0, a1, a2, a3⟩ := C78_in_time hS h0 h kd hd
  refine ⟨us, a0, a1, a2, ?_⟩
  intro p hp
  obtain ⟨b1, b2⟩ := a3 p hp
  obtain ⟨a, b, rfl, ha, hb⟩ := calls_split p.2.key.gst.abs hord
  have hgap : p.2.gst.abs < p.2.key.gst.abs := by
    rcases b1.rightKey with ⟨_, _, e, _⟩ | ⟨_, _, e, _⟩ | ⟨_, _, e⟩ <;> omega
  refine ⟨b1, b2, a, b, rfl, ha, hb, ?_, ?_⟩
  · obtain ⟨msg, ⟨ps, m1, m2, m3, m4⟩, m5⟩ := b2.tag
    refine ⟨msg, ⟨ps, ?_, m2, m3, m4⟩, m5⟩
    have hs : ps.Sublist (pagesOf a ++ pagesOf b) := by
      rw [← pagesOf_append]
      refine m1.trans ?_
      unfold pagesOf
      exact (List.take_sublist _ _).filterMap _
    obtain ⟨x, y, e, x1, y1⟩ := List.sublist_append_iff.1 hs
    cases y with
    | nil => rw [e, List.append_nil]; exact x1
    | cons q y =>
      exfalso
      have hq : q ∈ pagesOf b := y1.subset (by simp)
      have h1 := (m3 q (by rw [e]; simp)).2
      obtain ⟨c, hc, hcq⟩ := List.mem_filterMap.1 hq
      have := hb c hc
      cases c with
      | inav => cases hcq
      | osnma d' s g =>
        dsimp only at hcq
        split at hcq
        · cases hcq
        · cases hcq
          have h2 : (g.subframe).abs = p.2.gst.abs := by rw [← h1]; rfl
          have h3 : (Call.osnma d' s g).gst.subframe.abs = g.subframe.abs := rfl
          omega
  · have hchr : Chronological (inavsOf ((a ++ b).take p.1)) :=
      CallsInOrder.words (List.Pairwise.sublist (List.take_sublist _ _) hord)
    obtain ⟨e1, e2⟩ := b2.latest hchr
    rw [← e1]
    refine (ReceivedData.of_latest e2).mono ?_
    intro c hc _
    unfold wordsUpTo at hc
    obtain ⟨hc1, hc2⟩ := List.mem_filter.1 hc
    have hc2 := of_decide_eq_true hc2
    have hm : c ∈ inavsOf (a ++ b) := by
      unfold inavsOf at hc1 ⊢
      exact ((List.take_sublist _ _).filterMap _).subset hc1
    rw [inavsOf_append] at hm
    rcases List.mem_append.1 hm with hm | hm
    · exact hm
    · exfalso
      obtain ⟨x, hx, hxc⟩ := List.mem_filterMap.1 hm
      have := hb x hx
      cases x with
      | osnma => cases hxc
      | inav w s g bd =>
        cases hxc
        have h3 : (Call.inav w s g bd).gst.subframe.abs = g.subframe.abs := rfl
        dsimp only at hc2
        omega

end Verif
