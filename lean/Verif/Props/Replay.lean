import Verif.Spec.Replay
import Verif.Props.Disclosure
import Verif.Lemmas.ColdStart
import Verif.Lemmas.Recovery

/-! # C84: replayed signals bring no keys -/

namespace Verif

variable {S : Storage} {C : Crypto} {root0 : Option MerkleTreeNode} {pk0 : Option (PublicKey C)} {slow : Bool}
  {b : Broadcast C} {hist before after : List Call} {log log₁ log₂ : List (KeyEvent C)} {o o₁ : Osnma C}

/-- **C84.** As long as the only verified DSM-KROOT is that of the broadcast, whatever pages are fed: a TESLA key accepted for a subframe
of the broadcast is the one that the broadcast discloses in that subframe, or else the derivations of the two keys meet (an explicit
collision of the one-way function of the chain). -/
theorem C84_accepted_keys_are_the_broadcasts (hb : b.Sound) (h : Logs S (Osnma.new S root0 pk0 slow) hist log o) (hk : KrootsOf b log)
    {k : Key} (hm : KeyEvent.tesla k ∈ log) (hon : b.On k.gst) :
    k.chain = b.root.chain ∧
      (k.bytes = (b.key k.gst).bytes ∨
        ∃ n : Nat, b.root.gst.abs + 30 * n = k.gst.abs ∧ DerivationsCollide C b.root.chain n k.gst k.bytes (b.key k.gst).bytes) := by
  obtain ⟨l1, l2, hl⟩ := List.append_of_mem hm
  obtain ⟨_, ⟨hd, data, pk, kr, g, n, h1, h2, h3⟩, _⟩ := C30_accepted_key_chain h hl
  obtain rfl : kr = b.root := hk hd data pk kr g (by rw [hl]; simp [h1])
  refine ⟨h2.symm, ?_⟩
  by_cases he : k.bytes = (b.key k.gst).bytes
  · exact .inl he
  · right
    obtain ⟨m, _, _, m2⟩ := b.derives_root hb hon
    rw [← h2] at h3
    have ht := h3.time
    have ht' := m2.time
    dsimp only at ht ht'
    obtain rfl : m = n := by omega
    refine ⟨m, by omega, h3.collision m2 ?_ he⟩
    rw [Key.bytes_length, Key.bytes_length, ← h2, (hb.keys _ hon).2.1]

/-- A TESLA key accepted while `after` is fed comes from a subframe completed by a page of `after`. -/
theorem tesla_received (h1 : Logs S (Osnma.new S root0 pk0 slow) before log₁ o₁) (h2 : Logs S o₁ after log₂ o) {k : Key}
    (hm : KeyEvent.tesla k ∈ log₂) :
    ∃ (p q : List Page) (x : Page) (r : Received), pagesOf after = p ++ x :: q ∧ CompletesSubframe (pagesOf before ++ p) x r ∧
      k.gst = r.gst ∧ k.bytes = packBytes (mackKeyField r.mack k.chain) := by
  induction h2 with
  | nil => cases hm
  | @snoc l lg oo oo' c h2 hc ih =>
    rcases List.mem_append.1 hm with hm | hm
    · obtain ⟨p, q, x, r, e1, e2⟩ := ih hm
      exact ⟨p, q ++ pagesOf [c], x, r, by rw [pagesOf_append, e1]; simp, e2⟩
    · obtain ⟨rs, h4, h5⟩ := C62_reference_machine (h1.trans h2)
      obtain ⟨rs', h4', h5'⟩ := C62_reference_machine ((h1.trans h2).snoc c hc)
      rw [pagesOf_append (before ++ l) [c]] at h4'
      have hne : log₁ ++ lg ≠ log₁ ++ lg ++ oo.events S c := by
        intro e
        have : oo.events S c = [] := by simpa using e
        rw [this] at hm; cases hm
      have hpg : pagesOf [c] = [] ∨ ∃ x, pagesOf [c] = [x] := by
        cases c with
        | inav => exact .inl rfl
        | osnma d s g =>
          by_cases hz : d.val.all (fun x => x == 0#8) = true
          · left; simp only [pagesOf, List.filterMap_cons, List.filterMap_nil, if_pos hz]
          · exact .inr ⟨⟨d, s, g⟩, by simp only [pagesOf, List.filterMap_cons, List.filterMap_nil, if_neg hz]⟩
      rcases hpg with hpg | ⟨x, hpg⟩
      · rw [hpg, List.append_nil] at h4'
        obtain rfl := h4.unique h4'
        exact absurd (C62_machine_deterministic h5 h5') hne
      · rw [hpg] at h4'
        generalize hx : pagesOf (before ++ l) ++ [x] = ps at h4'
        cases h4' with
        | nil => simp at hx
        | skip p' h' hn =>
          obtain ⟨rfl, rfl⟩ := append_singleton_cancel hx
          obtain rfl := h4.unique h'
          exact absurd (C62_machine_deterministic h5 h5') hne
        | got p' r h' hr =>
          obtain ⟨rfl, rfl⟩ := append_singleton_cancel hx
          obtain rfl := h4.unique h'
          obtain ⟨lo, l₁, l₂, e, m1, m2, m3⟩ := h5'.snoc_inv
          obtain rfl := C62_machine_deterministic h5 m1
          have e' : oo.events S c = l₁ ++ l₂ := by
            rw [List.append_assoc (log₁ ++ lg)] at e
            exact List.append_cancel_left e
          rw [e'] at hm
          refine ⟨pagesOf l, [], x, r, by rw [pagesOf_append, hpg], by rw [← pagesOf_append]; exact hr, ?_⟩
          rcases List.mem_append.1 hm with hm | hm
          · rcases m2 with ⟨ev, ⟨data, _, hd⟩, rfl⟩ | ⟨rfl, _⟩
            · rw [List.mem_singleton] at hm
              subst hm
              cases hd
            · cases hm
          · rcases m3 with ⟨ev, ⟨k', rfl, ht⟩, rfl⟩ | ⟨rfl, _⟩
            · rw [List.mem_singleton] at hm
              cases hm
              exact ⟨ht.gst, ht.bytes⟩
            · cases hm

/-- The messages of a subframe of which all pages are replayed. -/
theorem replayed_mack {src : Svn → Gst → Svn × Gst} {ps : List Page} {p : Page} {r : Received} (hc : CompletesSubframe ps p r)
    (hh : ∀ q ∈ ps ++ [p], q.svn = p.svn → q.sub = p.sub →
      q.mack = ((b.mack (src q.svn q.sub).1 (src q.svn q.sub).2).val.drop (4 * q.word)).take 4) :
    r.mack = b.mack (src p.svn p.sub).1 (src p.svn p.sub).2 := by
  have hmem : ∀ q ∈ inOrder 0 ((sinceSubframe ps p.sub).filter (fun q => q.svn == p.svn)) ++ [p],
      q ∈ ps ++ [p] ∧ q.svn = p.svn ∧ q.sub = p.sub := by
    intro q hq
    rw [List.mem_append] at hq
    rcases hq with hq | hq
    · have := (inOrder_sublist _ _).subset hq
      rw [List.mem_filter] at this
      obtain ⟨h1, h2⟩ := mem_sinceSubframe this.1
      exact ⟨by simp [h1], by simpa using this.2, h2⟩
    · rw [List.mem_singleton] at hq; subst hq; exact ⟨by simp, rfl, rfl⟩
  have hw : (inOrder 0 ((sinceSubframe ps p.sub).filter (fun q => q.svn == p.svn)) ++ [p]).map Page.word = List.range 15 := by
    rw [List.map_append, inOrder_words, hc.words, List.map_cons, List.map_nil, hc.last]
    rfl
  apply Subtype.ext
  rw [hc.mack]
  refine flatMap_take_drop _ _ hw (b.mack (src p.svn p.sub).1 (src p.svn p.sub).2).2 ?_
  intro q hq
  obtain ⟨h1, h2, h3⟩ := hmem q hq
  rw [hh q h1 h2 h3, h2, h3]

/-- **C84.** Replayed signals bring no keys: while pages are fed whose MACK messages are of other subframes of the broadcast than those
they are heard in (in subframes of which no page was fed before), no TESLA key is accepted.  What is in the HKROOT messages and the words
does not matter as long as no other DSM-KROOT is verified. -/
theorem C84_no_key_from_replay (hb : b.Sound) (hdist : b.Distinct) (h1 : Logs S (Osnma.new S root0 pk0 slow) before log₁ o₁)
    (h2 : Logs S o₁ after log₂ o) (hk : KrootsOf b (log₁ ++ log₂)) {src : Svn → Gst → Svn × Gst} (hr : Replayed b src after)
    (hnew : ∀ p ∈ pagesOf before, ∀ q ∈ pagesOf after, p.sub ≠ q.sub) (k : Key) : KeyEvent.tesla k ∉ log₂ := by
  intro hm
  obtain ⟨p, q, x, r, e1, e2, e3, e4⟩ := tesla_received h1 h2 hm
  have hx : x ∈ pagesOf after := by rw [e1]; simp
  obtain ⟨x1, x2, x3, _⟩ := hr x hx
  have hon : b.On k.gst := by rw [e3, e2.gst]; exact x1
  obtain ⟨f1, f2⟩ := C84_accepted_keys_are_the_broadcasts hb (h1.trans h2) hk (k := k) (by simp [hm]) hon
  have hmack : r.mack = b.mack (src x.svn x.sub).1 (src x.svn x.sub).2 := by
    refine replayed_mack e2 ?_
    intro y hy _ hys
    have : y ∈ pagesOf after := by
      rcases List.mem_append.1 hy with hy | hy
      · rcases List.mem_append.1 hy with hy | hy
        · exact absurd hys (hnew y hy x hx)
        · rw [e1]; simp [hy]
      · rw [List.mem_singleton] at hy; subst hy; exact hx
    exact (hr y this).2.2.2
  have hby : k.bytes = (b.key (src x.svn x.sub).2).bytes := by
    rw [e4, f1, hmack, hb.sent _ _ x2]
  have hg : k.gst = x.sub := by rw [e3, e2.gst]
  obtain ⟨d1, d2⟩ := hdist k.gst (src x.svn x.sub).2 hon x2 (by rw [hg]; exact fun e => x3 e.symm)
  rw [hby] at f2
  rcases f2 with f2 | ⟨n, fn, f2⟩
  · exact d1 f2
  · exact d2 n fn f2

/-- **C84.** So a replay authenticates nothing: what is returned afterwards was received before, with its tags, and every tag that counts
is with a key accepted before. -/
theorem C84_replay_authenticates_nothing (hS : S.Consistent) (h0 : (Osnma.new S root0 pk0 slow : Osnma C).Fresh S)
    (hb : b.Sound) (hdist : b.Distinct) (h1 : Logs S (Osnma.new S root0 pk0 slow) before log₁ o₁)
    (h2 : Logs S o₁ after log₂ o) (hk : KrootsOf b (log₁ ++ log₂)) {src : Svn → Gst → Svn × Gst} (hr : Replayed b src after)
    (hnew : ∀ p ∈ pagesOf before, ∀ q ∈ pagesOf after, p.sub ≠ q.sub) (kd : NavKind) {svn : Svn} {d : NavMessageData}
    (hd : o.get S kd svn = .ok (some d)) :
    ReceivedData (inavsOf before) kd svn d.data ∧
    ∃ us : List (Nat × TagUse), us.Nodup ∧ 40 ≤ d.authbits ∧ d.authbits = min 65535 (us.map (fun p => p.2.tag.tag.length)).sum ∧
      ∀ p ∈ us, p.2.Proves root0 pk0 slow (before ++ after) kd svn d.data ∧ KeyEvent.tesla p.2.key ∈ log₁ ∧
        ∃ msg, ReceivedMack before p.2.prna p.2.gst p.2.st msg ∧ p.2.tag ∈ mackTags msg p.2.key.chain p.2.prna := by
  obtain ⟨us, a0, a1, a2, a3⟩ := C78_in_time hS h0 (h1.trans h2).run kd hd
  have hall : ∀ p ∈ us, p.1 < before.length ∧ KeyEvent.tesla p.2.key ∈ log₁ := by
    intro p hp
    obtain ⟨_, b2⟩ := a3 p hp
    obtain ⟨lo, oi, c, hc, hlo, hev⟩ := b2.accepted
    have hi : p.1 < (before ++ after).length := (List.getElem?_eq_some_iff.1 hc).1
    have e2 : before ++ after = ((before ++ after).take p.1 ++ [c]) ++ (before ++ after).drop (p.1 + 1) := by
      conv => lhs; rw [← List.take_append_drop p.1 (before ++ after)]
      rw [List.drop_eq_getElem_cons hi, (List.getElem?_eq_some_iff.1 hc).2]
      simp
    have hall := h1.trans h2
    have hall' := hall
    rw [e2] at hall'
    obtain ⟨lp, op, lq, s1, _, s3⟩ := hall'.split
    obtain ⟨lo', oi', t1, _, t3⟩ := s1.snoc_inv
    obtain ⟨rfl, rfl⟩ := hlo.unique t1
    have hin : KeyEvent.tesla p.2.key ∈ log₁ ++ log₂ := by rw [s3, t3]; simp [hev]
    have hin1 : KeyEvent.tesla p.2.key ∈ log₁ := by
      rcases List.mem_append.1 hin with h | h
      · exact h
      · exact absurd h (C84_no_key_from_replay hb hdist h1 h2 hk hr hnew _)
    refine ⟨?_, hin1⟩
    apply Classical.byContradiction
    intro hge
    have e1 : (before ++ after).take p.1 = before ++ after.take (p.1 - before.length) := by
      rw [List.take_append, List.take_of_length_le (by omega)]
    rw [e1] at hlo
    obtain ⟨lb, ob, lx, x1, _, x3⟩ := hlo.split
    obtain ⟨rfl, rfl⟩ := h1.unique x1
    have hl2 : log₂ = lx ++ oi'.events S c ++ lq := by
      rw [t3, x3, List.append_assoc, List.append_assoc] at s3
      rw [List.append_cancel_left s3]
      simp only [List.append_assoc]
    exact C84_no_key_from_replay hb hdist h1 h2 hk hr hnew p.2.key (by rw [hl2]; simp [hev])
  have hdata : ∀ p ∈ us, ReceivedData (inavsOf before) kd svn d.data := by
    intro p hp
    have := (a3 p hp).2.data
    rw [List.take_append_of_le_length (Nat.le_of_lt (hall p hp).1)] at this
    refine this.mono ?_
    intro c hc _
    rw [← List.take_append_drop p.1 before, inavsOf_append]
    exact List.mem_append_left _ hc
  refine ⟨?_, us, a0, a1, a2, ?_⟩
  · cases us with
    | nil => simp at a2; omega
    | cons p us => exact hdata p (by simp)
  · intro p hp
    obtain ⟨b1, b2⟩ := a3 p hp
    refine ⟨b1, (hall p hp).2, ?_⟩
    obtain ⟨msg, m1, m2⟩ := b2.tag
    rw [List.take_append_of_le_length (Nat.le_of_lt (hall p hp).1)] at m1
    refine ⟨msg, ?_, m2⟩
    rw [← List.take_append_drop p.1 before]
    exact m1.append

end Verif
