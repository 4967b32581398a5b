import Verif.Spec.Lateness
import Verif.Props.Operator

/-! # C92: how late signals may be

The tags that make the data authentic were heard before their keys were out, if the signals are received less than 29 seconds late, or less than
329 seconds with `only_slowmac`. -/

namespace Verif
variable {C : Crypto} {S : Storage} {root0 : Option MerkleTreeNode} {pk0 : Option (PublicKey C)} {slow : Bool} {th : List (Call × Int)}
  {o : Osnma C} {log : List (KeyEvent C)} {op : Operator C} {late : Int}

theorem mackSections_length (ps : List Page) : (ps.flatMap Page.mack).length = 4 * ps.length := by
  induction ps with
  | nil => rfl
  | cons p ps ih =>
    have h : p.mack.length = 4 := by
      unfold Page.mack
      rw [List.length_drop, p.data.property]
    rw [List.flatMap_cons, List.length_append, ih, h, List.length_cons]
    omega

/-- A tag is in the first bits of the message. -/
theorem mackTag_append {a b : List Bool} {ts j : Nat} (prna : Svn) (h : (j + 1) * (ts + 16) ≤ a.length) :
    mackTag (a ++ b) ts prna j = mackTag a ts prna j := by
  have h1 : j * (ts + 16) + (ts + 16) ≤ a.length := by rw [Nat.add_mul] at h; omega
  unfold mackTag
  have e0 : (a ++ b).drop (j * (ts + 16)) = a.drop (j * (ts + 16)) ++ b := List.drop_append_of_le_length (by omega)
  have hl : (a.drop (j * (ts + 16))).length = a.length - j * (ts + 16) := List.length_drop
  rw [e0]
  generalize a.drop (j * (ts + 16)) = r at hl
  have e1 : (r ++ b).take ts = r.take ts := List.take_append_of_le_length (by omega)
  have e2 : ∀ k n, k + n ≤ ts + 16 → ((r ++ b).drop k).take n = (r.drop k).take n := by
    intro k n hk
    rw [List.drop_append_of_le_length (by omega), List.take_append_of_le_length (by rw [List.length_drop]; omega)]
  dsimp only
  rw [e1, e2 _ _ (by omega), e2 _ _ (by omega), e2 _ _ (by omega)]

/-- Pages that are not late are among those received in time. -/
theorem pages_in_time (hl : NotLaterThan th late) {ps : List Page} (h : ps.Sublist (pagesOf (callsOf th))) {t : Int}
    (ht : ∀ q ∈ ps, q.gst.abs + late < t) : ps.Sublist (pagesOf (receivedBefore th t)) := by
  have h1 : ((pagesOf (callsOf th)).filter (fun q => decide (q.gst.abs + late < t))).Sublist (pagesOf (receivedBefore th t)) := by
    clear h
    unfold receivedBefore callsOf
    induction th with
    | nil => exact .slnil
    | cons x l ih =>
      have ih := ih (fun y hy => hl y (List.mem_cons_of_mem _ hy))
      have hx := hl x (by simp)
      obtain ⟨c, s⟩ := x
      dsimp only at hx
      have hgrow : (pagesOf ((l.filter (fun x => decide (x.2 < t))).map (·.1))).Sublist
          (pagesOf ((((c, s) :: l).filter (fun x => decide (x.2 < t))).map (·.1))) := by
        unfold pagesOf
        exact (((List.sublist_cons_self _ _).filter _).map _).filterMap _
      cases c with
      | inav w v g b => exact ih.trans hgrow
      | osnma d v g =>
        have hx : s ≤ g.abs + late := hx
        by_cases hz : d.val.all (fun x => x == 0#8) = true
        · have e : pagesOf (((Call.osnma d v g, s) :: l).map (·.1)) = pagesOf (l.map (·.1)) := by
            unfold pagesOf
            rw [List.map_cons, List.filterMap_cons]
            dsimp only
            rw [if_pos hz]
          rw [e]
          exact ih.trans hgrow
        · have e : pagesOf (((Call.osnma d v g, s) :: l).map (·.1)) = ⟨d, v, g⟩ :: pagesOf (l.map (·.1)) := by
            unfold pagesOf
            rw [List.map_cons, List.filterMap_cons]
            dsimp only
            rw [if_neg hz]
          rw [e, List.filter_cons]
          split
          · rename_i hc
            have hc : g.abs + late < t := of_decide_eq_true hc
            have hs : s < t := by omega
            have e' : pagesOf ((((Call.osnma d v g, s) :: l).filter (fun x => decide (x.2 < t))).map (·.1)) =
                ⟨d, v, g⟩ :: pagesOf ((l.filter (fun x => decide (x.2 < t))).map (·.1)) := by
              rw [List.filter_cons_of_pos (by simpa using hs)]
              unfold pagesOf
              rw [List.map_cons, List.filterMap_cons]
              dsimp only
              rw [if_neg hz]
            rw [e']
            exact ih.cons_cons _
          · exact ih.trans hgrow
  have h2 : ps.filter (fun q => decide (q.gst.abs + late < t)) = ps := List.filter_eq_self.2 (fun q hq => decide_eq_true (ht q hq))
  rw [← h2]
  exact (h.filter _).trans h1

/-- Words that are not late are among those received in time. -/
theorem words_in_time (hl : NotLaterThan th late) {c : InavCall} (h : c ∈ inavsOf (callsOf th)) {t : Int} (ht : c.gst.abs + late < t) :
    c ∈ inavsOf (receivedBefore th t) := by
  unfold inavsOf callsOf at h
  obtain ⟨x, hx, hxc⟩ := List.mem_filterMap.1 h
  obtain ⟨y, hy, rfl⟩ := List.mem_map.1 hx
  refine List.mem_filterMap.2 ⟨y.1, List.mem_map.2 ⟨y, List.mem_filter.2 ⟨hy, ?_⟩, rfl⟩, hxc⟩
  have := hl y hy
  obtain ⟨cl, s⟩ := y
  cases cl with
  | osnma => cases hxc
  | inav w v g b =>
    cases hxc
    have : s ≤ g.abs + late := this
    exact decide_eq_true (show s < t by dsimp only at ht; omega)

/-- A page begins in the two seconds of its number. -/
theorem page_time (q : Page) : q.gst.abs ≤ q.sub.abs + 2 * q.word + 1 := by
  unfold Page.word Page.sub
  have h1 := Gst.subframe_abs q.gst
  have e1 : q.gst.abs = (q.gst.wn : Int) * 604800 + q.gst.tow := rfl
  have e2 : q.gst.subframe.abs = (q.gst.subframe.wn : Int) * 604800 + q.gst.subframe.tow := rfl
  have h2 := q.gst.subframe.htow
  have h3 := q.gst.htow
  omega

/-- The tags come before the end of the key. -/
theorem tags_before_key (c : Chain) :
    (480 - 8 * c.keySizeBytes) / (c.tagSizeBits + 16) * (c.tagSizeBits + 16) ≤ 32 * (lastKeyPage c + 1) ∧ lastKeyPage c + 1 ≤ 15 := by
  unfold lastKeyPage
  have hk : 12 ≤ c.keySizeBytes ∧ c.keySizeBytes ≤ 32 := by
    have := c.hks
    simp only [List.mem_cons, List.not_mem_nil, or_false] at this
    omega
  have := Nat.div_mul_le_self (480 - 8 * c.keySizeBytes) (c.tagSizeBits + 16)
  omega

theorem heard_in_time (hl : NotLaterThan th late) {u : TagUse} {msg : MackMessage}
    (hr : ReceivedMack (callsOf th) u.prna u.gst u.st msg) (htag : u.tag ∈ mackTags msg u.key.chain u.prna)
    (hlate : u.gst.abs + 1 + late < u.key.gst.abs) : u.Heard (receivedBefore th (keyIsOut u.key)) := by
  obtain ⟨ps, h1, h2, h3, h4, _⟩ := hr
  obtain ⟨j, hj, e⟩ := List.mem_map.1 htag
  rw [List.mem_range] at hj
  obtain ⟨b1, b2⟩ := tags_before_key u.key.chain
  have hlen : ps.length = 15 := by simpa using congrArg List.length h2
  have hbits : (j + 1) * (u.key.chain.tagSizeBits + 16) ≤ 32 * (lastKeyPage u.key.chain + 1) :=
    Nat.le_trans (Nat.mul_le_mul_right _ hj) b1
  have hw : (ps.take (lastKeyPage u.key.chain + 1)).map Page.word = List.range (lastKeyPage u.key.chain + 1) := by
    rw [List.map_take, h2, List.take_range, Nat.min_eq_left b2]
  refine ⟨ps.take (lastKeyPage u.key.chain + 1), lastKeyPage u.key.chain + 1, j, ?_, hw, fun q hq => h3 q (List.mem_of_mem_take hq), hbits, ?_⟩
  · refine pages_in_time hl ((List.take_sublist _ _).trans h1) (fun q hq => ?_)
    have hq1 : q.word ∈ List.range (lastKeyPage u.key.chain + 1) := by
      rw [← hw]; exact List.mem_map_of_mem hq
    rw [List.mem_range] at hq1
    have hq2 := page_time q
    rw [(h3 q (List.mem_of_mem_take hq)).2] at hq2
    unfold keyIsOut
    omega
  · rw [← e, h4]
    have hsplit : ps.flatMap Page.mack = (ps.take (lastKeyPage u.key.chain + 1)).flatMap Page.mack ++
        (ps.drop (lastKeyPage u.key.chain + 1)).flatMap Page.mack := by
      rw [← List.flatMap_append, List.take_append_drop]
    rw [hsplit, bitsOf_append]
    refine mackTag_append _ ?_
    rw [bitsOf_length, mackSections_length, List.length_take, hlen]
    omega

theorem data_in_time (hl : NotLaterThan th late) (hord : Chronological (inavsOf (callsOf th))) {o0 : Osnma C} {kd : NavKind} {svn : Svn} {bits : List Bool}
    {i : Nat} {u : TagUse} (hin : u.InTime S o0 (callsOf th) kd svn bits i) (hlate : u.gst.abs + 1 + late < u.key.gst.abs) :
    ReceivedData (inavsOf (receivedBefore th (keyIsOut u.key))) kd svn bits := by
  have hsub : (inavsOf ((callsOf th).take i)).Sublist (inavsOf (callsOf th)) := by
    unfold inavsOf
    exact (List.take_sublist _ _).filterMap _
  have hpre : Chronological (inavsOf ((callsOf th).take i)) := by
    have e : inavsOf (callsOf th) = inavsOf ((callsOf th).take i) ++ inavsOf ((callsOf th).drop i) := by
      unfold inavsOf
      rw [← List.filterMap_append, List.take_append_drop]
    intro k a b ha hb
    have h1 := (List.getElem?_eq_some_iff.1 ha).1
    have h2 := (List.getElem?_eq_some_iff.1 hb).1
    exact hord k a b (by rw [e, List.getElem?_append_left h1]; exact ha) (by rw [e, List.getElem?_append_left h2]; exact hb)
  obtain ⟨e1, e2⟩ := hin.latest hpre
  rw [← e1]
  refine (ReceivedData.of_latest e2).mono (fun c hc _ => ?_)
  unfold wordsUpTo at hc
  obtain ⟨hc1, hc2⟩ := List.mem_filter.1 hc
  have hc2 := of_decide_eq_true hc2
  refine words_in_time hl (hsub.subset hc1) ?_
  rw [Gst.subframe_abs] at hc2
  unfold keyIsOut
  omega

/-- The tags used have keys that are sent long enough after them. -/
theorem late_enough {kd : NavKind} {svn : Svn} {bits : List Bool} {u : TagUse} {hist : List Call} (h : u.Proves root0 pk0 slow hist kd svn bits)
    (hlate : late < if slow then 329 else 29) : u.gst.abs + 1 + late < u.key.gst.abs := by
  rcases h.rightKey with ⟨_, _, e, hs⟩ | ⟨_, _, e, hs⟩ | ⟨_, _, e⟩
  · rw [hs] at hlate
    have : late < 29 := hlate
    omega
  · rw [hs] at hlate
    have : late < 29 := hlate
    omega
  · have : late < 329 := by
      cases slow
      · have : late < 29 := hlate
        omega
      · exact hlate
    omega

/-- **C92** Whatever is fed: if no signal is received more than 28 seconds later than the time passed with it (328 seconds with `only_slowmac`), then
every tag that counts for the data given by a getter was received before its key was out. -/
theorem C92_tags_before_keys_are_out (hS : S.Consistent) (h0 : (Osnma.new S root0 pk0 slow : Osnma C).Fresh S)
    (h : run S (Osnma.new S root0 pk0 slow) (callsOf th) = .ok o) (hl : NotLaterThan th late) (hlate : late < if slow then 329 else 29)
    (kd : NavKind) {svn : Svn} {d : NavMessageData} (hd : o.get S kd svn = .ok (some d)) :
    ∃ us : List (Nat × TagUse), us.Nodup ∧ 40 ≤ d.authbits ∧ d.authbits = min 65535 (us.map (fun p => p.2.tag.tag.length)).sum ∧
      ∀ p ∈ us, p.2.Proves root0 pk0 slow (callsOf th) kd svn d.data ∧ p.2.Heard (receivedBefore th (keyIsOut p.2.key)) := by
  obtain ⟨us, h1, h2, h3, h4⟩ := C78_in_time hS h0 h kd hd
  refine ⟨us, h1, h2, h3, fun p hp => ?_⟩
  obtain ⟨hpr, _⟩ := h4 p hp
  obtain ⟨msg, m1, m2, _⟩ := hpr.mack
  exact ⟨hpr, heard_in_time hl m1 m2 (late_enough hpr hlate)⟩

/-- **C92** If moreover the words are fed in chronological order, the data was received before the keys were out, too. -/
theorem C92_data_before_keys_are_out (hS : S.Consistent) (h0 : (Osnma.new S root0 pk0 slow : Osnma C).Fresh S)
    (h : run S (Osnma.new S root0 pk0 slow) (callsOf th) = .ok o) (hl : NotLaterThan th late) (hlate : late < if slow then 329 else 29)
    (hord : Chronological (inavsOf (callsOf th))) (kd : NavKind) {svn : Svn} {d : NavMessageData} (hd : o.get S kd svn = .ok (some d)) :
    ∃ us : List (Nat × TagUse), us.Nodup ∧ 40 ≤ d.authbits ∧ d.authbits = min 65535 (us.map (fun p => p.2.tag.tag.length)).sum ∧
      ∀ p ∈ us, p.2.Proves root0 pk0 slow (callsOf th) kd svn d.data ∧ p.2.Heard (receivedBefore th (keyIsOut p.2.key)) ∧
        ReceivedData (inavsOf (receivedBefore th (keyIsOut p.2.key))) kd svn d.data := by
  obtain ⟨us, h1, h2, h3, h4⟩ := C78_in_time hS h0 h kd hd
  refine ⟨us, h1, h2, h3, fun p hp => ?_⟩
  obtain ⟨hpr, hin⟩ := h4 p hp
  obtain ⟨msg, m1, m2, _⟩ := hpr.mack
  exact ⟨hpr, heard_in_time hl m1 m2 (late_enough hpr hlate), data_in_time hl hord hin (late_enough hpr hlate)⟩

/-- **C92** So, with signals that are not too late, data that the satellites never tagged is given by a getter only if at least 40 bits of tags for it
were forged by somebody who could not have had the keys, or the acceptance messages show that signatures, Merkle tree or one-way function are broken. -/
theorem C92_forgery_without_the_keys (hS : S.Consistent) (h0 : (Osnma.new S root0 pk0 slow : Osnma C).Fresh S) (hop : op.Sound)
    (ht : op.Trusted root0 pk0) (h : Logs S (Osnma.new S root0 pk0 slow) (callsOf th) log o) (hl : NotLaterThan th late)
    (hlate : late < if slow then 329 else 29) (hord : Chronological (inavsOf (callsOf th))) (kd : NavKind) {svn : Svn} {d : NavMessageData}
    (hd : o.get S kd svn = .ok (some d)) (hnever : ∀ last g ctr prna gst st, ¬ op.tagged last g ⟨ctr, svn.val, prna, gst, st, d.data⟩) :
    (∃ us : List (Nat × TagUse), us.Nodup ∧ 40 ≤ (us.map (fun p => p.2.tag.tag.length)).sum ∧
      ∀ p ∈ us, ∃ last, op.ForgedBeforeKey th kd svn d.data last p.2) ∨ op.Broken log := by
  rcases C91_genuine_or_broken hS h0 hop ht h kd hd with ⟨us, h1, h2, h3, h4⟩ | hb
  · refine .inl ⟨us, h1, by omega, fun p hp => ?_⟩
    obtain ⟨hpr, _, last, hk, e | e⟩ := h4 p hp
    · exact absurd e (hnever _ _ _ _ _ _)
    · obtain ⟨msg, m1, m2, _⟩ := hpr.mack
      exact ⟨last, hk, e.verifies, heard_in_time hl m1 m2 (late_enough hpr hlate), data_in_time hl hord e.inTime (late_enough hpr hlate), e.notMade⟩
  · exact .inr hb

end Verif
