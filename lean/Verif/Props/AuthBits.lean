import Verif.Props.NavData

/-! # C17, C19, C41, C42, C53: authentication bits -/

namespace Verif
open CollectNavMessage

variable {S : Storage} {C : Crypto}

/-! ## C17 -/

/-- **C17.** Data is returned only with at least 40 authentication bits. -/
theorem C17_at_least_40 (hS : S.Consistent) {o0 o : Osnma C} (h0 : o0.Fresh S) {hist : List Call} (h : run S o0 hist = .ok o)
    (kd : NavKind) {svn : Svn} {d : NavMessageData} (hd : o.get S kd svn = .ok (some d)) : 40 ≤ d.authbits := by
  have hinv := navInv_run hS h0 h
  obtain ⟨g, x, hb, e1, e2, _⟩ := get_some hinv hd
  obtain ⟨k, s, _, _, _, _, k5, _⟩ := bestEntry_some hb
  omega

/-- The tags of a MACK of one ADKD that count for stored data: total length. -/
noncomputable def mackGain (S : Storage) (C : Crypto) (n : CollectNavMessage) (arr : List NavItem) (nbits adkd : Nat) (msg : MackMessage)
    (key : Key) (prna : Svn) (gst : Gst) (st : NmaStatus) (x : NavItem) : Nat :=
  usesGain S C n arr nbits (((mackTags msg key.chain prna).filter (fun t => t.adkd == adkd)).map (fun t => ⟨key, prna, gst, st, t⟩)) x

/-- **C17.** Processing a valid MACK message of the subframe `gst` with the key of the following
subframe adds to every stored entry exactly the total length of those of its tags that count for it
(ADKD 0 for CED, ADKD 4 for timing parameters; saturating at 65535), and changes nothing else. -/
theorem C17_process_mack_exact (hS : S.Consistent) {o0 o : Osnma C} (h0 : o0.Fresh S) {hist : List Call} (h : run S o0 hist = .ok o)
    (msg : MackMessage) (key : Key) (prna : Svn) (gst : Gst) (st : NmaStatus) (hu : key.MacUsable) (ha : gst.Aligned)
    (hg : 30 ≤ gst.abs) :
    ∃ n', o.data.data.navmessage.processMack S C (Mack.new msg key.chain.keySizeBits key.chain.tagSizeBits) key prna gst st = .ok n' ∧
      n'.gsts = o.data.data.navmessage.gsts ∧ n'.writePointer = o.data.data.navmessage.writePointer ∧
      n'.ced = o.data.data.navmessage.ced.map (fun x => { x with authbits := min 65535 (x.authbits +
        mackGain S C o.data.data.navmessage o.data.data.navmessage.ced 549 0 msg key prna gst st x) }) ∧
      n'.timing = o.data.data.navmessage.timing.map (fun x => { x with authbits := min 65535 (x.authbits +
        mackGain S C o.data.data.navmessage o.data.data.navmessage.timing 141 4 msg key prna gst st x) }) := by
  have hi := (navInv_run hS h0 h).inv
  have hr := gst.abs_representable
  obtain ⟨gnav, hgn⟩ := exists_gst (t := gst.abs - 30) (by unfold Representable at *; omega)
  have hadd : gst.addSeconds (-30) = .ok gnav := (Gst.addSeconds_eq_ok (by omega)).2 ⟨by omega, by omega⟩
  have hga : gnav.isSubframe = true := by
    rw [Gst.isSubframe_iff]; unfold Gst.Aligned at *; omega
  have := processMack_eq (C := C) (S := S) (c := key.chain) (msg := msg) (prna := prna) (st := st) hu hadd hga hi.lens hi.okc hi.okt
  refine ⟨_, this, rfl, rfl, ?_, ?_⟩
  · unfold mackGain
    rw [usesGain_map hadd]; rfl
  · unfold mackGain
    rw [usesGain_map hadd]; rfl

/-- **C17.** The same for Slow MAC: tags with ADKD 12 only, and timing parameters are not touched. -/
theorem C17_process_mack_slowmac_exact (hS : S.Consistent) {o0 o : Osnma C} (h0 : o0.Fresh S) {hist : List Call}
    (h : run S o0 hist = .ok o) (msg : MackMessage) (key : Key) (prna : Svn) (gst : Gst) (st : NmaStatus) (hu : key.MacUsable)
    (ha : gst.Aligned) (hg : 30 ≤ gst.abs) :
    ∃ n', o.data.data.navmessage.processMackSlowmac S C (Mack.new msg key.chain.keySizeBits key.chain.tagSizeBits) key prna gst st = .ok n' ∧
      n'.gsts = o.data.data.navmessage.gsts ∧ n'.writePointer = o.data.data.navmessage.writePointer ∧
      n'.ced = o.data.data.navmessage.ced.map (fun x => { x with authbits := min 65535 (x.authbits +
        mackGain S C o.data.data.navmessage o.data.data.navmessage.ced 549 12 msg key prna gst st x) }) ∧
      n'.timing = o.data.data.navmessage.timing := by
  have hi := (navInv_run hS h0 h).inv
  have hr := gst.abs_representable
  obtain ⟨gnav, hgn⟩ := exists_gst (t := gst.abs - 30) (by unfold Representable at *; omega)
  have hadd : gst.addSeconds (-30) = .ok gnav := (Gst.addSeconds_eq_ok (by omega)).2 ⟨by omega, by omega⟩
  have hga : gnav.isSubframe = true := by
    rw [Gst.isSubframe_iff]; unfold Gst.Aligned at *; omega
  have := processMackSlowmac_eq (C := C) (S := S) (c := key.chain) (msg := msg) (prna := prna) (st := st) hu hadd hga hi.lens hi.okc hi.okt
  refine ⟨_, this, rfl, rfl, ?_, ?_⟩
  · unfold mackGain
    rw [usesGain_map hadd]; rfl
  · exact addGains_zero hi.okt (fun _ _ => rfl)

/-- **C17.** Tags add nothing to entries of another satellite or with other bits. -/
theorem C17_other_data_unchanged (n : CollectNavMessage) (arr : List NavItem) (nbits adkd : Nat) (msg : MackMessage)
    (key : Key) (prna : Svn) (gst : Gst) (st : NmaStatus) (x : NavItem)
    (h : ∀ v y, n.entryBefore S arr gst v = some y → x.svn = some v → x.messageBits nbits ≠ y.messageBits nbits) :
    mackGain S C n arr nbits adkd msg key prna gst st x = 0 := by
  apply Classical.byContradiction
  intro hne
  obtain ⟨u, hu, hc⟩ := usesGain_pos (Nat.pos_of_ne_zero hne)
  obtain ⟨t, _, rfl⟩ := List.mem_map.1 hu
  obtain ⟨_, _, svn, y, _, h4, _, h6, h7, _⟩ := hc
  exact h svn y h4 h6 h7

/-- **C17.** The tags of the MACK that count are those that verify: a list of tags of the MACK, all
with the right ADKD, not dummy, for the satellite of the data, sent with status test or operational,
and each the truncated MAC of the bits; the authentication bits added are their total length. -/
theorem C17_gain_is_sum_of_verified_tags (n : CollectNavMessage) (arr : List NavItem) (nbits adkd : Nat) (msg : MackMessage)
    (key : Key) (prna : Svn) (gst : Gst) (st : NmaStatus) (x : NavItem) :
    ∃ ts : List TagSpec, ts.Sublist (mackTags msg key.chain prna) ∧
      mackGain S C n arr nbits adkd msg key prna gst st x = (ts.map (fun t => t.tag.length)).sum ∧
      ∀ t ∈ mackTags msg key.chain prna, t ∈ ts ↔
        (t.adkd = adkd ∧ TagCounts C key prna gst st nbits (n.entryBefore S arr gst) t x) := by
  classical
  refine ⟨((mackTags msg key.chain prna).filter (fun t => t.adkd == adkd)).filter
    (fun t => decide (TagCounts C key prna gst st nbits (n.entryBefore S arr gst) t x)), ?_, ?_, ?_⟩
  · exact (List.filter_sublist).trans List.filter_sublist
  · unfold mackGain usesGain
    rw [List.map_map]
    generalize (mackTags msg key.chain prna).filter (fun t => t.adkd == adkd) = l
    induction l with
    | nil => rfl
    | cons t l ih =>
      simp only [List.map_cons, List.sum_cons, ih, Function.comp, List.filter_cons]
      unfold tagGain
      by_cases hc : TagCounts C key prna gst st nbits (n.entryBefore S arr gst) t x
      · simp [hc]
      · simp [hc]
  · intro t ht
    simp [ht, and_comm]

/-! ## C19 -/

theorem mackGain_dummy (n : CollectNavMessage) (arr : List NavItem) (nbits adkd : Nat) (msg : MackMessage)
    (key : Key) (prna : Svn) (gst : Gst) (st : NmaStatus) (x : NavItem)
    (h : ∀ t ∈ mackTags msg key.chain prna, t.cop = 0) :
    mackGain S C n arr nbits adkd msg key prna gst st x = 0 := by
  apply Classical.byContradiction
  intro hne
  obtain ⟨u, hu, hc⟩ := usesGain_pos (Nat.pos_of_ne_zero hne)
  obtain ⟨t, ht, rfl⟩ := List.mem_map.1 hu
  exact hc.2.1 (h t (List.mem_filter.1 ht).1)

theorem mackGain_status (n : CollectNavMessage) (arr : List NavItem) (nbits adkd : Nat) (msg : MackMessage)
    (key : Key) (prna : Svn) (gst : Gst) (st : NmaStatus) (x : NavItem) (h : st = .Reserved ∨ st = .DontUse) :
    mackGain S C n arr nbits adkd msg key prna gst st x = 0 := by
  apply Classical.byContradiction
  intro hne
  obtain ⟨u, hu, hc⟩ := usesGain_pos (Nat.pos_of_ne_zero hne)
  obtain ⟨t, ht, rfl⟩ := List.mem_map.1 hu
  have := hc.1
  dsimp only at this
  rcases h with rfl | rfl <;> simp at this

theorem processMack_unchanged (hS : S.Consistent) {o0 o : Osnma C} (h0 : o0.Fresh S) {hist : List Call} (h : run S o0 hist = .ok o)
    (msg : MackMessage) (key : Key) (prna : Svn) (gst : Gst) (st : NmaStatus) (hu : key.MacUsable) (ha : gst.Aligned)
    (hg : 30 ≤ gst.abs) (hz : ∀ arr nbits adkd x, mackGain S C o.data.data.navmessage arr nbits adkd msg key prna gst st x = 0) :
    o.data.data.navmessage.processMack S C (Mack.new msg key.chain.keySizeBits key.chain.tagSizeBits) key prna gst st
        = .ok o.data.data.navmessage ∧
    o.data.data.navmessage.processMackSlowmac S C (Mack.new msg key.chain.keySizeBits key.chain.tagSizeBits) key prna gst st
        = .ok o.data.data.navmessage := by
  have hi := (navInv_run hS h0 h).inv
  obtain ⟨n, h1, a1, a2, a3, a4⟩ := C17_process_mack_exact hS h0 h msg key prna gst st hu ha hg
  obtain ⟨m, h2, b1, b2, b3, b4⟩ := C17_process_mack_slowmac_exact hS h0 h msg key prna gst st hu ha hg
  have e : ∀ l : List NavItem, AuthOk l → l.map (fun x => { x with authbits := min 65535 (x.authbits + 0) }) = l := by
    intro l hl
    have : ∀ x ∈ l, ({ x with authbits := min 65535 (x.authbits + 0) } : NavItem) = x := by
      intro x hx
      have := NavItem.addAuthbits_zero (hl x hx)
      exact this
    rw [List.map_congr_left this, List.map_id']
  simp only [hz] at a3 a4 b3
  rw [e _ hi.okc] at a3 b3
  rw [e _ hi.okt] at a4
  refine ⟨by rw [h1]; congr 1; cases n; simp_all, by rw [h2]; congr 1; cases m; simp_all⟩

/-- **C19.** Processing a MACK all of whose tags are dummy tags changes nothing. -/
theorem C19_dummy_mack_changes_nothing (hS : S.Consistent) {o0 o : Osnma C} (h0 : o0.Fresh S) {hist : List Call}
    (h : run S o0 hist = .ok o) (msg : MackMessage) (key : Key) (prna : Svn) (gst : Gst) (st : NmaStatus) (hu : key.MacUsable)
    (ha : gst.Aligned) (hg : 30 ≤ gst.abs) (hcop : ∀ t ∈ mackTags msg key.chain prna, t.cop = 0) :
    o.data.data.navmessage.processMack S C (Mack.new msg key.chain.keySizeBits key.chain.tagSizeBits) key prna gst st
        = .ok o.data.data.navmessage ∧
    o.data.data.navmessage.processMackSlowmac S C (Mack.new msg key.chain.keySizeBits key.chain.tagSizeBits) key prna gst st
        = .ok o.data.data.navmessage :=
  processMack_unchanged hS h0 h msg key prna gst st hu ha hg (fun _ _ _ _ => mackGain_dummy _ _ _ _ _ _ _ _ _ _ hcop)

/-! ## C42 -/

/-- **C42.** Processing a MACK that was received with NMA status "reserved" or "don't use" changes
nothing, whatever its tags. -/
theorem C42_bad_status_changes_nothing (hS : S.Consistent) {o0 o : Osnma C} (h0 : o0.Fresh S) {hist : List Call}
    (h : run S o0 hist = .ok o) (msg : MackMessage) (key : Key) (prna : Svn) (gst : Gst) (st : NmaStatus) (hu : key.MacUsable)
    (ha : gst.Aligned) (hg : 30 ≤ gst.abs) (hst : st = .Reserved ∨ st = .DontUse) :
    o.data.data.navmessage.processMack S C (Mack.new msg key.chain.keySizeBits key.chain.tagSizeBits) key prna gst st
        = .ok o.data.data.navmessage ∧
    o.data.data.navmessage.processMackSlowmac S C (Mack.new msg key.chain.keySizeBits key.chain.tagSizeBits) key prna gst st
        = .ok o.data.data.navmessage :=
  processMack_unchanged hS h0 h msg key prna gst st hu ha hg (fun _ _ _ _ => mackGain_status _ _ _ _ _ _ _ _ _ _ hst)

/-! ## C41 -/

/-- An entry after `feed_osnma`: the same one with possibly more authentication bits. -/
def SameButAuth (x x' : NavItem) : Prop :=
  x'.data = x.data ∧ x'.age = x.age ∧ x'.svn = x.svn ∧ x.authbits ≤ x'.authbits

theorem feedOsnma_stored (hS : S.Consistent) {o0 o o' : Osnma C} (h0 : o0.Fresh S) {hist : List Call} (h : run S o0 hist = .ok o)
    {data : OsnmaDataMessage} {svn : Svn} {gst : Gst} (hc : o.feedOsnma S data svn gst = .ok o') :
    ∃ us vs, o'.stored S = (o.stored S).map (fun s => s.gain (usesGain S C o.data.data.navmessage o.data.data.navmessage.ced 549 us)
      (usesGain S C o.data.data.navmessage o.data.data.navmessage.timing 141 vs)) := by
  have hinv := navInv_run hS h0 h
  obtain ⟨us, vs, hn⟩ := feedOsnma_nav hinv.inv hc
  refine ⟨us, vs, ?_⟩
  have := Rep.useGains (C := C) hinv.rep us vs
  rw [← hn] at this
  exact Rep.stored this

/-- **C41.** `feed_osnma` keeps the stored subframes, their times, satellites, bits and ages, and
never decreases authentication bits. -/
theorem C41_navigation_data_kept (hS : S.Consistent) {o0 o o' : Osnma C} (h0 : o0.Fresh S) {hist : List Call}
    (h : run S o0 hist = .ok o) {data : OsnmaDataMessage} {svn : Svn} {gst : Gst} (hc : o.feedOsnma S data svn gst = .ok o') :
    (o'.stored S).map (·.gst) = (o.stored S).map (·.gst) ∧
    ∀ (k : Nat) (s s' : NavSlot), (o.stored S)[k]? = some s → (o'.stored S)[k]? = some s' → ∀ kd,
      (s'.items kd).length = (s.items kd).length ∧
      ∀ (i : Nat) (x x' : NavItem), (s.items kd)[i]? = some x → (s'.items kd)[i]? = some x' → SameButAuth x x' := by
  have hinv := navInv_run hS h0 h
  obtain ⟨us, vs, hst⟩ := feedOsnma_stored hS h0 h hc
  rw [hst]
  refine ⟨by rw [List.map_map]; rfl, ?_⟩
  intro k s s' hs hs' kd
  rw [List.getElem?_map, hs] at hs'
  simp only [Option.map_some, Option.some.injEq] at hs'
  subst hs'
  have hle : ∀ x ∈ s.items kd, x.authbits ≤ 65535 := by
    intro x hx
    have hm : x ∈ o.data.data.navmessage.arr kd := (Rep.mem hinv.rep).2 (.inl ⟨s, List.mem_of_getElem? hs, hx⟩)
    cases kd
    · exact hinv.inv.okc x hm
    · exact hinv.inv.okt x hm
  have key : ∀ a : NavItem → Nat, ∀ (i : Nat) (x x' : NavItem), (s.items kd)[i]? = some x → (addGains a (s.items kd))[i]? = some x' →
      SameButAuth x x' := by
    intro a i x x' hx hx'
    unfold addGains at hx'
    rw [List.getElem?_map, hx] at hx'
    simp only [Option.map_some, Option.some.injEq] at hx'
    subst hx'
    have := hle x (List.mem_of_getElem? hx)
    refine ⟨rfl, rfl, rfl, ?_⟩
    simp only [NavItem.addAuthbits]; omega
  cases kd
  · exact ⟨addGains_length _ _, key _⟩
  · exact ⟨addGains_length _ _, key _⟩

/-- **C41.** Data that was returned before a call of `feed_osnma` is still returned after it, with at
least as many authentication bits and the same time, unless an entry of the same satellite in a
more recently written subframe has reached 40 authentication bits. -/
theorem C41_returned_data_kept (hS : S.Consistent) {o0 o o' : Osnma C} (h0 : o0.Fresh S) {hist : List Call}
    (h : run S o0 hist = .ok o) {data : OsnmaDataMessage} {svn : Svn} {gst : Gst} (hc : o.feedOsnma S data svn gst = .ok o')
    (kd : NavKind) {v : Svn} {d : NavMessageData} (hd : o.get S kd v = .ok (some d)) :
    (∃ d', o'.get S kd v = .ok (some d') ∧ d'.data = d.data ∧ d'.gst = d.gst ∧ d.authbits ≤ d'.authbits) ∨
    (∃ (j k : Nat) (s t : NavSlot) (x y : NavItem), j < k ∧ (o'.stored S)[k]? = some s ∧ x ∈ s.items kd ∧ x.svn = some v ∧
      x.data.take kd.nbits = d.data ∧ (o'.stored S)[j]? = some t ∧ y ∈ t.items kd ∧ y.svn = some v ∧ 40 ≤ y.authbits) := by
  have hinv := navInv_run hS h0 h
  obtain ⟨hg, hk⟩ := C41_navigation_data_kept hS h0 h hc
  obtain ⟨g, x, hb, e1, e2, e3⟩ := get_some hinv hd
  obtain ⟨k, s, k1, k2, k3, k4, k5, k6⟩ := bestEntry_some hb
  have hlen : (o'.stored S).length = (o.stored S).length := by simpa using congrArg List.length hg
  have hkl := (List.getElem?_eq_some_iff.1 k1).1
  obtain ⟨s', hs'⟩ : ∃ s', (o'.stored S)[k]? = some s' := ⟨_, List.getElem?_eq_getElem (by omega)⟩
  obtain ⟨hl, hit⟩ := hk k s s' k1 hs' kd
  obtain ⟨i, hi, hxi⟩ := List.mem_iff_getElem.1 k3
  have hxi' : (s.items kd)[i]? = some x := by rw [List.getElem?_eq_getElem hi, hxi]
  obtain ⟨x', hx'⟩ : ∃ x', (s'.items kd)[i]? = some x' := ⟨_, List.getElem?_eq_getElem (by omega)⟩
  obtain ⟨q1, q2, q3, q4⟩ := hit i x x' hxi' hx'
  have hx'm : x' ∈ s'.items kd := List.mem_of_getElem? hx'
  have hrun' : run S o0 (hist ++ [.osnma data svn gst]) = .ok o' := run_snoc_ok.2 ⟨o, h, hc⟩
  have hinv' := navInv_run hS h0 hrun'
  have hget' := get_eq hinv' kd v
  cases hb' : bestEntry (o'.stored S) kd v with
  | none =>
    have := bestEntry_none.1 hb' s' (List.mem_of_getElem? hs') x' hx'm (by rw [q3, k4])
    omega
  | some p =>
    obtain ⟨g', y⟩ := p
    obtain ⟨j, t, j1, j2, j3, j4, j5, j6⟩ := bestEntry_some hb'
    rcases Nat.lt_trichotomy j k with hjk | hjk | hjk
    · right
      exact ⟨j, k, s', t, x', y, hjk, hs', hx'm, by rw [q3, k4], by rw [q1, e1]; rfl, j1, j3, j4, j5⟩
    · left
      subst hjk
      rw [hs'] at j1; cases j1
      have hyx : y = x' := by
        obtain ⟨a, ha, hya⟩ := List.mem_iff_getElem.1 j3
        have := (hinv'.good hS kd (List.mem_of_getElem? hs')).distinct a i y x' v
          (by rw [List.getElem?_eq_getElem ha, hya]) hx' j4 (by rw [q3, k4])
        subst this
        rw [List.getElem?_eq_getElem ha, hya] at hx'
        exact Option.some.inj hx'
      subst hyx
      have hgs : s'.gst = s.gst := by
        have h1 : ((o'.stored S).map (·.gst))[j]? = some s'.gst := by rw [List.getElem?_map, hs']; rfl
        have h2 : ((o.stored S).map (·.gst))[j]? = some s.gst := by rw [List.getElem?_map, k1]; rfl
        rw [hg, h2] at h1
        exact (Option.some.inj h1).symm
      have hmin : y.minAge = x.minAge := by unfold NavItem.minAge; rw [q2]
      rw [hb'] at hget'
      have hdr := get_eq hinv kd v
      rw [hd, hb] at hdr
      simp only [resultOf] at hget' hdr
      rw [← j2, hgs, k2, hmin] at hget'
      cases ht : g.addSubframes (-(x.minAge : Int)) with
      | panic w => rw [ht] at hdr; cases hdr
      | ok t =>
        rw [ht] at hget' hdr
        simp only [Res.ok.injEq, Option.some.injEq] at hdr
        refine ⟨_, hget', ?_, ?_, ?_⟩
        · rw [hdr]; simp only [NavItem.messageBits, q1]
        · rw [hdr]
        · rw [hdr]; exact q4
    · have := j6 k s' hjk hs' x' hx'm (by rw [q3, k4])
      omega

/-! ## C53: authentication bits are exactly the tags counted since the data last changed -/

open Classical in
/-- The tags that the call `c` checks on data of one kind, in the state `o`: none for `feed_inav`,
none for a call of `feed_osnma` that does not make a TESLA key known, and otherwise those described
by `KeyArrives.uses`. -/
noncomputable def checkedTags (S : Storage) (o : Osnma C) (c : Call) (kd : NavKind) : List TagUse :=
  match c with
  | .inav _ _ _ _ => []
  | .osnma d s g =>
    if h : ∃ p : (o' : Osnma C) × KeyArrives S o o' d s g, o.feedOsnma S d s g = .ok p.1 then
      (Classical.choose h).2.uses kd
    else []

theorem checkedTags_arrives {o o' : Osnma C} {d : OsnmaDataMessage} {sv : Svn} {g : Gst} (hc : o.feedOsnma S d sv g = .ok o')
    (k : KeyArrives S o o' d sv g) (kd : NavKind) :
    ∃ k' : KeyArrives S o o' d sv g, checkedTags S o (.osnma d sv g) kd = k'.uses kd := by
  have hk : ∃ p : (o' : Osnma C) × KeyArrives S o o' d sv g, o.feedOsnma S d sv g = .ok p.1 := ⟨⟨o', k⟩, hc⟩
  have huse : checkedTags S o (.osnma d sv g) kd = (Classical.choose hk).2.uses kd := dif_pos hk
  have ho := Classical.choose_spec hk
  rw [huse]
  generalize Classical.choose hk = p at *
  obtain ⟨o1, k1⟩ := p
  rw [hc] at ho
  cases ho
  exact ⟨k1, rfl⟩

theorem checkedTags_none {o o' : Osnma C} {d : OsnmaDataMessage} {sv : Svn} {g : Gst} (hc : o.feedOsnma S d sv g = .ok o')
    (hn : ¬ Nonempty (KeyArrives S o o' d sv g)) (kd : NavKind) : checkedTags S o (.osnma d sv g) kd = [] := by
  refine dif_neg ?_
  rintro ⟨⟨o1, k1⟩, h⟩
  rw [hc] at h
  cases h
  exact hn ⟨k1⟩

/-- Total length of the tags checked by call number `i` of the history that count for the data `x`
(`x` is only looked at for its satellite and its bits). -/
noncomputable def gainAt (S : Storage) (o0 : Osnma C) (hist : List Call) (kd : NavKind) (x : NavItem) (i : Nat) : Nat :=
  match run S o0 (hist.take i), hist[i]? with
  | .ok o, some c => usesGain S C o.data.data.navmessage (o.data.data.navmessage.arr kd) kd.nbits (checkedTags S o c kd) x
  | _, _ => 0

/-- After the first `i` calls the current subframe has an entry for the satellite with these bits. -/
def HasData (S : Storage) (o0 : Osnma C) (hist : List Call) (kd : NavKind) (v : Svn) (bits : List Bool) (i : Nat) : Prop :=
  ∃ o s y, run S o0 (hist.take i) = .ok o ∧ (o.stored S)[0]? = some s ∧ y ∈ s.items kd ∧ y.svn = some v ∧ y.data.take kd.nbits = bits

theorem tagGain_same {C : Crypto} {key : Key} {prna : Svn} {gst : Gst} {st : NmaStatus} {nbits : Nat} {e : Svn → Option NavItem}
    {t : TagSpec} {x y : NavItem} (hs : x.svn = y.svn) (hb : x.messageBits nbits = y.messageBits nbits) :
    tagGain C key prna gst st nbits e t x = tagGain C key prna gst st nbits e t y := by
  unfold tagGain TagCounts
  rw [hs, hb]

theorem usesGain_same {n : CollectNavMessage} {arr : List NavItem} {nbits : Nat} {us : List TagUse} {x y : NavItem}
    (hs : x.svn = y.svn) (hb : x.messageBits nbits = y.messageBits nbits) :
    usesGain S C n arr nbits us x = usesGain S C n arr nbits us y := by
  unfold usesGain
  congr 1
  exact List.map_congr_left (fun u _ => tagGain_same hs hb)

theorem gainAt_same {o0 : Osnma C} {hist : List Call} {kd : NavKind} {x y : NavItem} {i : Nat}
    (hs : x.svn = y.svn) (hb : x.messageBits kd.nbits = y.messageBits kd.nbits) :
    gainAt S o0 hist kd x i = gainAt S o0 hist kd y i := by
  unfold gainAt
  split
  · exact usesGain_same hs hb
  · rfl

theorem gainAt_snoc {o0 : Osnma C} {hist : List Call} {c : Call} {kd : NavKind} {x : NavItem} {i : Nat} (h : i < hist.length) :
    gainAt S o0 (hist ++ [c]) kd x i = gainAt S o0 hist kd x i := by
  unfold gainAt
  rw [List.take_append_of_le_length (by omega), List.getElem?_append_left h]

theorem HasData.snoc_iff {o0 : Osnma C} {hist : List Call} {c : Call} {kd : NavKind} {v : Svn} {bits : List Bool} {i : Nat}
    (h : i ≤ hist.length) : HasData S o0 (hist ++ [c]) kd v bits i ↔ HasData S o0 hist kd v bits i := by
  unfold HasData
  rw [List.take_append_of_le_length h]

/-- If the bits of the entry of a satellite do not change, its authentication bits do not change. -/
theorem feedInav_same_bits_inv (hS : S.Consistent) {o o' : Osnma C} {hist : List Call} (hinv : NavInv S hist o (o.stored S))
    {c : InavCall} (hc : o.feedInav S c.word c.svn c.gst c.band = .ok o') (kd : NavKind) {s s' : NavSlot}
    (hs : (o.stored S)[0]? = some s) (hs' : (o'.stored S)[0]? = some s') {x x' : NavItem} (hx : x ∈ s.items kd)
    (hx' : x' ∈ s'.items kd) {v : Svn} (hv : x.svn = some v) (hv' : x'.svn = some v)
    (hb : x'.messageBits kd.nbits = x.messageBits kd.nbits) : x'.authbits = x.authbits := by
  have hst : o'.stored S = navStep S (o.stored S) c := Rep.stored (hinv.inav hS hc).rep
  rw [hst] at hs'
  unfold navStep at hs'
  simp only [List.getElem?_cons_zero, Option.some.injEq] at hs'
  subst hs'
  rw [NavSlot.step_items] at hx'
  have hh : (o.stored S).head? = some s := by rw [List.head?_eq_getElem?]; exact hs
  have hbase : NavSlot.Good S.numSats kd ((NavSlot.base S.numSats c.gst.subframe (o.stored S).head?).items kd) :=
    NavSlot.Good.base (fun t ht => hinv.good hS kd (List.mem_of_head? ht))
  -- the entry of `v` in the base
  obtain ⟨i, y, hy, hyv, hyd, hya⟩ : ∃ (i : Nat) (y : NavItem), ((NavSlot.base S.numSats c.gst.subframe (o.stored S).head?).items kd)[i]? = some y ∧
      y.svn = some v ∧ y.data = x.data ∧ y.authbits = x.authbits := by
    obtain ⟨i, hi, he⟩ := List.mem_iff_getElem.1 hx
    have hxi : (s.items kd)[i]? = some x := by rw [List.getElem?_eq_getElem hi, he]
    rcases NavSlot.base_items S.numSats c.gst.subframe (o.stored S).head? kd with ⟨hn, _⟩ | ⟨t, ht, he'⟩
    · rw [hh] at hn; cases hn
    · rw [hh] at ht; cases ht
      rcases he' with ⟨_, he'⟩ | ⟨_, he'⟩
      · exact ⟨i, x, by rw [he']; exact hxi, hv, rfl, rfl⟩
      · exact ⟨i, x.older, by rw [he', List.getElem?_map, hxi]; rfl, hv, rfl, rfl⟩
  obtain ⟨j, z, hz, hu, hcase, hgood⟩ := hbase.upd hS.sats_pos c
  have hgood' := hgood
  rw [hu] at hx' hgood'
  by_cases hcv : c.svn = v
  · -- the entry is the one that is updated
    have hzy : j = i ∧ z = y := by
      rcases hcase with hcase | ⟨hno, _⟩
      · have := hbase.distinct j i z y v hz hy (by rw [hcase, hcv]) hyv
        subst this
        rw [hz] at hy
        exact ⟨rfl, Option.some.inj hy⟩
      · exact absurd hyv (by rw [← hcv]; exact hno y (List.mem_of_getElem? hy))
    obtain ⟨rfl, rfl⟩ := hzy
    have hjl := (List.getElem?_eq_some_iff.1 hz).1
    have hx'e : x' = z.feedUpd (kd.upd c) c.svn := by
      obtain ⟨k, hk, he⟩ := List.mem_iff_getElem.1 hx'
      have hke := List.getElem?_eq_getElem hk
      rw [he] at hke
      have := hgood'.distinct k j x' (z.feedUpd (kd.upd c) c.svn) v hke
        (by rw [List.getElem?_set_self hjl]) hv' (by rw [NavItem.feedUpd_svn, hcv])
      subst this
      rw [List.getElem?_set_self hjl] at hke
      exact (Option.some.inj hke).symm
    subst hx'e
    rw [← hya]
    have hzs : z.assign c.svn = z := NavItem.assign_same (by rw [hyv, hcv])
    cases hupd : kd.upd c with
    | none => simp only [NavItem.feedUpd, hzs]
    | some u =>
      rw [hupd] at hb
      simp only [NavItem.feedUpd, hzs] at hb ⊢
      have hzw := hbase.wf z (List.mem_of_getElem? hz)
      obtain ⟨f, f1, f2, f3, f4, f5, f6⟩ := kd.upd_some hupd
      have hbz : (z.copyWord u.lo u.hi u.src u.idx).messageBits kd.nbits = z.messageBits kd.nbits := by
        rw [hb]; unfold NavItem.messageBits; rw [hyd]
      have hseg := NavItem.seg_of_data hbz f1
      rw [NavItem.seg_copyWord hzw hupd f1, if_pos rfl] at hseg
      unfold NavItem.copyWord
      dsimp only
      rw [if_neg]
      simp only [ne_eq, Decidable.not_not]
      rw [f3, f4, f5, hseg]
      unfold NavItem.seg
      congr 1
      omega
  · have hmem : x' ∈ (NavSlot.base S.numSats c.gst.subframe (o.stored S).head?).items kd := by
      rcases List.mem_or_eq_of_mem_set hx' with hm | rfl
      · exact hm
      · rw [NavItem.feedUpd_svn] at hv'
        exact absurd (Option.some.inj hv') hcv
    obtain ⟨k, hk, he⟩ := List.mem_iff_getElem.1 hmem
    have hke := List.getElem?_eq_getElem hk
    rw [he] at hke
    have := hbase.distinct k i x' y v hke hy hv' hyv
    subst this
    rw [hke] at hy
    rw [Option.some.inj hy, hya]

/-- The same for a history without panics. -/
theorem feedInav_same_bits (hS : S.Consistent) {o0 o o' : Osnma C} (h0 : o0.Fresh S) {hist : List Call} (h : run S o0 hist = .ok o)
    {c : InavCall} (hc : o.feedInav S c.word c.svn c.gst c.band = .ok o') (kd : NavKind) {s s' : NavSlot}
    (hs : (o.stored S)[0]? = some s) (hs' : (o'.stored S)[0]? = some s') {x x' : NavItem} (hx : x ∈ s.items kd)
    (hx' : x' ∈ s'.items kd) {v : Svn} (hv : x.svn = some v) (hv' : x'.svn = some v)
    (hb : x'.messageBits kd.nbits = x.messageBits kd.nbits) : x'.authbits = x.authbits :=
  feedInav_same_bits_inv hS (navInv_run hS h0 h) hc kd hs hs' hx hx' hv hv' hb

/-- A call of `feed_osnma` adds to the entries of the current subframe exactly the lengths of the
tags it checks that count. -/
theorem feedOsnma_head_inv {o o' : Osnma C} {hist : List Call} (hinv : NavInv S hist o (o.stored S))
    {d : OsnmaDataMessage} {sv : Svn} {g : Gst} (hc : o.feedOsnma S d sv g = .ok o') (kd : NavKind) {s' : NavSlot}
    (hs' : (o'.stored S)[0]? = some s') {x' : NavItem} (hx' : x' ∈ s'.items kd) :
    ∃ s x, (o.stored S)[0]? = some s ∧ x ∈ s.items kd ∧ x' = x.addAuthbits (usesGain S C o.data.data.navmessage
      (o.data.data.navmessage.arr kd) kd.nbits (checkedTags S o (.osnma d sv g) kd) x) := by
  have hok : ∀ s ∈ o.stored S, ∀ x ∈ s.items kd, x.authbits ≤ 65535 := by
    intro s hs x hx
    have hm : x ∈ o.data.data.navmessage.arr kd := (Rep.mem hinv.rep).2 (.inl ⟨s, hs, hx⟩)
    cases kd
    · exact hinv.inv.okc x hm
    · exact hinv.inv.okt x hm
  by_cases hk : Nonempty (KeyArrives S o o' d sv g)
  · obtain ⟨k0⟩ := hk
    obtain ⟨k, hke⟩ := checkedTags_arrives hc k0 kd
    have hrep := Rep.useGains (C := C) hinv.rep (k.uses .ced) (k.uses .timing)
    have hn : o'.data.data.navmessage = o.data.data.navmessage.useGains S C (k.uses .ced) (k.uses .timing) := by
      rw [k.hnew]; rfl
    rw [← hn] at hrep
    have hst : o'.stored S = _ := Rep.stored hrep
    rw [hst, List.getElem?_map] at hs'
    obtain ⟨s, hs, rfl⟩ := Option.map_eq_some_iff.1 hs'
    rw [hke]
    have : ∃ x ∈ s.items kd, x.addAuthbits (usesGain S C o.data.data.navmessage
      (o.data.data.navmessage.arr kd) kd.nbits (k.uses kd) x) = x' := by
      cases kd <;> exact List.mem_map.1 hx'
    obtain ⟨x, hx, rfl⟩ := this
    exact ⟨s, x, hs, hx, rfl⟩
  · have huse := checkedTags_none hc hk kd
    have hnav : o'.data.data.navmessage = o.data.data.navmessage := by
      rcases feedOsnma_cases hinv.inv hc with h | ⟨c, h⟩ | h
      · rw [h]
      · rw [h, c.d1_nav.1]
      · exact absurd h hk
    have hst : o'.stored S = o.stored S := by unfold Osnma.stored; rw [hnav]
    rw [hst] at hs'
    refine ⟨s', x', hs', hx', ?_⟩
    rw [huse, usesGain_nil, NavItem.addAuthbits_zero (hok s' (List.mem_of_getElem? hs') x' hx')]

/-- The same for a history without panics. -/
theorem feedOsnma_head (hS : S.Consistent) {o0 o o' : Osnma C} (h0 : o0.Fresh S) {hist : List Call} (h : run S o0 hist = .ok o)
    {d : OsnmaDataMessage} {sv : Svn} {g : Gst} (hc : o.feedOsnma S d sv g = .ok o') (kd : NavKind) {s' : NavSlot}
    (hs' : (o'.stored S)[0]? = some s') {x' : NavItem} (hx' : x' ∈ s'.items kd) :
    ∃ s x, (o.stored S)[0]? = some s ∧ x ∈ s.items kd ∧ x' = x.addAuthbits (usesGain S C o.data.data.navmessage
      (o.data.data.navmessage.arr kd) kd.nbits (checkedTags S o (.osnma d sv g) kd) x) :=
  feedOsnma_head_inv (navInv_run hS h0 h) hc kd hs' hx'

/-- **C53.** After every history, the authentication bits of the entry `x` of a satellite in the
current subframe are (saturating at 65535) the total length of the tags that were checked and counted
for these bits and this satellite by the calls number `m`, `m+1`, …: `m` is the number of calls after
which the data last changed to the bits of `x` (or the entry was created). -/
theorem C53_authbits_since_change (hS : S.Consistent) {o0 o : Osnma C} (h0 : o0.Fresh S) {hist : List Call}
    (h : run S o0 hist = .ok o) (kd : NavKind) {s : NavSlot} (hs : (o.stored S)[0]? = some s) {x : NavItem} (hx : x ∈ s.items kd)
    {v : Svn} (hv : x.svn = some v) :
    ∃ m, m ≤ hist.length ∧
      (∀ i, m ≤ i → i ≤ hist.length → HasData S o0 hist kd v (x.data.take kd.nbits) i) ∧
      (∀ i, i + 1 = m → ¬ HasData S o0 hist kd v (x.data.take kd.nbits) i) ∧
      x.authbits = min 65535 ((List.range' m (hist.length - m)).map (gainAt S o0 hist kd x)).sum := by
  revert s x v
  refine run_induction (P := fun hist o => ∀ {s : NavSlot}, (o.stored S)[0]? = some s → ∀ {x : NavItem}, x ∈ s.items kd →
    ∀ {v : Svn}, x.svn = some v → ∃ m, m ≤ hist.length ∧
      (∀ i, m ≤ i → i ≤ hist.length → HasData S o0 hist kd v (x.data.take kd.nbits) i) ∧
      (∀ i, i + 1 = m → ¬ HasData S o0 hist kd v (x.data.take kd.nbits) i) ∧
      x.authbits = min 65535 ((List.range' m (hist.length - m)).map (gainAt S o0 hist kd x)).sum) ?_ ?_ h
  · intro s hs
    have hst : o0.stored S = [] := Rep.stored (NavInv.fresh hS h0).rep
    rw [hst] at hs; cases hs
  · intro hist o c o' hrun ih hc s' hs' x' hx' v hv'
    have hrun' : run S o0 (hist ++ [c]) = .ok o' := run_snoc_ok.2 ⟨o, hrun, hc⟩
    have hfull : (hist ++ [c]).take (hist ++ [c]).length = hist ++ [c] := List.take_length
    have hlast : HasData S o0 (hist ++ [c]) kd v (x'.data.take kd.nbits) (hist ++ [c]).length :=
      ⟨o', s', x', by rw [hfull]; exact hrun', hs', hx', hv', rfl⟩
    have hlen : (hist ++ [c]).length = hist.length + 1 := by simp
    -- extending the interval of an entry `x` with the same bits
    have extend : ∀ s x, (o.stored S)[0]? = some s → x ∈ s.items kd → x.svn = some v →
        x.data.take kd.nbits = x'.data.take kd.nbits →
        x'.authbits = min 65535 (x.authbits + gainAt S o0 (hist ++ [c]) kd x' hist.length) →
        ∃ m, m ≤ (hist ++ [c]).length ∧
          (∀ i, m ≤ i → i ≤ (hist ++ [c]).length → HasData S o0 (hist ++ [c]) kd v (x'.data.take kd.nbits) i) ∧
          (∀ i, i + 1 = m → ¬ HasData S o0 (hist ++ [c]) kd v (x'.data.take kd.nbits) i) ∧
          x'.authbits = min 65535 ((List.range' m ((hist ++ [c]).length - m)).map (gainAt S o0 (hist ++ [c]) kd x')).sum := by
      intro s x hs hx hv hb ha
      obtain ⟨m, h1, h2, h3, h4⟩ := ih hs hx hv
      refine ⟨m, by omega, ?_, ?_, ?_⟩
      · intro i hi hi'
        rcases Nat.lt_or_ge hist.length i with hlt | hge
        · have : i = (hist ++ [c]).length := by omega
          rw [this]; exact hlast
        · rw [HasData.snoc_iff hge, ← hb]; exact h2 i hi hge
      · intro i hi
        rw [HasData.snoc_iff (by omega), ← hb]; exact h3 i hi
      · have hr : List.range' m ((hist ++ [c]).length - m) = List.range' m (hist.length - m) ++ [hist.length] := by
          rw [hlen, show hist.length + 1 - m = (hist.length - m) + 1 by omega, List.range'_concat]
          congr 2; omega
        rw [hr, List.map_append, List.sum_append, ha, h4]
        have : (List.range' m (hist.length - m)).map (gainAt S o0 (hist ++ [c]) kd x')
            = (List.range' m (hist.length - m)).map (gainAt S o0 hist kd x) := by
          apply List.map_congr_left
          intro i hi
          rw [List.mem_range'_1] at hi
          rw [gainAt_snoc (by omega)]
          exact gainAt_same (by rw [hv', hv]) hb.symm
        rw [this]
        simp only [List.map_cons, List.map_nil, List.sum_cons, List.sum_nil, Nat.add_zero]
        omega
    have hgain : ∀ x : NavItem, gainAt S o0 (hist ++ [c]) kd x hist.length
        = usesGain S C o.data.data.navmessage (o.data.data.navmessage.arr kd) kd.nbits (checkedTags S o c kd) x := by
      intro x
      unfold gainAt
      rw [List.take_left' rfl, hrun]
      simp
    cases c with
    | inav w sv g b =>
      by_cases hold : HasData S o0 hist kd v (x'.data.take kd.nbits) hist.length
      · obtain ⟨o1, s, x, h1, h2, h3, h4, h5⟩ := hold
        rw [List.take_length, hrun] at h1; cases h1
        refine extend s x h2 h3 h4 h5 ?_
        rw [hgain]
        have := feedInav_same_bits hS h0 hrun (c := ⟨w, sv, g, b⟩) hc kd h2 hs' h3 hx' h4 hv' h5.symm
        rw [this]
        simp only [checkedTags, usesGain_nil]
        have hm : x ∈ o.data.data.navmessage.arr kd :=
          (Rep.mem (navInv_run hS h0 hrun).rep).2 (.inl ⟨s, List.mem_of_getElem? h2, h3⟩)
        have : x.authbits ≤ 65535 := by
          cases kd
          · exact (navInv_run hS h0 hrun).inv.okc x hm
          · exact (navInv_run hS h0 hrun).inv.okt x hm
        omega
      · refine ⟨(hist ++ [Call.inav w sv g b]).length, Nat.le_refl _, ?_, ?_, ?_⟩
        · intro i h1 h2
          have : i = (hist ++ [Call.inav w sv g b]).length := by omega
          rw [this]; exact hlast
        · intro i hi
          have : i = hist.length := by omega
          rw [this, HasData.snoc_iff (Nat.le_refl _)]
          exact hold
        · simp only [Nat.sub_self, List.range'_zero, List.map_nil, List.sum_nil]
          apply Classical.byContradiction
          intro ha
          obtain ⟨s, h1, x, h2, e1, e2, e3⟩ := feedInav_entry hS h0 hrun (c := ⟨w, sv, g, b⟩) hc kd hs' hx' (by omega)
          exact hold ⟨o, s, x, by rw [List.take_length]; exact hrun, h1, h2, by rw [e1, hv'], by rw [e2]⟩
    | osnma d sv g =>
      obtain ⟨s, x, h1, h2, rfl⟩ := feedOsnma_head hS h0 hrun hc kd hs' hx'
      refine extend s x h1 h2 hv' rfl ?_
      rw [hgain]
      rfl

/-- **C53 (reading).** What `checkedTags` is when a TESLA key becomes known: the tags of `KeyArrives`. -/
theorem C53_checked_tags {o o' : Osnma C} {d : OsnmaDataMessage} {sv : Svn} {g : Gst} (hc : o.feedOsnma S d sv g = .ok o')
    (k : KeyArrives S o o' d sv g) (kd : NavKind) :
    ∃ k' : KeyArrives S o o' d sv g, checkedTags S o (.osnma d sv g) kd = k'.uses kd :=
  checkedTags_arrives hc k kd

end Verif
