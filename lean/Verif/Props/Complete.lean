import Verif.Lemmas.CompleteTag

/-! # Genuine data does get authenticated (C52) -/

namespace Verif
open CollectNavMessage

variable {S : Storage} {C : Crypto} {root0 : Option MerkleTreeNode} {pk0 : Option (PublicKey C)} {slow : Bool}

theorem OsnmaData.dsmEvents_no_tesla (d : OsnmaData C) (x : Dsm) (h : NmaHeader) (g : Gst) (k : Key) :
    KeyEvent.tesla k ∉ d.dsmEvents x h g := by
  unfold dsmEvents
  cases x.dsmType with
  | Kroot =>
    dsimp only
    unfold krootEvents
    split
    · simp
    · split
      · split <;> simp
      · simp
  | Pkr =>
    dsimp only
    unfold pkrEvents
    split
    · split <;> simp
    · split <;> simp
    · simp

theorem OsnmaData.teslaEvents_mem {d : OsnmaData C} {m : MackMessage} {g : Gst} {k : Key} (h : KeyEvent.tesla k ∈ d.teslaEvents m g) :
    ∃ cur, d.key.currentKey = some cur ∧ g.Aligned ∧ cur.gst.abs < g.abs ∧
      cur.validateKey C (mackKey m cur.chain g) = .ok (.ok (mackKey m cur.chain g)) := by
  unfold teslaEvents at h
  cases hc : d.key.currentKey with
  | none => rw [hc] at h; simp at h
  | some cur =>
    rw [hc] at h
    dsimp only at h
    have hk := Mack.key_ok m cur.chain
    unfold mackOf at hk
    rw [hk] at h
    simp only [Res.ok_bind] at h
    split at h
    · simp at h
    · rename_i nk hnk
      obtain ⟨ha, _, rfl⟩ := Key.fromBitslice_eq_ok hnk
      dsimp only at h
      split at h
      · rename_i hlt
        split at h
        · rename_i valid hv
          have := Key.validateKey_same hv
          subst this
          exact ⟨cur, rfl, ha, Gst.cmp_lt.1 hlt, hv⟩
        · simp at h
      · simp at h

theorem OsnmaData.validateKey_accepts {d d' : OsnmaData C} {m : MackMessage} {g : Gst} (h : d.validateKey S m g = .ok d') {cur : Key}
    (hc : d.key.currentKey = some cur) (hlt : cur.gst.abs < g.abs)
    (hv : cur.validateKey C (mackKey m cur.chain g) = .ok (.ok (mackKey m cur.chain g))) :
    ∃ ks, d.key.storeKey (mackKey m cur.chain g) = .ok ks ∧ processTags S { d with key := ks } (mackKey m cur.chain g) = .ok d' := by
  unfold validateKey at h
  rw [hc] at h
  dsimp only at h
  have hk := Mack.key_ok m cur.chain
  unfold mackOf at hk
  rw [hk] at h
  simp only [Res.ok_bind] at h
  obtain ⟨nk, h1, h⟩ := Res.bind_eq_ok.1 h
  obtain ⟨ha, _, rfl⟩ := Key.fromBitslice_eq_ok h1
  rw [show Gst.cmp cur.gst _ = .lt from Gst.cmp_lt.2 hlt] at h
  dsimp only at h
  obtain ⟨r, h2, h⟩ := Res.bind_eq_ok.1 h
  have h2' : cur.validateKey C (mackKey m cur.chain g) = .ok r := h2
  rw [hv] at h2'
  cases h2'
  dsimp only at h
  obtain ⟨ks, h3, h4⟩ := Res.bind_eq_ok.1 h
  exact ⟨ks, h3, h4⟩

/-- A call that reports a new TESLA key checks tags with it. -/
theorem tesla_arrives {o o' : Osnma C} {d : OsnmaDataMessage} {s : Svn} {g : Gst} (hi : Inv S o.data.data.navmessage)
    (hc : o.feedOsnma S d s g = .ok o') {k : Key} (he : KeyEvent.tesla k ∈ o.events S (.osnma d s g)) :
    Nonempty (KeyArrives S o o' d s g) ∧ ∀ a : KeyArrives S o o' d s g, mackKey a.msg a.cur.chain a.g = k := by
  constructor
  · rcases Osnma.feedOsnma_of_ok hc with ⟨hz, _⟩ | ⟨hz, ⟨sf, hf, _⟩ | ⟨⟨c⟩⟩⟩
    · simp only [Osnma.events, hz, if_true, List.not_mem_nil] at he
    · simp only [Osnma.events, hz, hf, Bool.false_eq_true, if_false, List.not_mem_nil] at he
    · rw [c.events hz] at he
      have he : KeyEvent.tesla k ∈ c.d1.teslaEvents c.msg c.g := by
        rcases List.mem_append.1 he with he | he
        · split at he
          · exact absurd he (OsnmaData.dsmEvents_no_tesla _ _ _ _ _)
          · simp at he
        · exact he
      obtain ⟨cur, h1, h2, h3, h4⟩ := OsnmaData.teslaEvents_mem he
      obtain ⟨ks, h5, h6⟩ := OsnmaData.validateKey_accepts c.hd2 h1 h3 h4
      have ho : o'.data.data = c.d2 := congrArg (fun z => z.data.data) c.ho
      obtain ⟨e1, _, _⟩ := c.d1_nav
      obtain ⟨gm, gs, sk, k1, k2, k3, k4⟩ := OsnmaData.processTags_of_ok (S := S) (by exact h2)
        (by show Inv S c.d1.navmessage; rw [e1]; exact hi) h6
      refine ⟨⟨c, cur, ks, gm, gs, sk, h1, h2, h3, h4, h5, k1, k2, k3, ?_⟩⟩
      rw [ho, k4]
      simp only [e1]
  · intro a
    rw [a.events a.hz, OsnmaData.teslaEvents_accept a.hcur a.hal a.hlt a.hval] at he
    rcases List.mem_append.1 he with he | he
    · split at he
      · exact absurd he (OsnmaData.dsmEvents_no_tesla _ _ _ _ _)
      · simp at he
    · rw [List.mem_singleton, KeyEvent.tesla.injEq] at he
      exact he.symm

theorem run_prefix {o0 o : Osnma C} {a b : List Call} (h : run S o0 (a ++ b) = .ok o) : ∃ o1, run S o0 a = .ok o1 := by
  induction b using CollectSubframe.snoc_induction generalizing o with
  | h0 => rw [List.append_nil] at h; exact ⟨o, h⟩
  | h1 b c ih =>
    rw [← List.append_assoc] at h
    obtain ⟨o1, h1, _⟩ := run_snoc_ok.1 h
    exact ih h1

/-- The tags that are due are among those checked, and count. -/
theorem tagDue_counts (hS : S.Consistent) {hist : List Call} {kd : NavKind} {v : Svn} {bits : List Bool} {i : Nat} {u : TagUse}
    {ofin : Osnma C} (hrun : run S (Osnma.new S root0 pk0 slow) hist = .ok ofin)
    (h0 : (Osnma.new S root0 pk0 slow : Osnma C).Fresh S)
    (hu : TagDue S (Osnma.new S root0 pk0 slow) slow hist kd v bits i u)
    (hplace : ∃ q r, inavsOf (hist.take i) = q ++ r ∧ KeepsPlace S kd q v r ∧
      ∀ c ∈ q, c.svn = v → c.gst.subframe.abs < u.gst.abs - 30 * u.tag.cop) :
    ∃ o c, run S (Osnma.new S root0 pk0 slow) (hist.take i) = .ok o ∧ hist[i]? = some c ∧ u ∈ checkedTags S o c kd ∧
      ∀ x : NavItem, x.svn = some v → x.messageBits kd.nbits = bits →
        u.Counts S C o.data.data.navmessage (o.data.data.navmessage.arr kd) kd.nbits x := by
  obtain ⟨log, o, c, h1, h2, h3, h4, h5, h6⟩ := hu
  cases c with
  | inav => simp [Osnma.events] at h3
  | osnma d s g =>
    refine ⟨o, .osnma d s g, h2.run, h1, ?_⟩
    have hil := (List.getElem?_eq_some_iff.1 h1).1
    have htake : hist.take (i + 1) = hist.take i ++ [.osnma d s g] := by
      rw [List.take_add_one, h1]; rfl
    obtain ⟨o', hc⟩ : ∃ o', o.feedOsnma S d s g = .ok o' := by
      have hall : run S (Osnma.new S root0 pk0 slow) (hist.take (i + 1) ++ hist.drop (i + 1)) = .ok ofin := by
        rw [List.take_append_drop]; exact hrun
      obtain ⟨o1, r1⟩ := run_prefix hall
      rw [htake] at r1
      obtain ⟨o2, r2, r3⟩ := run_snoc_ok.1 r1
      rw [h2.run] at r2; cases r2
      exact ⟨o1, r3⟩
    have hi := (navInv_run hS h0 h2.run).inv
    obtain ⟨⟨a0⟩, hall⟩ := tesla_arrives hi hc h3
    obtain ⟨a, ha⟩ := checkedTags_arrives hc a0 kd
    have hak := hall a
    rw [htake] at h4 h5
    have hag : u.key.gst = a.g := by rw [← hak]; rfl
    rw [ha]
    exact a.counts hS h0 h2 hc (by rw [← hag]; exact h4) h5 hak.symm hplace h6

/-- The current entry of a satellite fed, when the storage has room for all the satellites. -/
theorem current_entry_inv (hS : S.Consistent) {o : Osnma C} {hist : List Call} (hinv : NavInv S hist o (o.stored S))
    (hfit : Fits S (inavsOf hist)) (kd : NavKind) {v : Svn} (hv : ∃ c ∈ inavsOf hist, c.svn = v) :
    ∃ s x, (o.stored S)[0]? = some s ∧ x ∈ s.items kd ∧ x.svn = some v ∧ x.data.take kd.nbits = kd.expected (inavsOf hist) v := by
  obtain ⟨c, hc, hcv⟩ := hv
  cases hst : o.stored S with
  | nil =>
    exfalso
    have := hinv.core
    rw [hst] at this
    rcases List.eq_nil_or_concat (inavsOf hist) with he | ⟨q, e, he⟩
    · rw [he] at hc; simp at hc
    · rw [he, List.concat_eq_append, navRun_snoc] at this
      cases this
  | cons s rest =>
    have h0' : (o.stored S)[0]? = some s := by rw [hst]; rfl
    obtain ⟨q, r, h1, h2, _, _, h5, h6⟩ := stored_contents_inv hS hinv hfit kd h0'
    obtain rfl := h2 rfl
    rw [List.append_nil] at h1
    obtain ⟨i, x, e1, e2, _⟩ := h6 c (by rw [← h1]; exact hc)
    refine ⟨s, x, rfl, List.mem_of_getElem? e1, by rw [e2, hcv], ?_⟩
    rw [h1]
    exact (h5 x (List.mem_of_getElem? e1) v (by rw [e2, hcv])).2

/-- The same for a history without panics. -/
theorem current_entry (hS : S.Consistent) {o0 o : Osnma C} (h0 : o0.Fresh S) {hist : List Call} (h : run S o0 hist = .ok o)
    (hfit : Fits S (inavsOf hist)) (kd : NavKind) {v : Svn} (hv : ∃ c ∈ inavsOf hist, c.svn = v) :
    ∃ s x, (o.stored S)[0]? = some s ∧ x ∈ s.items kd ∧ x.svn = some v ∧ x.data.take kd.nbits = kd.expected (inavsOf hist) v :=
  current_entry_inv hS (navInv_run hS h0 h) hfit kd hv

/-- The tags checked by all the calls from number `m` on, each with the number of the call. -/
noncomputable def checkedFrom (S : Storage) (o0 : Osnma C) (hist : List Call) (kd : NavKind) (i : Nat) : List (Nat × TagUse) :=
  match run S o0 (hist.take i), hist[i]? with
  | .ok o, some c => (checkedTags S o c kd).map (fun u => (i, u))
  | _, _ => []

/-- What a checked tag adds. -/
noncomputable def checkedGain (S : Storage) (o0 : Osnma C) (hist : List Call) (kd : NavKind) (x : NavItem) (p : Nat × TagUse) : Nat :=
  match run S o0 (hist.take p.1) with
  | .ok o => tagGain C p.2.key p.2.prna p.2.gst p.2.st kd.nbits
      (o.data.data.navmessage.entryBefore S (o.data.data.navmessage.arr kd) p.2.gst) p.2.tag x
  | _ => 0

theorem gainAt_eq (o0 : Osnma C) (hist : List Call) (kd : NavKind) (x : NavItem) (i : Nat) :
    gainAt S o0 hist kd x i = ((checkedFrom S o0 hist kd i).map (checkedGain S o0 hist kd x)).sum := by
  unfold gainAt checkedFrom
  cases hr : run S o0 (hist.take i) with
  | panic => rfl
  | ok o =>
    cases hc : hist[i]? with
    | none => rfl
    | some c =>
      dsimp only
      rw [List.map_map]
      unfold usesGain
      congr 1
      apply List.map_congr_left
      intro u _
      simp only [Function.comp, checkedGain, hr]

/-- Data that the current entry of the satellite has had since call `n`, and tags that count. -/
theorem genuine_core (hS : S.Consistent) (h0 : (Osnma.new S root0 pk0 slow : Osnma C).Fresh S) {hist : List Call}
    {o : Osnma C} (h : run S (Osnma.new S root0 pk0 slow) hist = .ok o)
    (hweek : ∀ c ∈ inavsOf hist, 7650 ≤ c.gst.abs) (kd : NavKind) (v : Svn) (bits : List Bool) (n : Nat)
    (hcur : ∀ i, n ≤ i → i ≤ hist.length → HasData S (Osnma.new S root0 pk0 slow) hist kd v bits i)
    (due : List (Nat × TagUse)) (hnd : due.Nodup)
    (hdue : ∀ p ∈ due, n ≤ p.1 ∧ TagDue S (Osnma.new S root0 pk0 slow) slow hist kd v bits p.1 p.2)
    (hplace : ∀ p ∈ due, ∃ q r, inavsOf (hist.take p.1) = q ++ r ∧ KeepsPlace S kd q v r ∧
      ∀ c ∈ q, c.svn = v → c.gst.subframe.abs < p.2.gst.abs - 30 * p.2.tag.cop)
    (hn : n ≤ hist.length) (henough : 40 ≤ (due.map (fun p => p.2.tag.tag.length)).sum) :
    ∃ d, o.get S kd v = .ok (some d) ∧ d.data = bits ∧ min 65535 (due.map (fun p => p.2.tag.tag.length)).sum ≤ d.authbits := by
  obtain ⟨o1, s, x, r1, hs, hx, hxv, hxb⟩ := hcur hist.length hn (Nat.le_refl _)
  rw [List.take_length, h] at r1
  cases r1
  obtain ⟨m, m1, m2, m3, m4⟩ := C53_authbits_since_change hS h0 h kd hs hx hxv
  rw [hxb] at m2 m3
  have hmn : m ≤ n := by
    rcases Nat.lt_or_ge n m with hlt | hge
    · exact absurd (hcur (m - 1) (by omega) (by omega)) (m3 (m - 1) (by omega))
    · exact hge
  -- the tags due are part of those counted
  have hle : (due.map (fun p => p.2.tag.tag.length)).sum
      ≤ ((List.range' m (hist.length - m)).map (gainAt S (Osnma.new S root0 pk0 slow) hist kd x)).sum := by
    have e : ((List.range' m (hist.length - m)).map (gainAt S (Osnma.new S root0 pk0 slow) hist kd x)).sum
        = (((List.range' m (hist.length - m)).flatMap (checkedFrom S (Osnma.new S root0 pk0 slow) hist kd)).map
          (checkedGain S (Osnma.new S root0 pk0 slow) hist kd x)).sum := by
      induction List.range' m (hist.length - m) with
      | nil => rfl
      | cons a l ih =>
        rw [List.map_cons, List.sum_cons, ih, List.flatMap_cons, List.map_append, List.sum_append, gainAt_eq]
    rw [e]
    have hval : ∀ p ∈ due, p.2.tag.tag.length = checkedGain S (Osnma.new S root0 pk0 slow) hist kd x p ∧
        p ∈ (List.range' m (hist.length - m)).flatMap (checkedFrom S (Osnma.new S root0 pk0 slow) hist kd) := by
      intro p hp
      obtain ⟨hpn, hd⟩ := hdue p hp
      obtain ⟨oi, c, q1, q2, q3, q4⟩ := tagDue_counts hS h h0 hd (hplace p hp)
      have hlt := (List.getElem?_eq_some_iff.1 q2).1
      constructor
      · unfold checkedGain
        rw [q1]
        dsimp only
        unfold tagGain
        rw [if_pos]
        exact q4 x hxv hxb
      · rw [List.mem_flatMap]
        refine ⟨p.1, by rw [List.mem_range'_1]; omega, ?_⟩
        unfold checkedFrom
        rw [q1, q2]
        exact List.mem_map.2 ⟨p.2, q3, rfl⟩
    rw [List.map_congr_left (fun p hp => (hval p hp).1)]
    exact sum_map_le_of_subset _ hnd (fun p hp => (hval p hp).2)
  have hauth : min 65535 (due.map (fun p => p.2.tag.tag.length)).sum ≤ x.authbits := by
    rw [m4]; omega
  -- the getter finds the current entry
  have hinv := navInv_run hS h0 h
  obtain ⟨r, hr⟩ := C38_get_returns hS h0 h hweek kd v
  cases r with
  | none =>
    have := (C16_none_iff hS h0 h kd v).1 hr s (List.mem_of_getElem? hs) x hx hxv
    omega
  | some d =>
    refine ⟨d, hr, ?_⟩
    obtain ⟨k, t, y, k1, k2, k3, k4, k5, k6, _, k8⟩ := C16_most_recent hS h0 h kd hr
    have hk0 : k = 0 := by
      rcases Nat.eq_zero_or_pos k with h | h
      · exact h
      · have := k8 0 s h hs x hx hxv
        omega
    subst hk0
    rw [hs] at k1; cases k1
    have hyx : y = x := by
      obtain ⟨a, ha, hya⟩ := List.mem_iff_getElem.1 k2
      obtain ⟨b, hb, hxe⟩ := List.mem_iff_getElem.1 hx
      have := (hinv.good hS kd (List.mem_of_getElem? hs)).distinct a b y x v
        (by rw [List.getElem?_eq_getElem ha, hya]) (by rw [List.getElem?_eq_getElem hb, hxe]) k3 hxv
      subst this
      rw [← hya, hxe]
    subst hyx
    exact ⟨by rw [k5, hxb], by rw [k6]; exact hauth⟩

/-- The words split at the first one of a satellite. -/
theorem first_word {p : List InavCall} {v : Svn} (h : ∃ c ∈ p, c.svn = v) :
    ∃ q c r, p = q ++ c :: r ∧ c.svn = v ∧ ∀ d ∈ q, d.svn ≠ v := by
  induction p with
  | nil => obtain ⟨c, hc, _⟩ := h; simp at hc
  | cons a p ih =>
    by_cases ha : a.svn = v
    · exact ⟨[], a, p, rfl, ha, by simp⟩
    · obtain ⟨c, hc, hcv⟩ := h
      rcases List.mem_cons.1 hc with rfl | hc
      · exact absurd hcv ha
      · obtain ⟨q, e, r, h1, h2, h3⟩ := ih ⟨c, hc, hcv⟩
        refine ⟨a :: q, e, r, by rw [h1]; rfl, h2, ?_⟩
        intro d hd
        rcases List.mem_cons.1 hd with rfl | hd
        · exact ha
        · exact h3 d hd

theorem Fits.sub {p p' : List InavCall} (h : Fits S p) (hs : ∀ c ∈ p', c ∈ p) : Fits S p' := by
  obtain ⟨sats, h1, h2⟩ := h
  exact ⟨sats, h1, fun c hc => h2 c (hs c hc)⟩

/-- **C52.**  Let the data of a satellite have been `bits` from call number `n` on (the fields last received, in
a storage with room for all the satellites), and let `due` be different tags, each of which was genuine and had its
TESLA key accepted by one of the calls number `n` or later.  When the tags have together 40 bits or more, the
getter returns `bits`, with at least the total length as authentication bits. -/
theorem C52_genuine_data_is_authenticated (hS : S.Consistent) (h0 : (Osnma.new S root0 pk0 slow : Osnma C).Fresh S) {hist : List Call}
    {o : Osnma C} (h : run S (Osnma.new S root0 pk0 slow) hist = .ok o) (hfit : Fits S (inavsOf hist))
    (hweek : ∀ c ∈ inavsOf hist, 7650 ≤ c.gst.abs) (kd : NavKind) (v : Svn) (bits : List Bool) (n : Nat)
    (hfed : ∃ c ∈ inavsOf (hist.take n), c.svn = v)
    (hsame : ∀ i, n ≤ i → i ≤ hist.length → kd.expected (inavsOf (hist.take i)) v = bits)
    (due : List (Nat × TagUse)) (hnd : due.Nodup)
    (hdue : ∀ p ∈ due, n ≤ p.1 ∧ TagDue S (Osnma.new S root0 pk0 slow) slow hist kd v bits p.1 p.2)
    (hn : n ≤ hist.length) (henough : 40 ≤ (due.map (fun p => p.2.tag.tag.length)).sum) :
    ∃ d, o.get S kd v = .ok (some d) ∧ d.data = bits ∧ min 65535 (due.map (fun p => p.2.tag.tag.length)).sum ≤ d.authbits := by
  have hsub : ∀ (i : Nat) c, c ∈ inavsOf (hist.take i) → c ∈ inavsOf hist := by
    intro i c hc
    unfold inavsOf at *
    rw [← List.take_append_drop i hist, List.filterMap_append]
    exact List.mem_append_left _ hc
  have hmono : ∀ i, n ≤ i → ∀ c, c ∈ inavsOf (hist.take n) → c ∈ inavsOf (hist.take i) := by
    intro i hi c hc
    unfold inavsOf at *
    rw [show hist.take n = (hist.take i).take n by rw [List.take_take, Nat.min_eq_left hi]] at hc
    rw [← List.take_append_drop n (hist.take i), List.filterMap_append]
    exact List.mem_append_left _ hc
  have hcur : ∀ i, n ≤ i → i ≤ hist.length → HasData S (Osnma.new S root0 pk0 slow) hist kd v bits i := by
    intro i hi hi'
    obtain ⟨oi, hoi⟩ := run_prefix (a := hist.take i) (b := hist.drop i) (by rw [List.take_append_drop]; exact h)
    obtain ⟨c, hc, hcv⟩ := hfed
    obtain ⟨s, x, e1, e2, e3, e4⟩ := current_entry hS h0 hoi
      (by obtain ⟨sats, q1, q2⟩ := hfit; exact ⟨sats, q1, fun c hc => q2 c (hsub i c hc)⟩) kd ⟨c, hmono i hi c hc, hcv⟩
    exact ⟨oi, s, x, hoi, e1, e2, e3, by rw [e4, hsame i hi hi']⟩
  refine genuine_core hS h0 h hweek kd v bits n hcur due hnd hdue ?_ hn henough
  intro p hp
  obtain ⟨c, hc, hcv⟩ := hfed
  obtain ⟨q, e, r, e1, e2, e3⟩ := first_word ⟨c, hmono p.1 (hdue p hp).1 c hc, hcv⟩
  refine ⟨q, e :: r, e1, ?_, fun d hd hdv => absurd hdv (e3 d hd)⟩
  rw [← e2]
  exact KeepsPlace.of_fits kd e (hfit.sub (fun d hd => hsub p.1 d (by rw [e1]; exact hd)))

end Verif
