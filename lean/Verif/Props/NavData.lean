import Verif.Lemmas.NavItems

/-! # C11–C16, C38: the navigation data store -/

namespace Verif
open CollectNavMessage

variable {S : Storage} {C : Crypto}

/-! ## Auxiliary facts about the slots of reachable states -/

/-- Slot `k` of the store, when the storage has room for all the satellites. -/
theorem stored_full_inv (hS : S.Consistent) {o : Osnma C} {hist : List Call} (hinv : NavInv S hist o (o.stored S))
    (hfit : Fits S (inavsOf hist)) (kd : NavKind) {k : Nat} {s : NavSlot} (hs : (o.stored S)[k]? = some s) :
    ∃ q r, inavsOf hist = q ++ r ∧ (k = 0 → r = []) ∧ (∀ c, r.head? = some c → c.gst.subframe ≠ s.gst) ∧
      (∃ c, q.getLast? = some c ∧ s.gst = c.gst.subframe) ∧
      NavSlot.Good S.numSats kd (s.items kd) ∧ FullSlot kd q s.gst ((s.items kd).map NavItem.core) (Contiguous q) (Chronological q) := by
  obtain ⟨q, r, h1, h2, h3⟩ := hinv.prefix hs
  refine ⟨q, r, h1, ?_, ?_, ?_, hinv.good hS kd (List.mem_of_getElem? hs), ?_⟩
  · rcases h3 with ⟨_, h3⟩ | ⟨h3, _⟩
    · exact fun _ => h3
    · intro hk; omega
  · intro c hc
    rcases h3 with ⟨_, rfl⟩ | ⟨_, c', r', rfl, hne⟩
    · cases hc
    · cases hc; exact hne
  · obtain ⟨q', c, rfl, hg⟩ := navHead_gst h2
    exact ⟨c, by simp, hg⟩
  · have hf : Fits S q := by
      obtain ⟨sats, a, b⟩ := hfit
      exact ⟨sats, a, fun c hc => b c (by rw [h1]; simp [hc])⟩
    have := navHead_full hS.sats_pos kd q hf s.core h2
    rw [NavSlot.core_items] at this
    exact this

/-- The same for a history without panics. -/
theorem stored_full (hS : S.Consistent) {o0 o : Osnma C} (h0 : o0.Fresh S) {hist : List Call} (h : run S o0 hist = .ok o)
    (hfit : Fits S (inavsOf hist)) (kd : NavKind) {k : Nat} {s : NavSlot} (hs : (o.stored S)[k]? = some s) :
    ∃ q r, inavsOf hist = q ++ r ∧ (k = 0 → r = []) ∧ (∀ c, r.head? = some c → c.gst.subframe ≠ s.gst) ∧
      (∃ c, q.getLast? = some c ∧ s.gst = c.gst.subframe) ∧
      NavSlot.Good S.numSats kd (s.items kd) ∧ FullSlot kd q s.gst ((s.items kd).map NavItem.core) (Contiguous q) (Chronological q) :=
  stored_full_inv hS (navInv_run hS h0 h) hfit kd hs

/-- Contents of slot `k`, both kinds of data. -/
theorem stored_contents_inv (hS : S.Consistent) {o : Osnma C} {hist : List Call} (hinv : NavInv S hist o (o.stored S))
    (hfit : Fits S (inavsOf hist)) (kd : NavKind) {k : Nat} {s : NavSlot} (hs : (o.stored S)[k]? = some s) :
    ∃ q r, inavsOf hist = q ++ r ∧ (k = 0 → r = []) ∧ (∀ c, r.head? = some c → c.gst.subframe ≠ s.gst) ∧
      (∃ c, q.getLast? = some c ∧ s.gst = c.gst.subframe) ∧
      (∀ x ∈ s.items kd, ∀ v, x.svn = some v → (∃ c ∈ q, c.svn = v) ∧ x.data.take kd.nbits = kd.expected q v) ∧
      (∀ c ∈ q, ∃ i x, (s.items kd)[i]? = some x ∧ x.svn = some c.svn ∧
        ∀ (j : Nat) (y : NavItem), (s.items kd)[j]? = some y → y.svn = some c.svn → j = i) := by
  obtain ⟨q, r, h1, h2, h3, h4, hg, hf⟩ := stored_full_inv hS hinv hfit kd hs
  refine ⟨q, r, h1, h2, h3, h4, ?_, ?_⟩
  · intro x hx v hv
    have hxc := List.mem_map_of_mem (f := NavItem.core) hx
    refine ⟨hf.fed x.core hxc v hv, ?_⟩
    exact ((hf.inv x.core hxc).bits (hg.wf x hx).core hv).1
  · intro c hc
    obtain ⟨y, hy, hys⟩ := hf.all c hc
    obtain ⟨x, hx, rfl⟩ := List.mem_map.1 hy
    obtain ⟨i, hi, he⟩ := List.mem_iff_getElem.1 hx
    refine ⟨i, x, by rw [List.getElem?_eq_getElem hi, he], hys, ?_⟩
    intro j y hj hyv
    exact hg.distinct j i y x c.svn hj (by rw [List.getElem?_eq_getElem hi, he]) hyv hys

/-- The same for a history without panics. -/
theorem stored_contents (hS : S.Consistent) {o0 o : Osnma C} (h0 : o0.Fresh S) {hist : List Call} (h : run S o0 hist = .ok o)
    (hfit : Fits S (inavsOf hist)) (kd : NavKind) {k : Nat} {s : NavSlot} (hs : (o.stored S)[k]? = some s) :
    ∃ q r, inavsOf hist = q ++ r ∧ (k = 0 → r = []) ∧ (∀ c, r.head? = some c → c.gst.subframe ≠ s.gst) ∧
      (∃ c, q.getLast? = some c ∧ s.gst = c.gst.subframe) ∧
      (∀ x ∈ s.items kd, ∀ v, x.svn = some v → (∃ c ∈ q, c.svn = v) ∧ x.data.take kd.nbits = kd.expected q v) ∧
      (∀ c ∈ q, ∃ i x, (s.items kd)[i]? = some x ∧ x.svn = some c.svn ∧
        ∀ (j : Nat) (y : NavItem), (s.items kd)[j]? = some y → y.svn = some c.svn → j = i) :=
  stored_contents_inv hS (navInv_run hS h0 h) hfit kd hs

/-! ## C11, C12: contents -/

/-- **C11.** When the storage has room for all the satellites fed, every subframe `k` of the store
(0 is the current one) corresponds to the part `q` of the `feed_inav` calls up to the end of that
subframe (all of them for the current one); it has exactly one entry for each satellite fed in `q`,
and the 549 bits of the entry are the latest words 1 to 5 of that satellite in `q`. -/
theorem C11_ced_is_latest_words (hS : S.Consistent) {o0 o : Osnma C} (h0 : o0.Fresh S) {hist : List Call}
    (h : run S o0 hist = .ok o) (hfit : Fits S (inavsOf hist)) {k : Nat} {s : NavSlot} (hs : (o.stored S)[k]? = some s) :
    ∃ q r, inavsOf hist = q ++ r ∧ (k = 0 → r = []) ∧ (∀ c, r.head? = some c → c.gst.subframe ≠ s.gst) ∧
      (∃ c, q.getLast? = some c ∧ s.gst = c.gst.subframe) ∧
      (∀ x ∈ s.ced, ∀ v, x.svn = some v → (∃ c ∈ q, c.svn = v) ∧ x.data.take 549 = NavKind.ced.expected q v) ∧
      (∀ c ∈ q, ∃ i x, s.ced[i]? = some x ∧ x.svn = some c.svn ∧
        ∀ (j : Nat) (y : NavItem), s.ced[j]? = some y → y.svn = some c.svn → j = i) :=
  stored_contents hS h0 h hfit .ced hs

/-- **C12.** The same for the 141 bits of the timing parameters: the latest words 6 and 10 of the
satellite that were received on E1B. -/
theorem C12_timing_is_latest_words (hS : S.Consistent) {o0 o : Osnma C} (h0 : o0.Fresh S) {hist : List Call}
    (h : run S o0 hist = .ok o) (hfit : Fits S (inavsOf hist)) {k : Nat} {s : NavSlot} (hs : (o.stored S)[k]? = some s) :
    ∃ q r, inavsOf hist = q ++ r ∧ (k = 0 → r = []) ∧ (∀ c, r.head? = some c → c.gst.subframe ≠ s.gst) ∧
      (∃ c, q.getLast? = some c ∧ s.gst = c.gst.subframe) ∧
      (∀ x ∈ s.timing, ∀ v, x.svn = some v → (∃ c ∈ q, c.svn = v) ∧ x.data.take 141 = NavKind.timing.expected q v) ∧
      (∀ c ∈ q, ∃ i x, s.timing[i]? = some x ∧ x.svn = some c.svn ∧
        ∀ (j : Nat) (y : NavItem), s.timing[j]? = some y → y.svn = some c.svn → j = i) :=
  stored_contents hS h0 h hfit .timing hs

/-- **C11.** `FullStorage` always has room for all the satellites. -/
theorem C11_full_storage_fits (p : List InavCall) : Fits FullStorage p :=
  ⟨Svn.iter, by decide, fun c _ => Svn.mem_iter c.svn⟩

/-- **C11.** After the first word, the store always has a current subframe, that of the last word. -/
theorem C11_current_subframe (hS : S.Consistent) {o0 o : Osnma C} (h0 : o0.Fresh S) {hist : List Call}
    (h : run S o0 hist = .ok o) {c : InavCall} (hc : (inavsOf hist).getLast? = some c) :
    ∃ s, (o.stored S)[0]? = some s ∧ s.gst = c.gst.subframe := by
  have hinv := navInv_run hS h0 h
  obtain ⟨q, hq⟩ := List.getLast?_eq_some_iff.1 hc
  have hh := navHead_snoc (S := S) q c
  rw [← hq] at hh
  unfold navHead at hh
  rw [← hinv.core, List.head?_map, Option.map_eq_some_iff] at hh
  obtain ⟨s, hs, he⟩ := hh
  refine ⟨s, by rw [← List.head?_eq_getElem?]; exact hs, ?_⟩
  have := congrArg NavSlot.gst he
  exact this

theorem expected_snoc_of {kd : NavKind} (p : List InavCall) {c : InavCall} {svn : Svn}
    (h : ∀ f ∈ kd.fields, c.svn = svn → kd.carries c f = false) : kd.expected (p ++ [c]) svn = kd.expected p svn := by
  unfold NavKind.expected
  have : ∀ f ∈ kd.fields, kd.fieldAfter (p ++ [c]) svn f = kd.fieldAfter p svn f := by
    intro f hf
    unfold NavKind.fieldAfter
    rw [NavKind.latest_snoc, if_neg]
    rintro ⟨h1, h2⟩
    rw [h f hf h1] at h2; cases h2
  rw [List.flatMap_def, List.flatMap_def, List.map_congr_left this]

/-- **C11.** Words of other satellites and words of other types do not change the CED. -/
theorem C11_other_words_ignored (p : List InavCall) (c : InavCall) (svn : Svn)
    (h : c.svn ≠ svn ∨ c.type ∉ [1, 2, 3, 4, 5]) : NavKind.ced.expected (p ++ [c]) svn = NavKind.ced.expected p svn := by
  refine expected_snoc_of p ?_
  intro f hf hc
  rcases h with h | h
  · exact absurd hc h
  · simp only [NavKind.fields, List.mem_cons, List.not_mem_nil, or_false] at hf
    simp only [List.mem_cons, List.not_mem_nil, or_false, not_or] at h
    rcases hf with rfl | rfl | rfl | rfl | rfl <;> simp [NavKind.carries, h]

/-- **C11.** The CED does not depend on the bands on which the words were received. -/
theorem C11_band_irrelevant (p : List InavCall) (f : InavCall → InavBand) (svn : Svn) :
    NavKind.ced.expected (p.map (fun c => { c with band := f c })) svn = NavKind.ced.expected p svn := by
  unfold NavKind.expected
  have key : ∀ fl ∈ NavKind.ced.fields, NavKind.ced.fieldAfter (p.map (fun c => { c with band := f c })) svn fl
      = NavKind.ced.fieldAfter p svn fl := by
    intro fl _
    induction p using CollectSubframe.snoc_induction with
    | h0 => rfl
    | h1 p c ih =>
      simp only [List.map_append, List.map_cons, List.map_nil]
      unfold NavKind.fieldAfter at *
      rw [NavKind.latest_snoc, NavKind.latest_snoc]
      by_cases hc : c.svn = svn ∧ NavKind.ced.carries c fl = true
      · have hc' : ({ c with band := f c } : InavCall).svn = svn ∧ NavKind.ced.carries { c with band := f c } fl = true := hc
        rw [if_pos hc, if_pos hc']
        rfl
      · have hc' : ¬ (({ c with band := f c } : InavCall).svn = svn ∧ NavKind.ced.carries { c with band := f c } fl = true) := hc
        rw [if_neg hc, if_neg hc']
        exact ih
  rw [List.flatMap_def, List.flatMap_def, List.map_congr_left key]

/-- **C12.** Words of other satellites, words of other types and words received on E5b do not change
the timing parameters. -/
theorem C12_other_words_ignored (p : List InavCall) (c : InavCall) (svn : Svn)
    (h : c.svn ≠ svn ∨ c.type ∉ [6, 10] ∨ c.band = .E5B) :
    NavKind.timing.expected (p ++ [c]) svn = NavKind.timing.expected p svn := by
  refine expected_snoc_of p ?_
  intro f hf hc
  rcases h with h | h | h
  · exact absurd hc h
  · simp only [NavKind.fields, List.mem_cons, List.not_mem_nil, or_false] at hf
    simp only [List.mem_cons, List.not_mem_nil, or_false, not_or] at h
    rcases hf with rfl | rfl <;> simp [NavKind.carries, h]
  · simp [NavKind.carries, h]

/-- **C11, C12 for every storage size** (also when satellites are evicted): the entry of a satellite
in the current subframe all of whose words are less than 255 subframes old holds the latest words. -/
theorem C11_small_storage_recent (hS : S.Consistent) {o0 o : Osnma C} (h0 : o0.Fresh S) {hist : List Call}
    (h : run S o0 hist = .ok o) {s : NavSlot} (hs : (o.stored S)[0]? = some s) (kd : NavKind) {x : NavItem} (hx : x ∈ s.items kd)
    {v : Svn} (hv : x.svn = some v) (hage : x.maxAge < 255) (f : NavField) (i : Nat) (hf : kd.fields[i]? = some f) :
    ∃ c, kd.latest (inavsOf hist) v f = some c ∧
      (x.data.drop ((kd.fields.take i).map NavField.len).sum).take f.len = f.bits c := by
  have hinv := navInv_run hS h0 h
  obtain ⟨q, r, h1, h2, h3⟩ := hinv.prefix hs
  rcases h3 with ⟨_, rfl⟩ | ⟨h3, _⟩
  · rw [List.append_nil] at h1
    rw [h1]
    have hxc : x.core ∈ s.core.items kd := by rw [NavSlot.core_items]; exact List.mem_map_of_mem hx
    have hfr := navHead_fresh hS.sats_pos kd q s.core h2 x.core hxc
    have hw := (hinv.good hS kd (List.mem_of_getElem? hs)).wf x hx
    have hi : i < x.age.length := by rw [hw.age]; exact (List.getElem?_eq_some_iff.1 hf).1
    obtain ⟨c, e1, e2, _⟩ := hfr.field v hv i f x.age[i] hf (List.getElem?_eq_getElem hi)
      (by have := NavItem.maxAge_le.1 (Nat.le_refl x.maxAge) _ (List.getElem_mem hi); omega)
    exact ⟨c, e1, e2⟩
  · omega

/-! ## C13: authentication bits and changes of the data -/

theorem feedInav_entry (hS : S.Consistent) {o0 o o' : Osnma C} (h0 : o0.Fresh S) {hist : List Call} (h : run S o0 hist = .ok o)
    {c : InavCall} (hc : o.feedInav S c.word c.svn c.gst c.band = .ok o') (kd : NavKind) {s' : NavSlot}
    (hs' : (o'.stored S)[0]? = some s') {x' : NavItem} (hx' : x' ∈ s'.items kd) (ha : x'.authbits ≠ 0) :
    ∃ s, (o.stored S)[0]? = some s ∧ ∃ x ∈ s.items kd, x.svn = x'.svn ∧ x.data = x'.data ∧ x.authbits = x'.authbits := by
  have hinv := navInv_run hS h0 h
  have hst : o'.stored S = navStep S (o.stored S) c := Rep.stored (hinv.inav hS hc).rep
  rw [hst] at hs'
  unfold navStep at hs'
  simp only [List.getElem?_cons_zero, Option.some.injEq] at hs'
  subst hs'
  rw [NavSlot.step_items] at hx'
  have hprov := prov_run hS h0 h
  rcases NavSlot.base_items S.numSats c.gst.subframe (o.stored S).head? kd with ⟨hn, he⟩ | ⟨s, hh, he⟩
  · exfalso
    rw [he] at hx'
    obtain ⟨i, x, h1, h2, _⟩ := (NavSlot.Good.replicate S.numSats kd).upd hS.sats_pos c
    rw [h2] at hx'
    rcases List.mem_or_eq_of_mem_set hx' with hm | rfl
    · rw [List.eq_of_mem_replicate hm, NavKind.newItem_authbits] at ha; exact ha rfl
    · have hx := List.eq_of_mem_replicate (List.mem_of_getElem? h1)
      rcases NavItem.feedUpd_auth (kd.upd c) c.svn x with h | ⟨h, _⟩
      · exact ha h
      · rw [h, hx, NavKind.newItem_authbits] at ha; exact ha rfl
  · refine ⟨s, by rw [← List.head?_eq_getElem?]; exact hh, ?_⟩
    have hsm := List.mem_of_head? hh
    have hgood := hinv.good hS kd hsm
    have hb : NavSlot.Good S.numSats kd ((NavSlot.base S.numSats c.gst.subframe (o.stored S).head?).items kd) :=
      NavSlot.Good.base (fun t ht => hinv.good hS kd (List.mem_of_head? ht))
    have hold : ∀ y ∈ (NavSlot.base S.numSats c.gst.subframe (o.stored S).head?).items kd,
        ∃ x ∈ s.items kd, x.svn = y.svn ∧ x.data = y.data ∧ x.authbits = y.authbits := by
      intro y hy
      rcases he with ⟨_, he⟩ | ⟨_, he⟩
      · rw [he] at hy; exact ⟨y, hy, rfl, rfl, rfl⟩
      · rw [he] at hy
        obtain ⟨x, hx, rfl⟩ := List.mem_map.1 hy
        exact ⟨x, hx, rfl, rfl, rfl⟩
    obtain ⟨i, y, h1, h2, _⟩ := hb.upd hS.sats_pos c
    rw [h2] at hx'
    rcases List.mem_or_eq_of_mem_set hx' with hm | rfl
    · exact hold x' hm
    · obtain ⟨x, hx, e1, e2, e3⟩ := hold y (List.mem_of_getElem? h1)
      rcases NavItem.feedUpd_auth (kd.upd c) c.svn y with h | ⟨h, hd, hv | hv⟩
      · exact absurd h ha
      · exact ⟨x, hx, by rw [NavItem.feedUpd_svn, e1, hv], by rw [hd, e2], by rw [h, e3]⟩
      · exfalso
        have hxa : x ∈ o.data.data.navmessage.arr kd := (Rep.mem hinv.rep).2 (.inl ⟨s, hsm, hx⟩)
        have := ((hprov kd x hxa).unassigned (by rw [e1, hv])).1
        rw [h, ← e3, this] at ha; exact ha rfl

/-- **C13.** If a word changes the bits stored for a satellite in the current subframe (also when
the word starts a new subframe), the authentication bits of the changed data are zero. -/
theorem C13_changed_data_unauthenticated (hS : S.Consistent) {o0 o o' : Osnma C} (h0 : o0.Fresh S) {hist : List Call}
    (h : run S o0 hist = .ok o) {c : InavCall} (hc : o.feedInav S c.word c.svn c.gst c.band = .ok o') (kd : NavKind)
    {s s' : NavSlot} (hs : (o.stored S)[0]? = some s) (hs' : (o'.stored S)[0]? = some s') {x x' : NavItem}
    (hx : x ∈ s.items kd) (hx' : x' ∈ s'.items kd) {v : Svn} (hv : x.svn = some v) (hv' : x'.svn = some v)
    (hne : x'.data ≠ x.data) : x'.authbits = 0 := by
  apply Classical.byContradiction
  intro ha
  obtain ⟨t, ht, y, hy, e1, e2, _⟩ := feedInav_entry hS h0 h hc kd hs' hx' ha
  rw [hs] at ht; cases ht
  obtain ⟨i, hi, rfl⟩ := List.mem_iff_getElem.1 hx
  obtain ⟨j, hj, rfl⟩ := List.mem_iff_getElem.1 hy
  have hd := ((navInv_run hS h0 h).good hS kd (List.mem_of_getElem? hs)).distinct i j _ _ v
    (List.getElem?_eq_getElem hi) (List.getElem?_eq_getElem hj) hv (by rw [e1, hv'])
  subst hd
  exact hne e2.symm

/-- **C13.** A satellite that had no entry in the current subframe has no authentication bits after
its first word. -/
theorem C13_new_entry_unauthenticated (hS : S.Consistent) {o0 o o' : Osnma C} (h0 : o0.Fresh S) {hist : List Call}
    (h : run S o0 hist = .ok o) {c : InavCall} (hc : o.feedInav S c.word c.svn c.gst c.band = .ok o') (kd : NavKind)
    {s' : NavSlot} (hs' : (o'.stored S)[0]? = some s') {x' : NavItem} (hx' : x' ∈ s'.items kd) {v : Svn} (hv' : x'.svn = some v)
    (hno : ∀ s, (o.stored S)[0]? = some s → ∀ x ∈ s.items kd, x.svn ≠ some v) : x'.authbits = 0 := by
  apply Classical.byContradiction
  intro ha
  obtain ⟨t, ht, y, hy, e1, _⟩ := feedInav_entry hS h0 h hc kd hs' hx' ha
  exact hno t ht y hy (by rw [e1, hv'])

/-- **C13.** `feed_inav` does not touch the earlier subframes that it keeps. -/
theorem C13_older_subframes_kept (hS : S.Consistent) {o0 o o' : Osnma C} (h0 : o0.Fresh S) {hist : List Call}
    (h : run S o0 hist = .ok o) {c : InavCall} (hc : o.feedInav S c.word c.svn c.gst c.band = .ok o') :
    ∃ s' rest, o'.stored S = s' :: rest ∧ s'.gst = c.gst.subframe ∧
      (rest = (o.stored S).take (S.navDepth - 1) ∨
        ∃ s, (o.stored S) = s :: rest ∧ s.gst = c.gst.subframe) := by
  have hinv := navInv_run hS h0 h
  have hst : o'.stored S = navStep S (o.stored S) c := Rep.stored (hinv.inav hS hc).rep
  refine ⟨_, _, hst, rfl, ?_⟩
  unfold navTail
  cases hL : o.stored S with
  | nil => left; simp
  | cons s t =>
    dsimp only
    split
    · rename_i hg; exact .inr ⟨s, rfl, hg⟩
    · exact .inl rfl

/-- **C13.** `feed_inav` never adds authentication bits: any authenticated entry after the call, in
whichever subframe, has the bits, satellite and authentication bits of an entry before the call. -/
theorem C13_never_increases (hS : S.Consistent) {o0 o o' : Osnma C} (h0 : o0.Fresh S) {hist : List Call}
    (h : run S o0 hist = .ok o) {c : InavCall} (hc : o.feedInav S c.word c.svn c.gst c.band = .ok o') (kd : NavKind)
    {s' : NavSlot} (hs' : s' ∈ o'.stored S) {x' : NavItem} (hx' : x' ∈ s'.items kd) (ha : x'.authbits ≠ 0) :
    ∃ s ∈ o.stored S, ∃ x ∈ s.items kd, x.svn = x'.svn ∧ x.data = x'.data ∧ x.authbits = x'.authbits := by
  obtain ⟨t, rest, h1, _, h2⟩ := C13_older_subframes_kept hS h0 h hc
  have hhead : (o'.stored S)[0]? = some t := by rw [h1]; rfl
  rw [h1] at hs'
  rcases List.mem_cons.1 hs' with rfl | hm
  · obtain ⟨s, hs, hh⟩ := feedInav_entry hS h0 h hc kd hhead hx' ha
    exact ⟨s, List.mem_of_getElem? hs, hh⟩
  · refine ⟨s', ?_, x', hx', rfl, rfl, rfl⟩
    rcases h2 with rfl | ⟨s, h2, _⟩
    · exact List.mem_of_mem_take hm
    · rw [h2]; exact List.mem_cons_of_mem _ hm

/-- **C13.** What a getter returns after `feed_inav` was already stored before, with the same
authentication bits, at least 40. -/
theorem C13_new_data_never_returned (hS : S.Consistent) {o0 o o' : Osnma C} (h0 : o0.Fresh S) {hist : List Call}
    (h : run S o0 hist = .ok o) {c : InavCall} (hc : o.feedInav S c.word c.svn c.gst c.band = .ok o') (kd : NavKind)
    {svn : Svn} {d : NavMessageData} (hd : o'.get S kd svn = .ok (some d)) :
    40 ≤ d.authbits ∧ ∃ s ∈ o.stored S, ∃ x ∈ s.items kd, x.svn = some svn ∧ x.data.take kd.nbits = d.data ∧ x.authbits = d.authbits := by
  have hinv' := (navInv_run hS h0 h).inav hS hc
  rw [← show o'.stored S = _ from Rep.stored hinv'.rep] at hinv'
  obtain ⟨g, x', hb, e1, e2, _⟩ := get_some hinv' hd
  obtain ⟨k, s', k1, k2, k3, k4, k5, _⟩ := bestEntry_some hb
  refine ⟨by rw [e2]; exact k5, ?_⟩
  obtain ⟨s, hs, x, hx, f1, f2, f3⟩ := C13_never_increases hS h0 h hc kd (List.mem_of_getElem? k1) k3 (by omega)
  exact ⟨s, hs, x, hx, by rw [f1, k4], by rw [f2, e1]; rfl, by rw [f3, e2]⟩

/-! ## C14: provenance -/

theorem provenance (hS : S.Consistent) {o0 o : Osnma C} (h0 : o0.Fresh S) {hist : List Call} (h : run S o0 hist = .ok o)
    (kd : NavKind) {svn : Svn} {d : NavMessageData} (hd : o.get S kd svn = .ok (some d)) (i : Nat) (f : NavField)
    (hf : kd.fields[i]? = some f) :
    ∃ c ∈ inavsOf hist, c.svn = svn ∧ kd.carries c f = true ∧ (d.data.drop (kd.off i)).take f.len = f.bits c := by
  have hinv := navInv_run hS h0 h
  obtain ⟨g, x, hb, e1, e2, _⟩ := get_some hinv hd
  obtain ⟨k, s, k1, k2, k3, k4, k5, _⟩ := bestEntry_some hb
  have hm : x ∈ o.data.data.navmessage.arr kd := (Rep.mem hinv.rep).2 (.inl ⟨s, List.mem_of_getElem? k1, k3⟩)
  obtain ⟨c, h1, h2, h3, h4⟩ := (prov_run hS h0 h kd x hm).auth svn k4 (by omega) i f hf
  refine ⟨c, h1, h2, h3, ?_⟩
  rw [← h4, e1]
  have ho := kd.off_le hf
  unfold NavItem.seg NavItem.messageBits
  rw [List.drop_take, List.take_take]; congr 1; omega

theorem returned_length (hS : S.Consistent) {o0 o : Osnma C} (h0 : o0.Fresh S) {hist : List Call} (h : run S o0 hist = .ok o)
    (kd : NavKind) {svn : Svn} {d : NavMessageData} (hd : o.get S kd svn = .ok (some d)) : d.data.length = kd.nbits := by
  have hinv := navInv_run hS h0 h
  obtain ⟨g, x, hb, e1, e2, _⟩ := get_some hinv hd
  obtain ⟨k, s, k1, k2, k3, k4, k5, _⟩ := bestEntry_some hb
  have := ((hinv.good hS kd (List.mem_of_getElem? k1)).wf x k3).data
  rw [e1, NavItem.messageBits, List.length_take]; omega

/-- **C14.** The data returned by `get_ced_and_status(svn)` consists of fields of words 1 to 5 that
were fed for that satellite, for every storage size. -/
theorem C14_ced_provenance (hS : S.Consistent) {o0 o : Osnma C} (h0 : o0.Fresh S) {hist : List Call} (h : run S o0 hist = .ok o)
    {svn : Svn} {d : NavMessageData} (hd : o.getCedAndStatus S svn = .ok (some d)) :
    ∃ c1 c2 c3 c4 c5 : InavCall, (∀ c ∈ [c1, c2, c3, c4, c5], c ∈ inavsOf hist ∧ c.svn = svn) ∧
      c1.type = 1 ∧ c2.type = 2 ∧ c3.type = 3 ∧ c4.type = 4 ∧ c5.type = 5 ∧
      d.data = NavField.bits ⟨1, 6, 126⟩ c1 ++ NavField.bits ⟨2, 6, 126⟩ c2 ++ NavField.bits ⟨3, 6, 128⟩ c3
        ++ NavField.bits ⟨4, 6, 126⟩ c4 ++ NavField.bits ⟨5, 6, 73⟩ c5 := by
  have hp := provenance hS h0 h .ced hd
  have hl := returned_length hS h0 h .ced hd
  obtain ⟨c1, a1, b1, t1, e1⟩ := hp 0 _ rfl
  obtain ⟨c2, a2, b2, t2, e2⟩ := hp 1 _ rfl
  obtain ⟨c3, a3, b3, t3, e3⟩ := hp 2 _ rfl
  obtain ⟨c4, a4, b4, t4, e4⟩ := hp 3 _ rfl
  obtain ⟨c5, a5, b5, t5, e5⟩ := hp 4 _ rfl
  refine ⟨c1, c2, c3, c4, c5, ?_, ?_⟩
  · intro c hc
    simp only [List.mem_cons, List.not_mem_nil, or_false] at hc
    rcases hc with rfl | rfl | rfl | rfl | rfl
    · exact ⟨a1, b1⟩
    · exact ⟨a2, b2⟩
    · exact ⟨a3, b3⟩
    · exact ⟨a4, b4⟩
    · exact ⟨a5, b5⟩
  · simp only [NavKind.carries, BEq.rfl, Bool.true_or, Bool.and_true, beq_iff_eq] at t1 t2 t3 t4 t5
    refine ⟨t1, t2, t3, t4, t5, ?_⟩
    rw [← e1, ← e2, ← e3, ← e4, ← e5]
    simp only [NavKind.off, NavKind.fields, NavField.len]
    simp only [List.take_succ_cons, List.take_zero, List.map_cons, List.map_nil, List.sum_cons, List.sum_nil, List.drop_zero]
    conv => lhs; rw [← List.take_of_length_le (Nat.le_of_eq hl)]
    simp only [NavKind.nbits]
    rw [show (549 : Nat) = 120 + (120 + (122 + (120 + 67))) from rfl, List.take_add, List.take_add, List.take_add, List.take_add]
    simp only [List.drop_drop, List.append_assoc]
    rfl

/-- **C14.** The data returned by `get_timing_parameters(svn)` consists of fields of words 6 and 10
that were fed for that satellite on E1B, for every storage size. -/
theorem C14_timing_provenance (hS : S.Consistent) {o0 o : Osnma C} (h0 : o0.Fresh S) {hist : List Call} (h : run S o0 hist = .ok o)
    {svn : Svn} {d : NavMessageData} (hd : o.getTimingParameters S svn = .ok (some d)) :
    ∃ c6 c10 : InavCall, (∀ c ∈ [c6, c10], c ∈ inavsOf hist ∧ c.svn = svn ∧ c.band = .E1B) ∧ c6.type = 6 ∧ c10.type = 10 ∧
      d.data = NavField.bits ⟨6, 6, 105⟩ c6 ++ NavField.bits ⟨10, 86, 128⟩ c10 := by
  have hp := provenance hS h0 h .timing hd
  have hl := returned_length hS h0 h .timing hd
  obtain ⟨c1, a1, b1, t1, e1⟩ := hp 0 _ rfl
  obtain ⟨c2, a2, b2, t2, e2⟩ := hp 1 _ rfl
  have hk : (NavKind.timing == NavKind.ced) = false := rfl
  simp only [NavKind.carries, hk, Bool.false_or, Bool.and_eq_true, beq_iff_eq] at t1 t2
  refine ⟨c1, c2, ?_, t1.1, t2.1, ?_⟩
  · intro c hc
    simp only [List.mem_cons, List.not_mem_nil, or_false] at hc
    rcases hc with rfl | rfl
    · exact ⟨a1, b1, t1.2⟩
    · exact ⟨a2, b2, t2.2⟩
  · rw [← e1, ← e2]
    simp only [NavKind.off, NavKind.fields, NavField.len]
    simp only [List.take_succ_cons, List.take_zero, List.map_cons, List.map_nil, List.sum_cons, List.sum_nil, List.drop_zero]
    conv => lhs; rw [← List.take_of_length_le (Nat.le_of_eq hl)]
    simp only [NavKind.nbits]
    rw [show (141 : Nat) = 99 + 42 from rfl, List.take_add]
    rfl

/-! ## C15: the time of the data -/

/-- **C15 (part).** When reception is contiguous (no subframe without a word) and the storage has
room for all the satellites, the reported GST is the subframe of the most recent word that is part of
the data, up to the end of the stored subframe `q` from which the data is returned; or 255 subframes
before the stored subframe if that word is older than this (the age saturates). Missing: reception
with gaps, where the code reports a wrong time, see `C15_gap_counterexample`. -/
theorem C15_reported_gst_partial (hS : S.Consistent) {o0 o : Osnma C} (h0 : o0.Fresh S) {hist : List Call}
    (h : run S o0 hist = .ok o) (hcont : Contiguous (inavsOf hist)) (hfit : Fits S (inavsOf hist)) (kd : NavKind) {svn : Svn}
    {d : NavMessageData} (hd : o.get S kd svn = .ok (some d)) :
    ∃ q r s, inavsOf hist = q ++ r ∧ s ∈ o.stored S ∧ (∃ l, q.getLast? = some l ∧ s.gst = l.gst.subframe) ∧
      d.data = kd.expected q svn ∧ (kd.latestAny q svn = none → d.gst.abs = s.gst.abs - 7650) ∧
      ∀ c, kd.latestAny q svn = some c → d.gst.abs = max c.gst.subframe.abs (s.gst.abs - 7650) := by
  have hinv := navInv_run hS h0 h
  obtain ⟨g, x, hb, e1, e2, e3⟩ := get_some hinv hd
  obtain ⟨k, s, k1, k2, k3, k4, k5, _⟩ := bestEntry_some hb
  obtain ⟨q, r, h1, _, _, h4, hg, hf⟩ := stored_full hS h0 h hfit kd k1
  have hxc := List.mem_map_of_mem (f := NavItem.core) k3
  have hfull := hf.inv x.core hxc
  have hcq : Contiguous q := by
    intro i a b ha hb
    have l1 : i < q.length := (List.getElem?_eq_some_iff.1 ha).1
    have l2 : i + 1 < q.length := (List.getElem?_eq_some_iff.1 hb).1
    exact hcont i a b (by rw [h1, List.getElem?_append_left l1]; exact ha) (by rw [h1, List.getElem?_append_left l2]; exact hb)
  have hany := hfull.any svn k4
  have hw := (hg.wf x k3)
  refine ⟨q, r, s, h1, List.mem_of_getElem? k1, h4, ?_, ?_, ?_⟩
  · rw [e1]; exact (hfull.bits hw.core k4).1
  · intro hl
    rw [hl] at hany
    have ha : x.minAge = 255 := hany
    rw [e3, ha, ← k2]; omega
  · intro c hl
    rw [hl] at hany
    have ha := hany.1 hcq
    rw [NavItem.minAge_core] at ha
    rw [e3, ha, ← k2]
    have hal : (s.gst.abs - c.gst.subframe.abs) % 30 = 0 := by
      obtain ⟨l, _, hl⟩ := h4
      rw [hl]
      have a1 := Gst.subframe_aligned l.gst
      have a2 := Gst.subframe_aligned c.gst
      unfold Gst.Aligned at a1 a2
      omega
    omega

/-- **C15, reception with gaps (part).** When the words are fed in chronological order, with or without
gaps, the reported GST is never before the most recent word that is part of the data (unless that word is 255
subframes old), and never after the stored subframe from which the data is returned. It can be later than the
word: `C15_gap_counterexample`. -/
theorem C15_gap_bounds_partial (hS : S.Consistent) {o0 o : Osnma C} (h0 : o0.Fresh S) {hist : List Call}
    (h : run S o0 hist = .ok o) (hchr : Chronological (inavsOf hist)) (hfit : Fits S (inavsOf hist)) (kd : NavKind) {svn : Svn}
    {d : NavMessageData} (hd : o.get S kd svn = .ok (some d)) :
    ∃ q r s, inavsOf hist = q ++ r ∧ s ∈ o.stored S ∧ (∃ l, q.getLast? = some l ∧ s.gst = l.gst.subframe) ∧
      d.data = kd.expected q svn ∧ d.gst.abs ≤ s.gst.abs ∧
      ∀ c, kd.latestAny q svn = some c → c.gst.subframe.abs ≤ d.gst.abs := by
  have hinv := navInv_run hS h0 h
  obtain ⟨g, x, hb, e1, e2, e3⟩ := get_some hinv hd
  obtain ⟨k, s, k1, k2, k3, k4, k5, _⟩ := bestEntry_some hb
  obtain ⟨q, r, h1, _, _, h4, hg, hf⟩ := stored_full hS h0 h hfit kd k1
  have hfull := hf.inv x.core (List.mem_map_of_mem (f := NavItem.core) k3)
  have hcq : Chronological q := by
    intro i a b ha hb
    have l1 : i < q.length := (List.getElem?_eq_some_iff.1 ha).1
    have l2 : i + 1 < q.length := (List.getElem?_eq_some_iff.1 hb).1
    exact hchr i a b (by rw [h1, List.getElem?_append_left l1]; exact ha) (by rw [h1, List.getElem?_append_left l2]; exact hb)
  have hany := hfull.any svn k4
  have hw := (hg.wf x k3)
  refine ⟨q, r, s, h1, List.mem_of_getElem? k1, h4, ?_, ?_, ?_⟩
  · rw [e1]; exact (hfull.bits hw.core k4).1
  · rw [e3, ← k2]; omega
  · intro c hl
    rw [hl] at hany
    have ha := hany.2 hcq
    rw [NavItem.minAge_core] at ha
    rw [e3, ← k2]
    omega

/-- **C15, every storage size (part).** If the reported GST is less than 255 subframes before the
stored subframe from which the data is returned, then it is the subframe of the most recent word of
the satellite, whatever the storage, when reception is contiguous. -/
theorem C15_recent_gst_partial (hS : S.Consistent) {o0 o : Osnma C} (h0 : o0.Fresh S) {hist : List Call}
    (h : run S o0 hist = .ok o) (hcont : Contiguous (inavsOf hist)) (kd : NavKind) {svn : Svn}
    {d : NavMessageData} (hd : o.get S kd svn = .ok (some d)) :
    ∃ q r s, inavsOf hist = q ++ r ∧ s ∈ o.stored S ∧ (∃ l, q.getLast? = some l ∧ s.gst = l.gst.subframe) ∧
      s.gst.abs - 7650 ≤ d.gst.abs ∧
      (s.gst.abs - 7650 < d.gst.abs → ∃ c, kd.latestAny q svn = some c ∧ d.gst = c.gst.subframe) := by
  have hinv := navInv_run hS h0 h
  obtain ⟨g, x, hb, e1, e2, e3⟩ := get_some hinv hd
  obtain ⟨k, s, k1, k2, k3, k4, k5, _⟩ := bestEntry_some hb
  obtain ⟨q, r, h1, h2, _⟩ := hinv.prefix k1
  have hxc : x.core ∈ s.core.items kd := by rw [NavSlot.core_items]; exact List.mem_map_of_mem k3
  have hfr := navHead_fresh hS.sats_pos kd q s.core h2 x.core hxc
  have hle := x.minAge_le_255
  refine ⟨q, r, s, h1, List.mem_of_getElem? k1, ?_, by rw [e3, k2]; omega, ?_⟩
  · obtain ⟨q', c, rfl, hg⟩ := navHead_gst h2
    exact ⟨c, by simp, hg⟩
  · intro hlt
    rw [e3, k2] at hlt
    obtain ⟨c, f1, f2⟩ := hfr.any svn k4 (by rw [NavItem.minAge_core]; omega)
    refine ⟨c, f1, Gst.abs_inj ?_⟩
    rw [NavItem.minAge_core] at f2
    have := f2 (hcont.prefix h1)
    have hsg : s.core.gst.abs = g.abs := by rw [← k2]; rfl
    omega

/-! ## C16: the most recent authenticated data -/

/-- **C16.** A getter returns nothing exactly when no stored subframe has an entry of the satellite
with at least 40 authentication bits. -/
theorem C16_none_iff (hS : S.Consistent) {o0 o : Osnma C} (h0 : o0.Fresh S) {hist : List Call}
    (h : run S o0 hist = .ok o) (kd : NavKind) (svn : Svn) :
    o.get S kd svn = .ok none ↔ ∀ s ∈ o.stored S, ∀ x ∈ s.items kd, x.svn = some svn → x.authbits < 40 := by
  have hinv := navInv_run hS h0 h
  rw [get_eq hinv, ← bestEntry_none]
  cases hb : bestEntry (o.stored S) kd svn with
  | none => simp [resultOf]
  | some p =>
    obtain ⟨g, x⟩ := p
    simp only [resultOf, reduceCtorEq, iff_false]
    split <;> simp

/-- **C16.** Data is returned from the most recently written stored subframe that has an entry of the
satellite with at least 40 authentication bits; it is the data and the authentication bits of that
entry, and its time is that of the subframe minus the smallest age. -/
theorem C16_most_recent (hS : S.Consistent) {o0 o : Osnma C} (h0 : o0.Fresh S) {hist : List Call}
    (h : run S o0 hist = .ok o) (kd : NavKind) {svn : Svn} {d : NavMessageData} (hd : o.get S kd svn = .ok (some d)) :
    ∃ (k : Nat) (s : NavSlot) (x : NavItem), (o.stored S)[k]? = some s ∧ x ∈ s.items kd ∧ x.svn = some svn ∧ 40 ≤ x.authbits ∧
      d.data = x.data.take kd.nbits ∧ d.authbits = x.authbits ∧ d.gst.abs = s.gst.abs - 30 * (x.minAge : Int) ∧
      ∀ (j : Nat) (t : NavSlot), j < k → (o.stored S)[j]? = some t → ∀ y ∈ t.items kd, y.svn = some svn → y.authbits < 40 := by
  have hinv := navInv_run hS h0 h
  obtain ⟨g, x, hb, e1, e2, e3⟩ := get_some hinv hd
  obtain ⟨k, s, k1, k2, k3, k4, k5, k6⟩ := bestEntry_some hb
  exact ⟨k, s, x, k1, k3, k4, k5, e1, e2, by rw [e3, k2], k6⟩

/-- **C16.** When the words are fed in chronological order, the stored subframes are in strictly
decreasing order of time, so that the most recently written one is the latest one. -/
theorem C16_stored_order (hS : S.Consistent) {o0 o : Osnma C} (h0 : o0.Fresh S) {hist : List Call}
    (h : run S o0 hist = .ok o) (hchr : Chronological (inavsOf hist)) :
    (o.stored S).Pairwise (fun s t => t.gst.abs < s.gst.abs) := by
  have hinv := navInv_run hS h0 h
  have := navRun_decreasing (S := S) hchr
  rw [← hinv.core, List.pairwise_map] at this
  exact this

/-- **C16.** With chronological words, the returned data is that of the latest stored subframe in
which the satellite has at least 40 authentication bits. -/
theorem C16_latest_subframe (hS : S.Consistent) {o0 o : Osnma C} (h0 : o0.Fresh S) {hist : List Call}
    (h : run S o0 hist = .ok o) (hchr : Chronological (inavsOf hist)) (kd : NavKind) {svn : Svn} {d : NavMessageData}
    (hd : o.get S kd svn = .ok (some d)) :
    ∃ s ∈ o.stored S, ∃ x ∈ s.items kd, x.svn = some svn ∧ 40 ≤ x.authbits ∧ d.data = x.data.take kd.nbits ∧
      d.authbits = x.authbits ∧ ∀ t ∈ o.stored S, ∀ y ∈ t.items kd, y.svn = some svn → 40 ≤ y.authbits → t.gst.abs ≤ s.gst.abs := by
  obtain ⟨k, s, x, k1, k2, k3, k4, k5, k6, _, k7⟩ := C16_most_recent hS h0 h kd hd
  refine ⟨s, List.mem_of_getElem? k1, x, k2, k3, k4, k5, k6, ?_⟩
  intro t ht y hy hyv hya
  obtain ⟨j, hj, he⟩ := List.mem_iff_getElem.1 ht
  have hkj : k ≤ j := by
    rcases Nat.lt_or_ge j k with hlt | hge
    · have := k7 j t hlt (by rw [List.getElem?_eq_getElem hj, he]) y hy hyv; omega
    · exact hge
  have hk := (List.getElem?_eq_some_iff.1 k1).1
  rcases Nat.lt_or_eq_of_le hkj with hlt | heq
  · have := List.pairwise_iff_getElem.1 (C16_stored_order hS h0 h hchr) k j hk hj hlt
    rw [he, (List.getElem?_eq_some_iff.1 k1).2] at this
    omega
  · subst heq
    rw [(List.getElem?_eq_some_iff.1 k1).2] at he
    rw [he]; exact Int.le_refl _

/-! ## C38: no panics -/

/-- **C38.** `feed_inav` never panics. -/
theorem C38_feed_inav_returns (hS : S.Consistent) {o0 o : Osnma C} (h0 : o0.Fresh S) {hist : List Call}
    (h : run S o0 hist = .ok o) (word : InavWord) (svn : Svn) (gst : Gst) (band : InavBand) :
    ∃ o', o.feedInav S word svn gst band = .ok o' := by
  have hinv := navInv_run hS h0 h
  obtain ⟨n', h1, _⟩ := feed_rep hS hinv.rep ⟨word, svn, gst, band⟩
  unfold Osnma.feedInav
  dsimp only at h1
  rw [h1]
  exact ⟨_, rfl⟩

/-- **C38.** The getters do not panic if all the words were received in week 1 or later (or, more
precisely, at least 255 subframes after the start of week 0). -/
theorem C38_get_returns (hS : S.Consistent) {o0 o : Osnma C} (h0 : o0.Fresh S) {hist : List Call}
    (h : run S o0 hist = .ok o) (hweek : ∀ c ∈ inavsOf hist, 7650 ≤ c.gst.abs) (kd : NavKind) (svn : Svn) :
    ∃ r, o.get S kd svn = .ok r := by
  have hinv := navInv_run hS h0 h
  rw [get_eq hinv]
  cases hb : bestEntry (o.stored S) kd svn with
  | none => exact ⟨_, rfl⟩
  | some p =>
    obtain ⟨g, x⟩ := p
    obtain ⟨k, s, k1, k2, k3, _⟩ := bestEntry_some hb
    obtain ⟨q, r, h1, h2, _⟩ := hinv.prefix k1
    obtain ⟨q', c, rfl, hg⟩ := navHead_gst h2
    have hcw := hweek c (by rw [h1]; simp)
    have hga : g.abs = c.gst.subframe.abs := by
      rw [← k2]; exact congrArg Gst.abs hg
    rw [Gst.subframe_abs] at hga
    have hle := x.minAge_le_255
    have : ∃ t, g.addSubframes (-(x.minAge : Int)) = .ok t := by
      have hr := g.abs_representable
      obtain ⟨t, ht⟩ := exists_gst (t := g.abs - 30 * (x.minAge : Int)) (by unfold Representable at *; omega)
      exact ⟨t, Gst.addSubframes_eq_ok.2 (by omega)⟩
    obtain ⟨t, ht⟩ := this
    simp only [resultOf, ht]
    exact ⟨_, rfl⟩

end Verif
