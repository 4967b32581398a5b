import Verif.Lemmas.GalmonRun
import Verif.Lemmas.Galmon

/-! # C44: which calls `galmon-osnma` makes for a stream of packets -/

namespace Verif
open GalileoInav GalmonOsnma

variable {C : Crypto} {S : Storage} {N : Navmon}

/-- The calls of a run of the program are what it did to the black box. -/
theorem calls_run {checks : Bool} {o : Osnma C} {gis : List (Option GalileoInav)} {g : GalmonOsnma C}
    (h : loopM (GalmonOsnma.step S checks) gis (.new o) = .ok g) : run S o g.calls = .ok g.osnma := by
  refine loopM_inv (fun x : GalmonOsnma C => run S o x.calls = .ok x.osnma) rfl ?_ h
  intro gi _ x x' hx hs
  cases step_ok hs with
  | other h => subst h; exact hx
  | noSig _ h => subst h; exact hx
  | dropped _ _ h => subst h; exact hx
  | unused _ _ _ h => subst h; exact hx
  | used h1 h2 h3 h4 h5 h6 h7 h8 =>
    obtain ⟨o', cs, hr, rfl, _⟩ := feed_ok h7
    obtain ⟨e1, e2, _⟩ := report_same h8
    rw [e1, e2]
    unfold run at hx hr ⊢
    rw [loopM_append, hx]
    exact hr

/-- **C44, order.**  Whatever the packets on the input, and with or without overflow checks, the calls made by `galmon-osnma` are
in non-decreasing order of subframe. -/
theorem C44_chronological {checks : Bool} {o : Osnma C} {input : Source} {g : GalmonOsnma C} {e : Option IoError}
    (h : galmonOsnmaMain S N checks o input = .ok (g, e)) :
    g.calls.Pairwise fun a b => a.gst.subframe.abs ≤ b.gst.subframe.abs := by
  unfold galmonOsnmaMain at h
  simp only [Res.bind_eq_ok] at h
  obtain ⟨⟨ms, e'⟩, _, g', h, h'⟩ := h
  cases h'
  refine (loopM_inv (fun x : GalmonOsnma C => (x.calls.Pairwise fun a b => a.gst.subframe.abs ≤ b.gst.subframe.abs) ∧
    ∀ c ∈ x.calls, ∃ cur, x.sel.current = some cur ∧ c.gst.subframe.abs ≤ cur.abs) ⟨.nil, fun c hc => by cases hc⟩ ?_ h).1
  intro gi _ x x' ⟨hp, hc⟩ hs
  cases step_ok hs with
  | other h => subst h; exact ⟨hp, hc⟩
  | noSig _ h => subst h; exact ⟨hp, hc⟩
  | dropped _ ha h =>
    subst h
    refine ⟨hp, ?_⟩
    have := Selector.accept_order ha
    simp only at this ⊢
    rw [this]; exact hc
  | unused _ ha _ h =>
    subst h
    refine ⟨hp, fun c hm => ?_⟩
    obtain ⟨cur, h1, h2⟩ := hc c hm
    obtain ⟨h3, h4⟩ := Selector.accept_order ha
    exact ⟨_, h3, Int.le_trans h2 (h4 cur h1)⟩
  | @used i sigid sel gst svn band ty g1 h1 ha h3 h4 h5 h6 h7 h8 =>
    obtain ⟨o', cs, hr, rfl, word, _, hcs⟩ := feed_ok h7
    obtain ⟨e1, e2, e3⟩ := report_same h8
    obtain ⟨a3, a4⟩ := Selector.accept_order ha
    have hg : ∀ c ∈ cs, c.gst = gst := by
      cases hres : i.reserved1 with
      | none => rw [hres] at hcs; simp only at hcs; subst hcs; simp [Call.gst]
      | some d => rw [hres] at hcs; obtain ⟨data, _, rfl⟩ := hcs; simp [Call.gst]
    rw [e2, e3]
    constructor
    · simp only
      rw [List.pairwise_append]
      refine ⟨hp, ?_, ?_⟩
      · refine List.pairwise_iff_forall_sublist.2 fun {a b} hs => ?_
        rw [hg a (hs.subset (by simp)), hg b (hs.subset (by simp))]
        exact Int.le_refl _
      · intro a ham b hbm
        obtain ⟨cur, k1, k2⟩ := hc a ham
        rw [hg b hbm]
        exact Int.le_trans k2 (a4 cur k1)
    · intro c hm
      refine ⟨_, a3, ?_⟩
      simp only [List.mem_append] at hm
      rcases hm with hm | hm
      · obtain ⟨cur, k1, k2⟩ := hc c hm
        exact Int.le_trans k2 (a4 cur k1)
      · rw [hg c hm]; exact Int.le_refl _

theorem used_iff_not_dummy {w : List Byte} {t : Nat} (h : firstType w = .ok t) : t ≠ 63 ↔ (bitsOf w).take 6 ≠ List.replicate 6 true :=
  not_congr (firstType_ok h)

theorem tryFrom_val {n : Nat} {svn : Svn} (h : Svn.tryFrom n = some svn) : svn.val = n := by
  unfold Svn.tryFrom at h
  split at h
  · cases h; simp
  · cases h

/-- The exact calls, for packets after those `seen`. -/
theorem callsForAll_loop {checks : Bool} {gis : List (Option GalileoInav)} :
    ∀ {seen : List GalileoInav} {g g' : GalmonOsnma C}, g.sel.LastOk seen → g.sel.CurrentOk seen →
      (checks = true ∨ ∀ i, some i ∈ gis → i.sigid.isSome = true → i.TimeOk) →
      loopM (GalmonOsnma.step S checks) gis g = .ok g' →
      ∃ cs, g'.calls = g.calls ++ cs ∧ CallsForAll seen ((gis.filterMap id).filter fun i => i.sigid.isSome) cs := by
  induction gis with
  | nil =>
    intro seen g g' hl hc ht h
    cases h
    exact ⟨[], by simp, .nil _⟩
  | cons gi gis ih =>
    intro seen g g' hl hc ht h
    rw [loopM_cons] at h
    obtain ⟨x, hs, hrest⟩ := Res.bind_eq_ok.1 h
    clear h
    have ht' : checks = true ∨ ∀ i, some i ∈ gis → i.sigid.isSome = true → i.TimeOk := ht.imp id fun h i hi => h i (by simp [hi])
    cases step_ok hs with
    | other hx =>
      subst hx
      obtain ⟨cs, h1, h2⟩ := ih hl hc ht' hrest
      exact ⟨cs, h1, by simpa using h2⟩
    | noSig hi hx =>
      subst hx
      obtain ⟨cs, h1, h2⟩ := ih hl hc ht' hrest
      exact ⟨cs, h1, by simpa [hi] using h2⟩
    | @dropped i sigid sel hi ha hx =>
      have hti : checks = true ∨ i.TimeOk := ht.imp id fun h => h i (by simp) (by rw [hi]; rfl)
      obtain ⟨a1, a2, a3⟩ := Selector.accept_ok ha hl hc hti
      subst hx
      obtain ⟨cs, h1, h2⟩ := ih a1 a2 ht' hrest
      refine ⟨cs, h1, ?_⟩
      simp only [List.filterMap_cons, id, List.filter_cons, hi, Option.isSome_some, if_true]
      exact .dropped (fun hu => a3 hu.2.1) h2
    | @unused i sigid sel gst hi ha hno hx =>
      have hti : checks = true ∨ i.TimeOk := ht.imp id fun h => h i (by simp) (by rw [hi]; rfl)
      obtain ⟨a1, a2, a3⟩ := Selector.accept_ok ha hl hc hti
      subst hx
      obtain ⟨cs, h1, h2⟩ := ih a1 a2 ht' hrest
      refine ⟨cs, h1, ?_⟩
      simp only [List.filterMap_cons, id, List.filter_cons, hi, Option.isSome_some, if_true]
      refine .dropped (fun hu => ?_) h2
      rcases hno with hno | hno
      · obtain ⟨hb, _⟩ := hu
        rw [hi] at hb
        rcases bandOf_eq sigid with ⟨_, k1, k2⟩ | ⟨k, _⟩ | ⟨k, _⟩
        · rcases hb with hb | hb
          · exact k1 (Option.some.inj hb)
          · exact k2 (Option.some.inj hb)
        · rw [hno] at k; cases k
        · rw [hno] at k; cases k
      · exact hu.2.2 ((firstType_ok hno).1 rfl)
    | @used i sigid sel gst svn band ty g1 hi ha hsv hb hty h63 hfeed hrep =>
      have hti : checks = true ∨ i.TimeOk := ht.imp id fun h => h i (by simp) (by rw [hi]; rfl)
      obtain ⟨a1, a2, a3, a4⟩ := Selector.accept_ok ha hl hc hti
      obtain ⟨o', now, _, rfl, word, hword, hnow⟩ := feed_ok hfeed
      obtain ⟨e1, e2, e3⟩ := report_same hrep
      obtain ⟨cs, h1, h2⟩ := ih (by rw [e3]; exact a1) (by rw [e3]; exact a2) ht' hrest
      rw [e2] at h1
      refine ⟨now ++ cs, by rw [h1]; simp only [List.append_assoc], ?_⟩
      simp only [List.filterMap_cons, id, List.filter_cons, hi, Option.isSome_some, if_true]
      have hband : i.OnBand band ∧ (i.sigid = some 1 ∨ i.sigid = some 5) := by
        rw [hi]
        rcases bandOf_eq sigid with ⟨k, _⟩ | ⟨k, rfl⟩ | ⟨k, rfl⟩
        · rw [hb] at k; cases k
        · rw [hb] at k; cases k; exact ⟨hi, .inl rfl⟩
        · rw [hb] at k; cases k; exact ⟨hi, .inr rfl⟩
      refine .used ⟨hband.2, a3, (used_iff_not_dummy hty).1 h63⟩ ⟨word, svn, gst, band, hword, tryFrom_val hsv, a4, hband.1, hnow⟩ h2

/-- **C44, exact.**  For every input stream, `galmon-osnma` feeds the black box exactly with the packets of the stream on E1-B or
E5b-I that are not in an earlier subframe than some packet before and are not dummy words, in order:
the word with `feed_inav`, then the OSNMA data with `feed_osnma`, for the satellite and band of the packet, at the time of
the packet (or 14 s later when that time is `Suspect`).  (Without overflow checks, for week numbers that do not overflow.) -/
theorem C44_calls {checks : Bool} {o : Osnma C} {input : Source} {g : GalmonOsnma C} {e : Option IoError}
    (h : galmonOsnmaMain S N checks o input = .ok (g, e)) :
    ∃ ms, packetsOf N input.bytes input.fails = .ok (ms, e) ∧ run S o g.calls = .ok g.osnma ∧
      ((checks = true ∨ ∀ i ∈ inavPackets N ms, i.TimeOk) → CallsForAll [] (inavPackets N ms) g.calls) := by
  unfold galmonOsnmaMain at h
  simp only [Res.bind_eq_ok] at h
  obtain ⟨⟨ms, e'⟩, hp, g', h, h'⟩ := h
  cases h'
  refine ⟨ms, hp, calls_run h, fun ht => ?_⟩
  have hl : (GalmonOsnma.new o).sel.LastOk [] := by unfold Selector.LastOk; simp [GalmonOsnma.new, Selector.new]
  have hc : (GalmonOsnma.new o).sel.CurrentOk [] := rfl
  obtain ⟨cs, h1, h2⟩ := callsForAll_loop hl hc (ht.imp id fun ht i hi hs => ht i (by
    obtain ⟨m, hm, hg⟩ := List.mem_map.1 hi
    exact List.mem_filter.2 ⟨List.mem_filterMap.2 ⟨m, hm, hg⟩, hs⟩)) h
  rw [show g.calls = cs from h1]
  rw [List.filterMap_map] at h2
  exact h2

/-- **C44.**  No dummy word is fed, whatever the packets and with or without overflow checks. -/
theorem C44_no_dummy_words {checks : Bool} {o : Osnma C} {input : Source} {g : GalmonOsnma C} {e : Option IoError}
    (h : galmonOsnmaMain S N checks o input = .ok (g, e)) (w : InavWord) (svn : Svn) (gst : Gst) (band : InavBand)
    (hm : Call.inav w svn gst band ∈ g.calls) : loadBe ((bitsOf w.val).take 6) ≠ 63 := by
  unfold galmonOsnmaMain at h
  simp only [Res.bind_eq_ok] at h
  obtain ⟨⟨ms, e'⟩, _, g', h, h'⟩ := h
  cases h'
  have key : (bitsOf w.val).take 6 ≠ List.replicate 6 true := by
    refine loopM_inv (fun x : GalmonOsnma C => ∀ (w : InavWord) (svn : Svn) (gst : Gst) (band : InavBand),
      Call.inav w svn gst band ∈ x.calls → (bitsOf w.val).take 6 ≠ List.replicate 6 true)
      (fun w svn gst band hm => by cases hm) ?_ h w svn gst band hm
    intro gi _ x x' hx hs w svn gst band hm
    cases step_ok hs with
    | other h => subst h; exact hx _ _ _ _ hm
    | noSig _ h => subst h; exact hx _ _ _ _ hm
    | dropped _ _ h => subst h; exact hx _ _ _ _ hm
    | unused _ _ _ h => subst h; exact hx _ _ _ _ hm
    | @used i sigid sel gst svn band ty g1 h1 ha h3 h4 h5 h6 h7 h8 =>
      obtain ⟨o', cs, hr, rfl, word, hword, hcs⟩ := feed_ok h7
      obtain ⟨e1, e2, e3⟩ := report_same h8
      rw [e2] at hm
      rcases List.mem_append.1 hm with hm | hm
      · exact hx _ _ _ _ hm
      · have hn := (used_iff_not_dummy h5).1 h6
        rw [← hword] at hn
        cases hres : i.reserved1 with
        | none =>
          rw [hres] at hcs; simp only at hcs; subst hcs
          simp only [List.mem_singleton, Call.inav.injEq] at hm
          rw [hm.1]; exact hn
        | some d =>
          rw [hres] at hcs; obtain ⟨data, _, rfl⟩ := hcs
          simp only [List.mem_cons, Call.inav.injEq, reduceCtorEq, List.not_mem_nil, or_false] at hm
          rw [hm.1]; exact hn
  intro h63
  have hl : ((bitsOf w.val).take 6).length = 6 := by simp [w.property]
  have hs := storeBe_loadBe ((bitsOf w.val).take 6)
  rw [hl, h63] at hs
  exact key hs.symm

/-- **C44.**  The correction of the time never moves a packet to another subframe (so not to another week either). -/
theorem C44_correction_keeps_subframe (seen : List GalileoInav) (i : GalileoInav) :
    i.fedSecs seen / 30 = i.secs / 30 ∧ i.fedSecs seen / 604800 = i.secs / 604800 := by
  unfold fedSecs
  by_cases h : i.Suspect seen
  · rw [if_pos h]; obtain ⟨h, _⟩ := h; omega
  · rw [if_neg h]; exact ⟨rfl, rfl⟩

/-! ## C57: packets with the right time -/

/-- **C57, the part that holds**: the time of a packet is not changed unless it is 15 s into its subframe and the
last packet before it with another offset was at least 19 s into its own. -/
theorem C57_time_kept_partial (seen : List GalileoInav) (i : GalileoInav)
    (h : i.secs % 30 ≠ 15 ∨ ∀ q, seen.getLast? = some q → q.secs % 30 < 15) : i.fedSecs seen = i.secs := by
  unfold fedSecs
  rw [if_neg]
  rintro ⟨h15, q, hq, hge⟩
  rcases h with h | h
  · exact h h15
  · rcases List.eq_nil_or_concat seen with rfl | ⟨l, x, rfl⟩
    · cases hq
    · have hx := h x (by simp)
      rw [List.concat_eq_append, find_snoc, if_pos (show decide (x.secs % 30 ≠ 15) = true by simp; omega)] at hq
      cases hq
      omega

/-- **C57 fails**: a packet whose time is right but is 15 s into a subframe is fed 14 s late whenever the packet
before was at least 19 s into a subframe, even an earlier one.  (So its OSNMA data is stored as the page of another position.) -/
theorem C57_counterexample (q i : GalileoInav) (hq : 19 ≤ q.secs % 30) (hi : i.secs % 30 = 15) : i.fedSecs [q] = i.secs + 14 := by
  unfold fedSecs
  rw [if_pos]
  refine ⟨hi, q, ?_, hq⟩
  show List.find? _ [q] = some q
  rw [List.find?_cons_of_pos]
  simp; omega

end Verif
