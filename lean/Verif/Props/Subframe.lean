import Verif.Lemmas.Subframe

/-! # C04, C05, C06: the subframe collector -/

namespace Verif
open CollectSubframe

/-- **C04/C38 part** the collector never panics, whatever pages are fed. -/
theorem C04_feed_pages_returns (ps : List Page) : (feedPages .new ps).Returns := by
  obtain ⟨s', outs, h, _⟩ := feedPages_spec wf_new ps (fun _ => Sat.init) rep_new
  exact ⟨_, h⟩

/-- **C04** a collected subframe is exactly the 15 sections that one satellite sent in one
subframe: the call is for word 14, and since the subframe last changed the history contains, in
order, 15 calls for this satellite (the last of them this call) with words 0, 1, ..., 14, whose
sections concatenated are the two messages returned. -/
theorem C04_collected_subframe (hist : List Page) (p : Page) (s s' : CollectSubframe)
    (outs : List SubframeOut) (hk : HkrootMessage) (mk : MackMessage) (g : Gst)
    (hrun : feedPages .new hist = .ok (s, outs))
    (hfeed : s.feed p.data p.svn p.gst = .ok (s', some (hk, mk, g))) :
    g = p.sub ∧
      ∃ ps : List Page, ps.Sublist (sinceSubframe hist p.sub ++ [p]) ∧ ps.getLast? = some p ∧
        ps.map Page.word = List.range 15 ∧
        (∀ q ∈ ps, q.svn = p.svn ∧ q.sub = p.sub) ∧
        hk.val = ps.flatMap Page.hkroot ∧ mk.val = ps.flatMap Page.mack := by
  obtain ⟨s1, outs1, h1, h2, h3, _⟩ := feedPages_spec wf_new hist (fun _ => Sat.init) rep_new
  rw [hrun] at h1; cases h1
  obtain ⟨s2, out, h4, _, _, h5⟩ := feed_emit h2 p (fun svn => satAfter svn hist) h3
  rw [hfeed] at h4; cases h4
  unfold Sat.emit at h5
  split at h5
  · rename_i hc
    simp only [raw, Option.map_some, Option.some.injEq, Prod.mk.injEq] at h5
    obtain ⟨e1, e2, e3⟩ := h5
    have hinv := satAfter_inv p.svn (hist ++ [p])
    rw [satAfter_snoc, Sat.step_sub, sinceSubframe_snoc] at hinv
    have hgot : ((satAfter p.svn hist).step p.svn p).got
        = ((satAfter p.svn hist).adjust p.gst).got ++ [p] := by
      rw [Sat.step_got]
      have : (if p.sub = (satAfter p.svn hist).sub then (satAfter p.svn hist).got else [])
        = ((satAfter p.svn hist).adjust p.gst).got := rfl
      rw [this, if_pos ⟨rfl, by omega⟩]
    refine ⟨e3, _, hinv.1, ?_, ?_, hinv.2.2, e1, e2⟩
    · rw [hgot]; simp
    · rw [hinv.2.1, hgot]; simp [hc.2.2]
  · simp [raw] at h5

theorem outsOf_count (svn : Svn) (ps : List Page) (o : List SubframeOut) :
    ((outsOf svn ps o).filter Option.isSome).length =
      (((ps.zip (o.map raw)).filter (fun x => x.1.svn == svn)).filter (fun x => x.2.isSome)).length := by
  simp only [outsOf]
  induction ps generalizing o with
  | nil => simp
  | cons p ps ih =>
    cases o with
    | nil => simp
    | cons x o =>
      simp only [List.zip_cons_cons, List.map_cons]
      by_cases hsv : p.svn = svn
      · rw [List.filter_cons_of_pos (by simpa using hsv), List.filter_cons_of_pos (by simpa using hsv)]
        simp only [List.map_cons]
        have hx : (raw x).isSome = x.isSome := by cases x <;> rfl
        cases hxs : x.isSome
        · rw [List.filter_cons_of_neg (by simp [hxs]), List.filter_cons_of_neg (by simp [hx, hxs]), ih]
        · rw [List.filter_cons_of_pos hxs, List.filter_cons_of_pos (by simp [hx, hxs]), List.length_cons,
            List.length_cons, ih]
      · rw [List.filter_cons_of_neg (by simpa using hsv), List.filter_cons_of_neg (by simpa using hsv), ih]

/-- **C05** in a run of calls that all belong to one subframe, made after a call for another
subframe (or at the start), a satellite is returned exactly once if its words of the run contain
0, 1, ..., 14 in this order (whatever is interleaved), and never otherwise. -/
theorem C05_collected_once (hist ps : List Page) (g : Gst) (svn : Svn)
    (hps : ∀ p ∈ ps, p.sub = g) (hlast : ∀ p, hist.getLast? = some p → p.sub ≠ g)
    (s s' : CollectSubframe) (outs0 outs : List SubframeOut)
    (hrun : feedPages .new hist = .ok (s, outs0)) (hrun' : feedPages s ps = .ok (s', outs)) :
    ((outsOf svn ps outs).filter Option.isSome).length =
      if (List.range 15).Sublist ((ps.filter (fun p => p.svn == svn)).map Page.word) then 1
      else 0 := by
  obtain ⟨s1, o1, h1, h2, h3, _⟩ := feedPages_spec wf_new hist (fun _ => Sat.init) rep_new
  rw [hrun] at h1; cases h1
  obtain ⟨s2, o2, h4, _, _, h5⟩ := feedPages_spec h2 ps (fun svn => satAfter svn hist) h3
  rw [hrun'] at h4; cases h4
  have hn : (0 : Nat) = (if (satAfter svn hist).sub = g then (satAfter svn hist).got else []).length := by
    rcases List.eq_nil_or_concat hist with rfl | ⟨l, q, rfl⟩
    · split <;> rfl
    · rw [List.concat_eq_append, satAfter_snoc, Sat.step_sub, if_neg]
      · rfl
      · exact hlast q (by simp)
  have key := emits_count svn g ps hps (fun svn => satAfter svn hist) 0 hn
  have hr : List.range 15 = List.range' 0 15 := by rw [List.range_eq_range']
  simp only [hr, range'_sublist_iff]
  simp only [Nat.zero_le, true_and] at key
  rw [← key, ← h5]
  exact outsOf_count svn ps outs

/-- Results of the calls for `svn`, on raw results. -/
theorem outsOf_raw (svn : Svn) (ps : List Page) (outs : List SubframeOut) :
    (outsOf svn ps outs).map raw
      = ((ps.zip (outs.map raw)).filter (fun x => x.1.svn == svn)).map (·.2) := by
  simp only [outsOf]
  induction ps generalizing outs with
  | nil => simp
  | cons p ps ih =>
    cases outs with
    | nil => simp
    | cons x o =>
      simp only [List.zip_cons_cons, List.map_cons]
      by_cases hsv : p.svn = svn
      · rw [List.filter_cons_of_pos (by simpa using hsv), List.filter_cons_of_pos (by simpa using hsv)]
        simp [ih]
      · rw [List.filter_cons_of_neg (by simpa using hsv), List.filter_cons_of_neg (by simpa using hsv), ih]

theorem map_raw_inj {a b : List SubframeOut} (h : a.map raw = b.map raw) : a = b := by
  induction a generalizing b with
  | nil => cases b with
    | nil => rfl
    | cons => simp at h
  | cons x a ih => cases b with
    | nil => simp at h
    | cons y b =>
      simp only [List.map_cons, List.cons.injEq] at h
      rw [raw_inj h.1, ih h.2]

/-- **C06** if pages arrive in chronological order of subframes, the results for one satellite are
the same as if the pages of all the other satellites had never been fed. -/
theorem C06_no_interference (ps : List Page) (svn : Svn)
    (hchr : ps.Pairwise (fun p q => p.sub.abs ≤ q.sub.abs))
    (s s' : CollectSubframe) (outs outs' : List SubframeOut)
    (hrun : feedPages .new ps = .ok (s, outs))
    (hrun' : feedPages .new (ps.filter (fun p => p.svn == svn)) = .ok (s', outs')) :
    outsOf svn ps outs = outs' := by
  obtain ⟨s1, o1, h1, _, _, h3⟩ := feedPages_spec wf_new ps (fun _ => Sat.init) rep_new
  rw [hrun] at h1; cases h1
  obtain ⟨s2, o2, h4, _, _, h5⟩ :=
    feedPages_spec wf_new (ps.filter (fun p => p.svn == svn)) (fun _ => Sat.init) rep_new
  rw [hrun'] at h4; cases h4
  apply map_raw_inj
  rw [outsOf_raw, h3, h5]
  refine emits_filter svn ps _ _ hchr (Or.inl rfl) ?_
  intro p _
  have := p.sub.abs_representable
  simp only [Representable] at this
  show Gst.abs ⟨0, 0, _, _⟩ ≤ _
  simp only [Gst.abs]; omega

/-- **C06** within one subframe, from any reachable state: the results for a satellite do not
depend on the calls for the others. -/
theorem C06_no_interference_subframe (hist ps : List Page) (g : Gst) (svn : Svn)
    (hps : ∀ p ∈ ps, p.sub = g) (hlast : ∀ p, hist.getLast? = some p → p.sub.abs ≤ g.abs)
    (s s1 s2 : CollectSubframe) (outs0 outs outs' : List SubframeOut)
    (hrun : feedPages .new hist = .ok (s, outs0))
    (hrun1 : feedPages s ps = .ok (s1, outs))
    (hrun2 : feedPages s (ps.filter (fun p => p.svn == svn)) = .ok (s2, outs')) :
    outsOf svn ps outs = outs' := by
  obtain ⟨s0, o1, h1, h2, h3, _⟩ := feedPages_spec wf_new hist (fun _ => Sat.init) rep_new
  rw [hrun] at h1; cases h1
  obtain ⟨_, _, h4, _, _, h5⟩ := feedPages_spec h2 ps (fun svn => satAfter svn hist) h3
  rw [hrun1] at h4; cases h4
  obtain ⟨_, _, h6, _, _, h7⟩ := feedPages_spec h2 (ps.filter (fun p => p.svn == svn)) (fun svn => satAfter svn hist) h3
  rw [hrun2] at h6; cases h6
  apply map_raw_inj
  rw [outsOf_raw, h5, h7]
  refine emits_filter svn ps _ _ ?_ (Or.inl rfl) ?_
  · rw [List.pairwise_iff_forall_sublist]
    intro a b hab
    have ha : a ∈ ps := hab.subset (by simp)
    have hb : b ∈ ps := hab.subset (by simp)
    rw [hps a ha, hps b hb]; exact Int.le_refl _
  · intro p hp
    rw [hps p hp]
    rcases List.eq_nil_or_concat hist with rfl | ⟨l, q, rfl⟩
    · have := g.abs_representable
      simp only [Representable] at this
      show Gst.abs ⟨0, 0, _, _⟩ ≤ _
      simp only [Gst.abs]; omega
    · rw [List.concat_eq_append, satAfter_snoc, Sat.step_sub]
      exact hlast q (by simp)

section Example

/-- A page of the example: satellite `v`, second `t` of week 1177. -/
private def pg (v : Nat) (t : Nat) (h : 1 ≤ v ∧ v ≤ 36) (ht : t < 604800) : Page :=
  ⟨⟨[BitVec.ofNat 8 t, 1, 2, 3, BitVec.ofNat 8 v], rfl⟩, ⟨v, h.1, h.2⟩, ⟨1177, t, by omega, ht⟩⟩

/-- Pages of two satellites interleaved, one of which misses a page. -/
private def exPages : List Page :=
  (List.range 15).flatMap (fun i =>
    if h : 60 + 2 * i < 604800 then
      if i = 7 then [pg 12 (60 + 2 * i) (by omega) h]
      else [pg 12 (60 + 2 * i) (by omega) h, pg 19 (60 + 2 * i) (by omega) h]
    else [])

/-- Non-vacuity of C04–C06: satellite 12 is collected, satellite 19 is not. -/
example :
    (match feedPages .new exPages with
     | .ok (_, outs) =>
       ((outsOf ⟨12, by omega, by omega⟩ exPages outs).filter Option.isSome).length == 1 &&
       ((outsOf ⟨19, by omega, by omega⟩ exPages outs).filter Option.isSome).length == 0
     | .panic _ => false) = true := by decide +kernel

example : exPages.Pairwise (fun p q => p.sub.abs ≤ q.sub.abs) := by decide +kernel

end Example

end Verif
