import Verif.Lemmas.StorageSize

/-! # C81: the sizes of the storage -/

namespace Verif
open CollectSubframe (snoc_induction)

variable {S S' : Storage} {C : Crypto} {root0 : Option MerkleTreeNode} {pk0 : Option (PublicKey C)} {slow slow' : Bool}
  {hist : List Call} {log log' : List (KeyEvent C)} {o o' : Osnma C}

/-- The reported time does not go back as words are received. -/
theorem newest_snoc (kd : NavKind) (v : Svn) {p : List InavCall} {l c : InavCall} (h : Chronological (p ++ [l] ++ [c])) :
    l.gst.subframe.abs - 30 * (kd.newestAge (p ++ [l]) v : Int) ≤ c.gst.subframe.abs - 30 * (kd.newestAge (p ++ [l] ++ [c]) v : Int) := by
  have hle : ∀ d ∈ p ++ [l], d.gst.subframe.abs ≤ l.gst.subframe.abs := h.init.le_last
  have hlc : l.gst.subframe.abs ≤ c.gst.subframe.abs := h.le_last l (by simp)
  rw [newestAge_eq kd h v, newestAge_eq kd h.init v, NavKind.latestAny_snoc kd (p ++ [l]) c]
  by_cases hc : c.svn = v ∧ kd.fields.any (fun f => kd.carries c f) = true
  · rw [if_pos hc]
    dsimp only
    rw [laterSubframes_zero h.le_last, show ((min 255 0 : Nat) : Int) = 0 from rfl]
    omega
  · rw [if_neg hc]
    cases hl : kd.latestAny (p ++ [l]) v with
    | none => dsimp only; omega
    | some d =>
      dsimp only
      have hd : d ∈ p ++ [l] := by
        unfold NavKind.latestAny at hl
        exact (List.mem_filter.1 (List.mem_of_getLast? hl)).1
      by_cases hs : l.gst.subframe = c.gst.subframe
      · rw [laterSubframes_snoc_same _ ⟨l, by simp, hs⟩, hs]
        exact Int.le_refl _
      · have hlt : l.gst.subframe.abs < c.gst.subframe.abs := by
          have : l.gst.subframe.abs ≠ c.gst.subframe.abs := fun e => hs (Gst.abs_inj e)
          omega
        have a1 := Gst.subframe_aligned l.gst
        have a2 := Gst.subframe_aligned c.gst
        unfold Gst.Aligned at a1 a2
        rw [laterSubframes_snoc_new (p := p ++ [l]) (c := c) (fun x hx e => by have := hle x hx; rw [e] at this; omega) (by have := hle d hd; omega),
          show ((min 255 (laterSubframes (p ++ [l]) d.gst.subframe + 1) : Nat) : Int) = min 255 ((laterSubframes (p ++ [l]) d.gst.subframe : Int) + 1) by omega,
          show ((min 255 (laterSubframes (p ++ [l]) d.gst.subframe) : Nat) : Int) = min 255 (laterSubframes (p ++ [l]) d.gst.subframe : Int) by omega]
        omega

theorem newest_append (kd : NavKind) (v : Svn) {p r : List InavCall} {l l' : InavCall} (h : Chronological (p ++ r)) (hl : p.getLast? = some l)
    (hl' : (p ++ r).getLast? = some l') :
    l.gst.subframe.abs - 30 * (kd.newestAge p v : Int) ≤ l'.gst.subframe.abs - 30 * (kd.newestAge (p ++ r) v : Int) := by
  induction r using snoc_induction generalizing l' with
  | h0 =>
    rw [List.append_nil] at *
    rw [hl] at hl'
    obtain rfl := Option.some.inj hl'
    exact Int.le_refl _
  | h1 r c ih =>
    rw [← List.append_assoc] at h hl' ⊢
    rw [List.getLast?_concat] at hl'
    obtain rfl := Option.some.inj hl'
    rcases List.eq_nil_or_concat (p ++ r) with e | ⟨q, x, e⟩
    · have : p = [] := (List.append_eq_nil_iff.1 e).1
      subst this; cases hl
    · rw [List.concat_eq_append] at e
      have := ih h.init (l' := x) (by rw [e, List.getLast?_concat])
      rw [e] at this h ⊢
      have := newest_snoc kd v h
      omega

theorem Chronological.pre {p r : List InavCall} (h : Chronological (p ++ r)) : Chronological p := by
  induction r using snoc_induction with
  | h0 => rw [List.append_nil] at h; exact h
  | h1 r c ih => rw [← List.append_assoc] at h; exact ih h.init

theorem find?_index {α : Type} {p : α → Bool} {l : List α} {x : α} (h : l.find? p = some x) :
    ∃ i : Nat, l[i]? = some x ∧ p x = true ∧ ∀ (j : Nat) (y : α), j < i → l[j]? = some y → p y = false := by
  induction l with
  | nil => cases h
  | cons a l ih =>
    rw [List.find?_cons] at h
    cases ha : p a with
    | true => rw [ha] at h; cases h; exact ⟨0, rfl, ha, fun j y hj => absurd hj (Nat.not_lt_zero _)⟩
    | false =>
      rw [ha] at h
      obtain ⟨i, h1, h2, h3⟩ := ih h
      refine ⟨i + 1, h1, h2, fun j y hj hy => ?_⟩
      cases j with
      | zero => cases hy; exact ha
      | succ j => exact h3 j y (by omega) hy

/-- Frames lined up, of the same words: the second machine reports at least the same. -/
theorem lined_reports {hist' : List Call} {rs rs' : List Received} {fs fs' : List NavFrame} {n : Nat} (hm : NavMachine root0 pk0 S slow hist rs log fs)
    (hm' : NavMachine root0 pk0 S' slow' hist' rs' log' fs') (hwe : inavsOf hist' = inavsOf hist) (hwords : Chronological (inavsOf hist))
    (hL : Lined (· ≤ ·) n fs fs') {kd : NavKind} {v : Svn} {d : NavMessageData} {res' : Option NavMessageData}
    (hres : (some d).map (fun d => (d.data, d.authbits, d.gst.abs)) = authenticated fs kd v)
    (hres' : res'.map (fun d => (d.data, d.authbits, d.gst.abs)) = authenticated fs' kd v) :
    ∃ d', res' = some d' ∧ d.gst.abs ≤ d'.gst.abs ∧
      ∃ q q', q <+: q' ∧ q' <+: inavsOf hist ∧ d.data = kd.expected q v ∧ d'.data = kd.expected q' v ∧
        (q = q' → d'.gst = d.gst ∧ d.authbits ≤ d'.authbits) := by
  unfold authenticated at hres hres'
  cases hf : fs.find? (fun f => decide (40 ≤ f.auth kd v)) with
  | none => rw [hf] at hres; cases hres
  | some f =>
    rw [hf] at hres
    simp only [Option.map_some, Option.some.injEq, Prod.mk.injEq] at hres
    obtain ⟨i, i1, i2, i3⟩ := find?_index hf
    obtain ⟨hin, x, hx⟩ := hL.ofShort i1
    have gx := hL.get i1 hx
    have hx40 : 40 ≤ x.auth kd v := Nat.le_trans (of_decide_eq_true i2) (gx.2.2 kd v)
    cases hf' : fs'.find? (fun f => decide (40 ≤ f.auth kd v)) with
    | none =>
      have := List.find?_eq_none.1 hf' x (List.mem_of_getElem? hx)
      exact absurd (decide_eq_true hx40) this
    | some f' =>
      rw [hf'] at hres'
      cases res' with
      | none => cases hres'
      | some d' =>
        simp only [Option.map_some, Option.some.injEq, Prod.mk.injEq] at hres'
        obtain ⟨j, j1, j2, j3⟩ := find?_index hf'
        have hji : j ≤ i := by
          refine Nat.le_of_not_lt fun hlt => ?_
          have := j3 i x hlt hx
          rw [decide_eq_false_iff_not] at this
          exact this hx40
        obtain ⟨r1, l1, e1, e2, e3⟩ := hm.ends.1 f (List.mem_of_getElem? i1)
        obtain ⟨r2, l2, e4, e5, e6⟩ := hm'.ends.1 f' (List.mem_of_getElem? j1)
        rw [hwe] at e4
        have hdec := (hm'.decreasing (by rw [hwe]; exact hwords)).1
        -- the words
        have hpre : f.words <+: f'.words := by
          have p1 : f.words <+: inavsOf hist := ⟨r1, e1.symm⟩
          have p2 : f'.words <+: inavsOf hist := ⟨r2, e4.symm⟩
          rcases Nat.lt_or_ge j i with hlt | hge
          · rcases Nat.le_total f.words.length f'.words.length with hl | hl
            · exact List.prefix_of_prefix_length_le p1 p2 hl
            · exfalso
              obtain ⟨s, hs⟩ := List.prefix_of_prefix_length_le p2 p1 hl
              have c1 : Chronological f.words := by rw [e1] at hwords; exact hwords.pre
              have g1 : f'.gst.abs ≤ f.gst.abs := by
                obtain ⟨a, ha⟩ : ∃ a, f.words = a ++ [l1] := by
                  rcases List.eq_nil_or_concat f.words with e | ⟨a, b, e⟩
                  · rw [e] at e2; cases e2
                  · rw [List.concat_eq_append] at e
                    rw [e, List.getLast?_concat] at e2
                    exact ⟨a, by rw [e, Option.some.inj e2]⟩
                rw [e3, e6]
                rw [ha] at c1 hs
                exact c1.le_last l2 (by rw [← hs]; exact List.mem_append_left _ (List.mem_of_getLast? e5))
              have := List.pairwise_iff_getElem.1 ((List.pairwise_map (R := fun a b : Gst => b.abs < a.abs)).1 hdec) j i
                (List.getElem?_eq_some_iff.1 j1).1 (List.getElem?_eq_some_iff.1 hx).1 hlt
              rw [(List.getElem?_eq_some_iff.1 j1).2, (List.getElem?_eq_some_iff.1 hx).2, ← gx.1] at this
              omega
          · obtain rfl : i = j := by omega
            rw [j1] at hx
            obtain rfl := Option.some.inj hx
            rw [gx.2.1]
            exact List.prefix_refl _
        obtain ⟨s, hs⟩ := hpre
        refine ⟨d', rfl, ?_, f.words, f'.words, ⟨s, hs⟩, ⟨r2, e4.symm⟩, hres.1, hres'.1, ?_⟩
        · rw [hres.2.2, hres'.2.2, e3, e6]
          have hchr : Chronological (f.words ++ s) := by rw [hs]; rw [e4] at hwords; exact hwords.pre
          have := newest_append kd v hchr e2 (l' := l2) (by rw [hs]; exact e5)
          rw [hs] at this
          exact this
        · intro hq
          -- the same words: the same subframe
          have hij : i = j := by
            rcases Nat.lt_or_ge j i with hlt | hge
            · exfalso
              have := List.pairwise_iff_getElem.1 ((List.pairwise_map (R := fun a b : Gst => b.abs < a.abs)).1 hdec) j i
                (List.getElem?_eq_some_iff.1 j1).1 (List.getElem?_eq_some_iff.1 hx).1 hlt
              rw [(List.getElem?_eq_some_iff.1 j1).2, (List.getElem?_eq_some_iff.1 hx).2, ← gx.1] at this
              rw [hq, e5] at e2
              rw [e3, e6, Option.some.inj e2] at this
              omega
            · omega
          subst hij
          rw [j1] at hx
          obtain rfl := Option.some.inj hx
          refine ⟨Gst.abs_inj ?_, ?_⟩
          · rw [hres.2.2, hres'.2.2, gx.1, gx.2.1]
          · rw [hres.2.1, hres'.2.1]; exact gx.2.2 kd v

/-- A receiver with at least the same storage, which uses at least the same tags, reports at least the same. -/
theorem more_reports (hS : S.Consistent) (hS' : S'.Consistent) (hw : S.Within S') (hsl : slow' = true → slow = true)
    (ho : (Osnma.new S root0 pk0 slow : Osnma C).Fresh S) (ho' : (Osnma.new S' root0 pk0 slow' : Osnma C).Fresh S')
    (h : Logs S (Osnma.new S root0 pk0 slow) hist log o) (h' : Logs S' (Osnma.new S' root0 pk0 slow') hist log' o')
    (hpages : (pagesOf hist).Pairwise (fun a b => a.sub.abs ≤ b.sub.abs)) (hwords : Chronological (inavsOf hist))
    (hfits : Fits S (inavsOf hist)) {kd : NavKind} {v : Svn} {d : NavMessageData} (hd : o.get S kd v = .ok (some d))
    {res' : Option NavMessageData} (hd' : o'.get S' kd v = .ok res') :
    log' = log ∧ ∃ d', res' = some d' ∧ d.gst.abs ≤ d'.gst.abs ∧
      ∃ q q', q <+: q' ∧ q' <+: inavsOf hist ∧ d.data = kd.expected q v ∧ d'.data = kd.expected q' v ∧
        (q = q' → d'.gst = d.gst ∧ d.authbits ≤ d'.authbits) := by
  obtain ⟨rs, fs, hm, hget⟩ := C63_reference_machine hS ho h hpages hwords hfits
  obtain ⟨sats, f1, f2⟩ := hfits
  obtain ⟨rs', fs', hm', hget'⟩ := C63_reference_machine hS' ho' h' hpages hwords ⟨sats, Nat.le_trans f1 hw.sats, f2⟩
  have hL := machines_mono hw hsl hS.nav_pos hm hm'
  exact ⟨(machines_agree hm hm').2.symm, lined_reports hm hm' rfl hwords hL (hget kd v _ hd) (hget' kd v _ hd')⟩

/-- **C81.**  Two receivers are given the same words and pages, in chronological order, and the satellites fit in the smaller storage.  If the
one with the smaller storage reports data of a satellite, the one with the larger storage also does: that of the same time or a later one; if it is not from words received later,
then it is the same, with the same time and at least as many authentication bits. -/
theorem C81_more_storage (hS : S.Consistent) (hS' : S'.Consistent) (hw : S.Within S')
    (ho : (Osnma.new S root0 pk0 slow : Osnma C).Fresh S) (ho' : (Osnma.new S' root0 pk0 slow : Osnma C).Fresh S')
    (h : Logs S (Osnma.new S root0 pk0 slow) hist log o) (h' : Logs S' (Osnma.new S' root0 pk0 slow) hist log' o')
    (hpages : (pagesOf hist).Pairwise (fun a b => a.sub.abs ≤ b.sub.abs)) (hwords : Chronological (inavsOf hist))
    (hfits : Fits S (inavsOf hist)) {kd : NavKind} {v : Svn} {d : NavMessageData} (hd : o.get S kd v = .ok (some d))
    {res' : Option NavMessageData} (hd' : o'.get S' kd v = .ok res') :
    log' = log ∧ ∃ d', res' = some d' ∧ d.gst.abs ≤ d'.gst.abs ∧
      ∃ q q', q <+: q' ∧ q' <+: inavsOf hist ∧ d.data = kd.expected q v ∧ d'.data = kd.expected q' v ∧
        (q = q' → d'.gst = d.gst ∧ d.authbits ≤ d'.authbits) :=
  more_reports hS hS' hw id ho ho' h h' hpages hwords hfits hd hd'

/-- **C81, the documented sizes.**  Let the storage be as large as the documentation asks for (12 subframes of MACK messages and 13 of navigation data, or 2 and 3 if
Slow MAC is not used), the satellites fit, and the calls be made in chronological order.  What the receiver reports, one with a larger storage reports too, with the same time and
the same authentication bits; and if it reports nothing, then one with a larger storage reports at most data older than the subframes for which there is room. -/
theorem C81_documented_sizes_suffice (hS : S.Consistent) (hS' : S'.Consistent) (hw : S.Within S')
    (ho : (Osnma.new S root0 pk0 slow : Osnma C).Fresh S) (ho' : (Osnma.new S' root0 pk0 slow : Osnma C).Fresh S')
    (h : Logs S (Osnma.new S root0 pk0 slow) hist log o) (h' : Logs S' (Osnma.new S' root0 pk0 slow) hist log' o')
    (hord : CallsInOrder hist) (hfits : Fits S (inavsOf hist)) (hpf : PagesFit S hist) (hen : S.Enough hist log)
    {kd : NavKind} {v : Svn} {res res' : Option NavMessageData} (hd : o.get S kd v = .ok res) (hd' : o'.get S' kd v = .ok res') :
    log' = log ∧ (res' = res ∨ res = none ∧ ∃ d', res' = some d' ∧ S.navDepth ≤ laterSubframes (inavsOf hist) d'.gst) := by
  obtain ⟨rs, fs, hm, hget⟩ := C63_reference_machine hS ho h hord.pages hord.words hfits
  obtain ⟨sats, f1, f2⟩ := hfits
  obtain ⟨rs', fs', hm', hget'⟩ := C63_reference_machine hS' ho' h' hord.pages hord.words ⟨sats, Nat.le_trans f1 hw.sats, f2⟩
  have hL := machines_enough hw hS.nav_pos hord hpf hen hm hm'
  refine ⟨(machines_agree hm hm').2.symm, ?_⟩
  have hres := hget kd v _ hd
  have hres' := hget' kd v _ hd'
  have hdec := hm'.decreasing hord.words
  unfold authenticated at hres hres'
  cases hf : fs.find? (fun f => decide (40 ≤ f.auth kd v)) with
  | some f =>
    left
    obtain ⟨i, i1, i2, i3⟩ := find?_index hf
    obtain ⟨hin, x, hx⟩ := hL.ofShort i1
    have gx := hL.get i1 hx
    have hfx : f = x := by
      obtain ⟨a, b, c⟩ := f
      obtain ⟨a', b', c'⟩ := x
      obtain ⟨g1, g2, g3⟩ := gx
      dsimp only at *
      obtain rfl := g1
      obtain rfl := g2
      have : c = c' := funext fun kd => funext fun v => g3 kd v
      rw [this]
    subst hfx
    have hf' : fs'.find? (fun f => decide (40 ≤ f.auth kd v)) = some f := by
      cases hff : fs'.find? (fun f => decide (40 ≤ f.auth kd v)) with
      | none => exact absurd i2 (List.find?_eq_none.1 hff f (List.mem_of_getElem? hx))
      | some y =>
        obtain ⟨j, j1, j2, j3⟩ := find?_index hff
        have hji : ¬ i < j := fun hlt => by
          have := j3 i f hlt hx
          rw [this] at i2; cases i2
        have hij : ¬ j < i := fun hlt => by
          obtain ⟨y', hy'⟩ := hL.ofLong j1 (by omega)
          have g := (hL.get hy' j1).2.2 kd v
          have := i3 j y' hlt hy'
          rw [decide_eq_false_iff_not, g] at this
          exact this (of_decide_eq_true j2)
        obtain rfl : i = j := by omega
        rw [hx] at j1
        rw [j1]
    rw [hf] at hres
    rw [hf', ← hres] at hres'
    cases res with
    | none => cases hres
    | some d =>
      cases res' with
      | none => cases hres'
      | some d' =>
        simp only [Option.map_some, Option.some.injEq, Prod.mk.injEq] at hres'
        obtain ⟨a, b, c⟩ := d
        obtain ⟨a', b', c'⟩ := d'
        obtain ⟨e1, e2, e3⟩ := hres'
        dsimp only at e1 e2 e3
        have := Gst.abs_inj e3
        simp [e1, e2, this]
  | none =>
    rw [hf] at hres
    cases res with
    | some d => cases hres
    | none =>
      cases res' with
      | none => exact .inl rfl
      | some d' =>
        right
        refine ⟨rfl, d', rfl, ?_⟩
        cases hf' : fs'.find? (fun f => decide (40 ≤ f.auth kd v)) with
        | none => rw [hf'] at hres'; cases hres'
        | some y =>
          rw [hf'] at hres'
          simp only [Option.map_some, Option.some.injEq, Prod.mk.injEq] at hres'
          obtain ⟨j, j1, j2, j3⟩ := find?_index hf'
          have hnj : S.navDepth ≤ j := by
            refine Nat.le_of_not_lt fun hlt => ?_
            obtain ⟨y', hy'⟩ := hL.ofLong j1 hlt
            have g := (hL.get hy' j1).2.2 kd v
            have := List.find?_eq_none.1 hf y' (List.mem_of_getElem? hy')
            rw [decide_eq_true_eq, g] at this
            exact this (of_decide_eq_true j2)
          have hjl := (List.getElem?_eq_some_iff.1 j1).1
          -- the subframes before it in the list are later
          have hsub : ((fs'.map NavFrame.gst).take j).length ≤ laterSubframes (inavsOf hist) d'.gst := by
            unfold laterSubframes
            refine length_le_of_nodup_subset _ _ ?_ fun x hx => ?_
            · refine List.Pairwise.imp ?_ (hdec.1.sublist (List.take_sublist _ _))
              intro a b hab e
              rw [e] at hab; omega
            · obtain ⟨i, hi⟩ := List.getElem?_of_mem hx
              rw [List.getElem?_take] at hi
              split at hi
              · rename_i hij
                rw [List.mem_eraseDups, List.mem_filter, decide_eq_true_eq]
                have hxm := List.mem_of_getElem? hi
                obtain ⟨z, hz, rfl⟩ := List.mem_map.1 hxm
                obtain ⟨c, hc, e⟩ := hdec.2 z hz
                refine ⟨List.mem_map.2 ⟨c, hc, e.symm⟩, ?_⟩
                have := List.pairwise_iff_getElem.1 hdec.1 i j (by rw [List.length_map]; omega) (by rw [List.length_map]; omega) hij
                rw [(List.getElem?_eq_some_iff.1 hi).2, List.getElem_map, (List.getElem?_eq_some_iff.1 j1).2] at this
                rw [hres'.2.2]
                omega
              · cases hi
          rw [List.length_take, List.length_map] at hsub
          omega

/-- **C81, `FullStorage`.**  `FullStorage` is the largest size that makes sense: a receiver with a larger storage reports the same, except
for data older than the last 13 subframes with words. -/
theorem C81_full_storage (hS' : S'.Consistent) (hw : FullStorage.Within S')
    (ho : (Osnma.new FullStorage root0 pk0 slow : Osnma C).Fresh FullStorage) (ho' : (Osnma.new S' root0 pk0 slow : Osnma C).Fresh S')
    (h : Logs FullStorage (Osnma.new FullStorage root0 pk0 slow) hist log o) (h' : Logs S' (Osnma.new S' root0 pk0 slow) hist log' o')
    (hord : CallsInOrder hist) {kd : NavKind} {v : Svn} {res res' : Option NavMessageData} (hd : o.get FullStorage kd v = .ok res)
    (hd' : o'.get S' kd v = .ok res') :
    log' = log ∧ (res' = res ∨ res = none ∧ ∃ d', res' = some d' ∧ 13 ≤ laterSubframes (inavsOf hist) d'.gst) := by
  have hall : ∀ v : Svn, v ∈ Svn.iter := Svn.mem_iter
  exact C81_documented_sizes_suffice (S := FullStorage) ⟨by decide, by decide, by decide, by decide, by decide⟩ hS' hw ho ho' h h' hord
    ⟨Svn.iter, by decide, fun c _ => hall c.svn⟩ (fun g => ⟨Svn.iter, by decide, fun p _ _ => hall p.svn⟩) (.inl ⟨by decide, by decide⟩) hd hd'

end Verif
