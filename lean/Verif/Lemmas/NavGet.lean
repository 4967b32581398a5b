import Verif.Lemmas.NavReach

/-! # Lemmas: the getters -/

namespace Verif
open CollectNavMessage

variable {S : Storage} {C : Crypto}

/-- The entry that the getters use: that of the most recently written subframe that has an entry of
the satellite with at least 40 authentication bits. -/
def bestEntry (L : List NavSlot) (kd : NavKind) (svn : Svn) : Option (Gst × NavItem) :=
  L.findSome? (fun s => ((s.items kd).find? (fun x => x.svn == some svn && decide (40 ≤ x.authbits))).map (fun x => (s.gst, x)))

/-- The value that the getters compute from an entry. -/
def resultOf (kd : NavKind) : Option (Gst × NavItem) → Res (Option NavMessageData)
  | none => .ok none
  | some (g, x) =>
    match g.addSubframes (-(x.minAge : Int)) with
    | .ok t => .ok (some ⟨x.messageBits kd.nbits, x.authbits, t⟩)
    | .panic w => .panic w

theorem search_eq {n : CollectNavMessage} {L : List NavSlot} (h : Rep S n L) (kd : NavKind) (svn : Svn) :
    search S (n.arr kd) n.gsts kd.nbits svn (searchOrder S n.writePointer) = resultOf kd (bestEntry L kd svn) := by
  have hl : (n.arr kd).length = S.navDepth * S.numSats := by cases kd; exact h.lc; exact h.lt
  have hs : ∀ k, k < S.navDepth → slotOf S.numSats (n.arr kd) (pos S.navDepth n.writePointer k)
    = (L[k]?.map (fun s => s.items kd)).getD (List.replicate S.numSats kd.newItem) := by
    intro k hk
    cases kd
    · exact h.ced k hk
    · exact h.timing k hk
  have gen : ∀ m k, k + m = S.navDepth →
      search S (n.arr kd) n.gsts kd.nbits svn ((List.range' k m).map (fun j => (S.navDepth + n.writePointer - j) % S.navDepth))
        = resultOf kd (bestEntry (L.drop k) kd svn) := by
    intro m
    induction m with
    | zero =>
      intro k hk
      have : L.drop k = [] := List.drop_eq_nil_of_le (by have := h.llen; omega)
      rw [this]; rfl
    | succ m ih =>
      intro k hk
      have hkd : k < S.navDepth := by omega
      have ih' := ih (k + 1) (by omega)
      simp only [List.range'_succ, List.map_cons, search]
      rw [pos_mod h.wp hkd]
      unfold slot
      rw [slice_slot hl (pos_lt h.wp hkd), hs k hkd]
      dsimp only
      cases hL : L[k]? with
      | none =>
        have hlen := List.getElem?_eq_none_iff.1 hL
        have hd1 : L.drop k = [] := List.drop_eq_nil_of_le hlen
        have hd2 : L.drop (k + 1) = [] := List.drop_eq_nil_of_le (by omega)
        rw [hd2] at ih'
        rw [hd1, Option.map_none, Option.getD_none]
        have : (List.replicate S.numSats kd.newItem).find? (fun x => x.svn == some svn && decide (x.authbits ≥ MIN_AUTHBITS)) = none := by
          rw [List.find?_eq_none]
          intro x hx
          rw [List.eq_of_mem_replicate hx, NavKind.newItem_svn]; simp
        rw [this]
        exact ih'
      | some s =>
        have hlen := (List.getElem?_eq_some_iff.1 hL).1
        have hd1 : L.drop k = s :: L.drop (k + 1) := by
          rw [List.drop_eq_getElem_cons hlen, (List.getElem?_eq_some_iff.1 hL).2]
        rw [hd1]
        simp only [Option.map_some, Option.getD_some]
        unfold bestEntry at ih' ⊢
        rw [List.findSome?_cons]
        have hf : (fun x : NavItem => x.svn == some svn && decide (x.authbits ≥ MIN_AUTHBITS))
            = (fun x => x.svn == some svn && decide (40 ≤ x.authbits)) := rfl
        rw [hf]
        cases hfind : (s.items kd).find? (fun x => x.svn == some svn && decide (40 ≤ x.authbits)) with
        | none => simp only [Option.map_none]; exact ih'
        | some x =>
          simp only [Option.map_some]
          have hg := h.gst k hkd
          rw [hL, Option.map_some, ← index_eq_ok] at hg
          rw [hg]
          simp only [Res.ok_bind, Res.unwrap_some, resultOf]
          cases s.gst.addSubframes (-(x.minAge : Int)) <;> rfl
  have := gen S.navDepth 0 (by omega)
  rw [List.drop_zero] at this
  rw [← this]
  unfold searchOrder
  rw [List.range_eq_range']

theorem get_eq {hist : List Call} {o : Osnma C} {L : List NavSlot} (h : NavInv S hist o L) (kd : NavKind) (svn : Svn) :
    o.get S kd svn = resultOf kd (bestEntry L kd svn) := by
  have := search_eq h.rep kd svn
  cases kd <;> exact this

theorem bestEntry_some {L : List NavSlot} {kd : NavKind} {svn : Svn} {g : Gst} {x : NavItem} (h : bestEntry L kd svn = some (g, x)) :
    ∃ (k : Nat) (s : NavSlot), L[k]? = some s ∧ s.gst = g ∧ x ∈ s.items kd ∧ x.svn = some svn ∧ 40 ≤ x.authbits ∧
      ∀ (j : Nat) (t : NavSlot), j < k → L[j]? = some t → ∀ y ∈ t.items kd, y.svn = some svn → y.authbits < 40 := by
  unfold bestEntry at h
  induction L with
  | nil => simp at h
  | cons s L ih =>
    rw [List.findSome?_cons] at h
    cases hf : (s.items kd).find? (fun x => x.svn == some svn && decide (40 ≤ x.authbits)) with
    | none =>
      rw [hf] at h
      obtain ⟨k, t, h1, h2, h3, h4, h5, h6⟩ := ih h
      refine ⟨k + 1, t, by simpa using h1, h2, h3, h4, h5, ?_⟩
      intro j u hj hu y hy hys
      cases j with
      | zero =>
        simp only [List.getElem?_cons_zero, Option.some.injEq] at hu
        subst hu
        have := List.find?_eq_none.1 hf y hy
        simp only [hys, BEq.rfl, Bool.true_and, decide_eq_true_eq] at this
        omega
      | succ j => exact h6 j u (by omega) (by simpa using hu) y hy hys
    | some y =>
      rw [hf] at h
      simp only [Option.map_some, Option.some.injEq, Prod.mk.injEq] at h
      obtain ⟨rfl, rfl⟩ := h
      have hy := List.find?_some hf
      simp only [Bool.and_eq_true, beq_iff_eq, decide_eq_true_eq] at hy
      exact ⟨0, s, rfl, rfl, List.mem_of_find?_eq_some hf, hy.1, hy.2, by intro j t hj; omega⟩

theorem bestEntry_none {L : List NavSlot} {kd : NavKind} {svn : Svn} :
    bestEntry L kd svn = none ↔ ∀ s ∈ L, ∀ y ∈ s.items kd, y.svn = some svn → y.authbits < 40 := by
  unfold bestEntry
  rw [List.findSome?_eq_none_iff]
  simp only [Option.map_eq_none_iff, List.find?_eq_none, Bool.and_eq_true, beq_iff_eq, decide_eq_true_eq, not_and, Nat.not_le]

theorem get_some {hist : List Call} {o : Osnma C} {L : List NavSlot} (h : NavInv S hist o L) {kd : NavKind} {svn : Svn}
    {d : NavMessageData} (hg : o.get S kd svn = .ok (some d)) :
    ∃ g x, bestEntry L kd svn = some (g, x) ∧ d.data = x.messageBits kd.nbits ∧ d.authbits = x.authbits ∧
      d.gst.abs = g.abs - 30 * (x.minAge : Int) := by
  rw [get_eq h] at hg
  unfold resultOf at hg
  split at hg
  · simp at hg
  · rename_i g x hb
    split at hg
    · rename_i t ht
      simp only [Res.ok.injEq, Option.some.injEq] at hg
      subst hg
      refine ⟨g, x, hb, rfl, rfl, ?_⟩
      have := (Gst.addSubframes_eq_ok.1 ht).2.2
      dsimp only; omega
    · cases hg

/-- Every slot of a reachable store is well formed. -/
theorem NavInv.good (hS : S.Consistent) {hist : List Call} {o : Osnma C} {L : List NavSlot} (h : NavInv S hist o L) (kd : NavKind)
    {s : NavSlot} (hs : s ∈ L) : NavSlot.Good S.numSats kd (s.items kd) := by
  have hm : s.core ∈ navRun S (inavsOf hist) := by rw [← h.core]; exact List.mem_map_of_mem hs
  obtain ⟨k, hk, he⟩ := List.mem_iff_getElem.1 hm
  obtain ⟨q, r, _, h2, _⟩ := navRun_slots (inavsOf hist) k s.core (by rw [List.getElem?_eq_getElem hk, he])
  have hg := navHead_good hS.sats_pos kd q s.core h2
  rw [NavSlot.core_items] at hg
  refine ⟨by simpa using hg.len, ?_, ?_⟩
  · intro x hx
    have := hg.wf x.core (List.mem_map_of_mem hx)
    exact ⟨this.data, this.age, this.le⟩
  · intro i j x y v hx hy hxv hyv
    exact hg.distinct i j x.core y.core v (by rw [List.getElem?_map, hx]; rfl) (by rw [List.getElem?_map, hy]; rfl) hxv hyv

/-- Each slot comes from a prefix of the `feed_inav` calls, up to the end of its subframe. -/
theorem NavInv.prefix {hist : List Call} {o : Osnma C} {L : List NavSlot} (h : NavInv S hist o L) {k : Nat} {s : NavSlot}
    (hs : L[k]? = some s) : ∃ q r, inavsOf hist = q ++ r ∧ navHead S q = some s.core ∧
      ((k = 0 ∧ r = []) ∨ (0 < k ∧ ∃ c r', r = c :: r' ∧ c.gst.subframe ≠ s.gst)) := by
  have : (navRun S (inavsOf hist))[k]? = some s.core := by rw [← h.core, List.getElem?_map, hs]; rfl
  exact navRun_slots (inavsOf hist) k s.core this

end Verif
