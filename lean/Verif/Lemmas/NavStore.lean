import Verif.Lemmas.NavItem
import Verif.Lemmas.Gst
import Verif.Spec.NavSpec

/-! # Refinement of the navigation message store -/

namespace Verif

/-- Chooses the location for a satellite and updates it. -/
def updSel (svn : Svn) (f : NavItem → NavItem) (s : List NavItem) : List NavItem :=
  match argmaxLast (s.map (NavItem.placeKey svn)) with
  | some (i, _) => s.modify i f
  | none => s

/-- Contents of the current slot before the update. -/
def NavSlot.base (n : Nat) (g : Gst) : Option NavSlot → NavSlot
  | none => ⟨g, List.replicate n NavItem.newCed, List.replicate n NavItem.newTiming⟩
  | some h => if h.gst = g then h else ⟨g, h.ced.map NavItem.older, h.timing.map NavItem.older⟩

/-- Contents of the current slot after a word. -/
def NavSlot.step (n : Nat) (h : Option NavSlot) (c : InavCall) : NavSlot :=
  let b := NavSlot.base n c.gst.subframe h
  ⟨c.gst.subframe, updSel c.svn (NavItem.feedUpd (NavItem.cedUpd c.word) c.svn) b.ced,
    updSel c.svn (NavItem.feedUpd (NavItem.timingUpd c.word c.band) c.svn) b.timing⟩

/-- The slots behind the current one. -/
def navTail (S : Storage) (g : Gst) : List NavSlot → List NavSlot
  | [] => []
  | h :: t => if h.gst = g then t else (h :: t).take (S.navDepth - 1)

/-- Abstract step of the store: list of slots, most recent first. -/
def navStep (S : Storage) (L : List NavSlot) (c : InavCall) : List NavSlot :=
  NavSlot.step S.numSats L.head? c :: navTail S c.gst.subframe L

theorem updSel_length (svn : Svn) (f : NavItem → NavItem) (s : List NavItem) :
    (updSel svn f s).length = s.length := by
  unfold updSel; split <;> simp

theorem updSel_nonempty {svn : Svn} {f : NavItem → NavItem} {s : List NavItem} (h : s ≠ []) :
    ∃ i m, argmaxLast (s.map (NavItem.placeKey svn)) = some (i, m) ∧ i < s.length ∧
      updSel svn f s = s.modify i f := by
  obtain ⟨i, m, h1, hi, _⟩ := argmaxLast_spec (l := s.map (NavItem.placeKey svn)) (by simpa using h)
  exact ⟨i, m, h1, by simpa using hi, by unfold updSel; rw [h1]⟩

theorem modify_eq_set {α : Type u} (f : α → α) (l : List α) (i : Nat) (h : i < l.length) :
    l.modify i f = l.set i (f l[i]) := by
  apply List.ext_getElem (by simp)
  intro j h1 h2
  simp only [List.getElem_modify, List.getElem_set]
  split
  · rename_i h; subst h; rfl
  · rfl

namespace NavSlot

theorem base_gst (n : Nat) (g : Gst) (h : Option NavSlot) : (base n g h).gst = g := by
  unfold base; split
  · rfl
  · split
    · assumption
    · rfl

/-- Sizes of a slot. -/
def Sized (n : Nat) (s : NavSlot) : Prop := s.ced.length = n ∧ s.timing.length = n

theorem base_sized (n : Nat) (g : Gst) (h : Option NavSlot) (hs : ∀ s, h = some s → s.Sized n) :
    (base n g h).Sized n := by
  unfold base
  split
  · exact ⟨by simp, by simp⟩
  · rename_i h
    have := hs h rfl
    split
    · exact this
    · exact ⟨by simpa using this.1, by simpa using this.2⟩

theorem step_sized (n : Nat) (h : Option NavSlot) (c : InavCall) (hs : ∀ s, h = some s → s.Sized n) :
    (step n h c).Sized n := by
  have := base_sized n c.gst.subframe h hs
  exact ⟨by simp [step, updSel_length, this.1], by simp [step, updSel_length, this.2]⟩

end NavSlot

namespace CollectNavMessage

/-- The store represents the list of slots. -/
structure Rep (S : Storage) (n : CollectNavMessage) (L : List NavSlot) : Prop where
  lc : n.ced.length = S.navDepth * S.numSats
  lt : n.timing.length = S.navDepth * S.numSats
  lg : n.gsts.length = S.navDepth
  wp : n.writePointer < S.navDepth
  llen : L.length ≤ S.navDepth
  sized : ∀ s ∈ L, s.Sized S.numSats
  gst : ∀ k, k < S.navDepth → n.gsts[pos S.navDepth n.writePointer k]? = some (L[k]?.map (·.gst))
  ced : ∀ k, k < S.navDepth → slotOf S.numSats n.ced (pos S.navDepth n.writePointer k)
    = (L[k]?.map (·.ced)).getD (List.replicate S.numSats NavItem.newCed)
  timing : ∀ k, k < S.navDepth → slotOf S.numSats n.timing (pos S.navDepth n.writePointer k)
    = (L[k]?.map (·.timing)).getD (List.replicate S.numSats NavItem.newTiming)

variable {S : Storage} (hS : S.Consistent)
include hS

theorem rep_new : Rep S (.new S) [] := by
  have hd := hS.nav_pos
  refine ⟨by simp [new, hS.nav_prod], by simp [new, hS.nav_prod], by simp [new], hd, by simp, by simp, ?_, ?_, ?_⟩
  · intro k hk
    have := pos_lt hd hk
    simp [new, this]
  · intro k hk
    have := pos_lt hd hk
    simp only [new, hS.nav_prod]
    rw [slotOf_replicate _ this]; simp
  · intro k hk
    have := pos_lt hd hk
    simp only [new, hS.nav_prod]
    rw [slotOf_replicate _ this]; simp

theorem adjust_rep {n : CollectNavMessage} {L : List NavSlot} (h : Rep S n L) (g : Gst) :
    ∃ n', adjustWritePointer S n g = .ok n' ∧
      Rep S n' (NavSlot.base S.numSats g L.head? :: navTail S g L) := by
  have hd := hS.nav_pos
  have h0 := h.gst 0 hd
  rw [pos_zero] at h0
  unfold adjustWritePointer
  rw [← index_eq_ok] at h0
  simp only [h0, Res.ok_bind]
  cases L with
  | nil =>
    simp only [navTail, List.getElem?_nil, Option.map_none, Res.pure_eq, Res.ok_bind]
    rw [setIndex_ok (by rw [h.lg]; exact h.wp)]
    refine ⟨_, rfl, ?_⟩
    refine ⟨h.lc, h.lt, by simp [h.lg], h.wp, by simp; omega, ?_, ?_, ?_, ?_⟩
    · intro s hs
      simp only [List.head?_nil, List.mem_singleton] at hs
      subst hs
      exact NavSlot.base_sized _ _ _ (by simp)
    · intro k hk
      by_cases hk0 : k = 0
      · subst hk0
        rw [pos_zero]
        simp [h.lg, h.wp, NavSlot.base]
      · have hne : n.writePointer ≠ pos S.navDepth n.writePointer k := by
          intro hc
          exact hk0 (pos_inj (d := S.navDepth) (wp := n.writePointer) hk hd (by rw [pos_zero]; omega))
        have := h.gst k hk
        simp only [List.getElem?_set_ne hne, this]
        cases k with
        | zero => exact absurd rfl hk0
        | succ k => simp
    · intro k hk
      rw [h.ced k hk]
      cases k with
      | zero => simp [NavSlot.base]
      | succ k => simp
    · intro k hk
      rw [h.timing k hk]
      cases k with
      | zero => simp [NavSlot.base]
      | succ k => simp
  | cons x rest =>
    simp only [navTail, List.getElem?_cons_zero, Option.map_some]
    by_cases hg : x.gst = g
    · subst hg
      simp only [ne_eq, not_true_eq_false, if_false, Res.pure_eq, Res.ok_bind, if_true]
      rw [setIndex_ok (by rw [h.lg]; exact h.wp)]
      refine ⟨_, rfl, ?_⟩
      have hb : NavSlot.base S.numSats x.gst (x :: rest).head? = x := by simp [NavSlot.base]
      rw [hb]
      refine ⟨h.lc, h.lt, by simp [h.lg], h.wp, h.llen, h.sized, ?_, h.ced, h.timing⟩
      intro k hk
      by_cases hk0 : n.writePointer = pos S.navDepth n.writePointer k
      · have : k = 0 := pos_inj (d := S.navDepth) (wp := n.writePointer) hk hd (by rw [pos_zero]; omega)
        subst this
        rw [pos_zero]
        simp [h.lg, h.wp]
      · simp only [List.getElem?_set_ne hk0, h.gst k hk]
    · simp only [ne_eq, hg, not_false_eq_true, if_true, if_false]
      have hwp' : (n.writePointer + 1) % S.navDepth < S.navDepth := Nat.mod_lt _ hd
      have hsz := h.sized x (by simp)
      have hc0 := h.ced 0 hd
      have ht0 := h.timing 0 hd
      rw [pos_zero] at hc0 ht0
      simp only [List.getElem?_cons_zero, Option.map_some, Option.getD_some] at hc0 ht0
      unfold copySlot ageSlot slot
      rw [slice_slot h.lc h.wp, slice_slot h.lt h.wp, hc0, ht0]
      simp only [Res.ok_bind]
      rw [writeSlice_slot h.lc hwp' hsz.1, writeSlice_slot h.lt hwp' hsz.2]
      have l1 := setSlot_length h.lc hwp' hsz.1
      have l2 := setSlot_length h.lt hwp' hsz.2
      simp only [Res.ok_bind]
      rw [slice_slot l1 hwp', slice_slot l2 hwp', slotOf_setSlot_self h.lc hwp' hsz.1,
        slotOf_setSlot_self h.lt hwp' hsz.2]
      simp only [Res.ok_bind]
      rw [writeSlice_slot l1 hwp' (by simpa using hsz.1), writeSlice_slot l2 hwp' (by simpa using hsz.2)]
      simp only [Res.ok_bind, Res.pure_eq]
      rw [setIndex_ok (by rw [h.lg]; exact hwp')]
      refine ⟨_, rfl, ?_⟩
      have hb : NavSlot.base S.numSats g (x :: rest).head? = ⟨g, x.ced.map NavItem.older, x.timing.map NavItem.older⟩ := by
        simp [NavSlot.base, hg]
      rw [hb]
      have hL' : ∀ k, k + 1 < S.navDepth →
          (((⟨g, x.ced.map NavItem.older, x.timing.map NavItem.older⟩ : NavSlot) ::
            (x :: rest).take (S.navDepth - 1))[k + 1]? = (x :: rest)[k]?) := by
        intro k hk
        rw [List.getElem?_cons_succ, List.getElem?_take_of_lt (by omega)]
      have hne : ∀ k, k + 1 < S.navDepth → pos S.navDepth ((n.writePointer + 1) % S.navDepth) (k+1) ≠ (n.writePointer + 1) % S.navDepth := by
        intro k hk hc
        have := pos_inj (d := S.navDepth) (wp := (n.writePointer + 1) % S.navDepth) (k := 0) (k' := k + 1) hd hk (by rw [pos_zero]; exact hc.symm)
        omega
      refine ⟨setSlot_length l1 hwp' (by simpa using hsz.1), setSlot_length l2 hwp' (by simpa using hsz.2),
        by simp [h.lg], hwp', ?_, ?_, ?_, ?_, ?_⟩
      · simp only [List.length_cons, List.length_take]; omega
      · intro s hs
        rcases List.mem_cons.1 hs with rfl | hs'
        · exact ⟨by simpa using hsz.1, by simpa using hsz.2⟩
        · exact h.sized s (List.mem_of_mem_take hs')
      · intro k hk
        cases k with
        | zero => simp only [pos_zero]; simp [h.lg, hwp']
        | succ k =>
          rw [hL' k hk]
          dsimp only
          rw [List.getElem?_set_ne (hne k hk).symm, pos_succ h.wp hk, h.gst k (by omega)]
      · intro k hk
        cases k with
        | zero =>
          dsimp only
          rw [pos_zero, slotOf_setSlot_self l1 hwp' (by simpa using hsz.1)]; simp
        | succ k =>
          rw [hL' k hk]
          dsimp only
          rw [slotOf_setSlot_ne l1 hwp' (by simpa using hsz.1) (hne k hk) (pos_lt hwp' hk),
            slotOf_setSlot_ne h.lc hwp' hsz.1 (hne k hk) (pos_lt hwp' hk), pos_succ h.wp hk, h.ced k (by omega)]
      · intro k hk
        cases k with
        | zero =>
          dsimp only
          rw [pos_zero, slotOf_setSlot_self l2 hwp' (by simpa using hsz.2)]; simp
        | succ k =>
          rw [hL' k hk]
          dsimp only
          rw [slotOf_setSlot_ne l2 hwp' (by simpa using hsz.2) (hne k hk) (pos_lt hwp' hk),
            slotOf_setSlot_ne h.lt hwp' hsz.2 (hne k hk) (pos_lt hwp' hk), pos_succ h.wp hk, h.timing k (by omega)]

theorem updateSelected_ok {arr : List NavItem} {wp : Nat} {s : List NavItem}
    (hl : arr.length = S.navDepth * S.numSats) (hwp : wp < S.navDepth)
    (hs : slotOf S.numSats arr wp = s) (svn : Svn) (f : NavItem → NavItem) :
    updateSelected S arr wp svn f = .ok (setSlot S.numSats arr wp (updSel svn f s)) := by
  have hsl : s.length = S.numSats := by rw [← hs]; exact slotOf_length hl hwp
  have hne : s ≠ [] := by
    intro h; subst h
    have := hS.sats_pos
    simp at hsl; omega
  obtain ⟨i, m, h1, h2, h3⟩ := updSel_nonempty (svn := svn) (f := f) hne
  unfold updateSelected slot
  rw [slice_slot hl hwp, hs]
  simp only [Res.ok_bind, h1, Res.unwrap_some]
  rw [index_ok h2]
  simp only [Res.ok_bind]
  rw [setIndex_ok h2]
  simp only [Res.ok_bind]
  rw [writeSlice_slot hl hwp (by simpa using hsl), h3, modify_eq_set f s i h2]

/-- `feed` never panics and refines the abstract step. -/
theorem feed_rep {n : CollectNavMessage} {L : List NavSlot} (h : Rep S n L) (c : InavCall) :
    ∃ n', feed S n c.word c.svn c.gst c.band = .ok n' ∧ Rep S n' (navStep S L c) := by
  obtain ⟨n1, h1, h2⟩ := adjust_rep hS h c.gst.subframe
  have hd := hS.nav_pos
  have hs := hS.sats_pos
  unfold feed
  simp only [h1, Res.ok_bind]
  have hc0 := h2.ced 0 hd
  have ht0 := h2.timing 0 hd
  rw [pos_zero] at hc0 ht0
  simp only [List.getElem?_cons_zero, Option.map_some, Option.getD_some] at hc0 ht0
  rw [updateSelected_ok hS h2.lc h2.wp hc0]
  simp only [Res.ok_bind]
  rw [updateSelected_ok hS h2.lt h2.wp ht0]
  simp only [Res.ok_bind, Res.pure_eq]
  refine ⟨_, rfl, ?_⟩
  have hb := h2.sized _ (List.mem_cons_self ..)
  have hfc : (fun x : NavItem => x.feedCed c.word c.svn) = NavItem.feedUpd (NavItem.cedUpd c.word) c.svn := by
    funext x; exact NavItem.feedCed_eq x c.word c.svn
  have hft : (fun x : NavItem => x.feedTiming c.word c.svn c.band) = NavItem.feedUpd (NavItem.timingUpd c.word c.band) c.svn := by
    funext x; exact NavItem.feedTiming_eq x c.word c.svn c.band
  rw [hfc, hft]
  have hne : ∀ k, k + 1 < S.navDepth → pos S.navDepth n1.writePointer (k+1) ≠ n1.writePointer := by
    intro k hk hc
    have := pos_inj (d := S.navDepth) (wp := n1.writePointer) (k := 0) (k' := k + 1) hd hk (by rw [pos_zero]; exact hc.symm)
    omega
  have hlc : ∀ f, (updSel c.svn f (NavSlot.base S.numSats c.gst.subframe L.head?).ced).length = S.numSats := by
    intro f; rw [updSel_length]; exact hb.1
  have hlt : ∀ f, (updSel c.svn f (NavSlot.base S.numSats c.gst.subframe L.head?).timing).length = S.numSats := by
    intro f; rw [updSel_length]; exact hb.2
  unfold navStep
  refine ⟨setSlot_length h2.lc h2.wp (hlc _), setSlot_length h2.lt h2.wp (hlt _), h2.lg, h2.wp, ?_, ?_, ?_, ?_, ?_⟩
  · have := h2.llen; simpa using this
  · intro s hs
    rcases List.mem_cons.1 hs with rfl | hs'
    · exact ⟨hlc _, hlt _⟩
    · exact h2.sized s (List.mem_cons_of_mem _ hs')
  · intro k hk
    have := h2.gst k hk
    cases k with
    | zero =>
      rw [this]
      simp [NavSlot.base_gst, NavSlot.step]
    | succ k => rw [this]; simp
  · intro k hk
    cases k with
    | zero =>
      simp only [pos_zero]
      rw [slotOf_setSlot_self h2.lc h2.wp (hlc _)]; simp [NavSlot.step]
    | succ k =>
      dsimp only
      rw [slotOf_setSlot_ne h2.lc h2.wp (hlc _) (hne k hk) (pos_lt h2.wp hk), h2.ced (k+1) hk]
      simp
  · intro k hk
    cases k with
    | zero =>
      simp only [pos_zero]
      rw [slotOf_setSlot_self h2.lt h2.wp (hlt _)]; simp [NavSlot.step]
    | succ k =>
      dsimp only
      rw [slotOf_setSlot_ne h2.lt h2.wp (hlt _) (hne k hk) (pos_lt h2.wp hk), h2.timing (k+1) hk]
      simp

omit hS in
/-- A change of the items that leaves unassigned items alone. -/
theorem map_rep {n : CollectNavMessage} {L : List NavSlot} (h : Rep S n L) (f g : NavItem → NavItem)
    (hf : f NavItem.newCed = NavItem.newCed) (hg : g NavItem.newTiming = NavItem.newTiming) :
    Rep S { n with ced := n.ced.map f, timing := n.timing.map g }
      (L.map (fun s => ⟨s.gst, s.ced.map f, s.timing.map g⟩)) := by
  refine ⟨by simp [h.lc], by simp [h.lt], h.lg, h.wp, by simpa using h.llen, ?_, ?_, ?_, ?_⟩
  · intro s hs
    obtain ⟨s', h1, rfl⟩ := List.mem_map.1 hs
    have := h.sized s' h1
    exact ⟨by simpa using this.1, by simpa using this.2⟩
  · intro k hk
    rw [h.gst k hk]
    simp only [List.getElem?_map, Option.map_map]; rfl
  · intro k hk
    dsimp only
    rw [slotOf_map, h.ced k hk, List.getElem?_map]
    cases L[k]? with
    | none => simp [hf, -List.reduceReplicate]
    | some s => simp
  · intro k hk
    dsimp only
    rw [slotOf_map, h.timing k hk, List.getElem?_map]
    cases L[k]? with
    | none => simp [hg, -List.reduceReplicate]
    | some s => simp

end CollectNavMessage
end Verif
