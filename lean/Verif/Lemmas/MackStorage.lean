import Verif.Spec.MackSpec
import Verif.Prelude.Slots
import Verif.Lemmas.Subframe

/-! # Lemmas on `MackStorage` -/

namespace Verif
namespace MackStorage

/-- One slot of the store: its subframe and the messages in it. -/
abbrev Slot := Gst × List StoredMack

/-- Abstract state: the slots, most recent first. -/
def astep (S : Storage) (L : List Slot) (c : MackCall) : List Slot :=
  match L with
  | [] => [(c.gst, [⟨c.mack, c.svn, c.status⟩])]
  | (g, xs) :: rest =>
    if g = c.gst then
      (g, if xs.length < S.numSats then xs ++ [⟨c.mack, c.svn, c.status⟩] else xs) :: rest
    else ((c.gst, [⟨c.mack, c.svn, c.status⟩]) :: L).take S.mackDepth

/-- Contents of a slot with its free locations. -/
def fill (n : Nat) (xs : List StoredMack) : List (Option StoredMack) :=
  xs.map some ++ List.replicate (n - xs.length) none

/-- The store represents the abstract state. -/
structure Rep (S : Storage) (m : MackStorage) (L : List Slot) : Prop where
  lm : m.macks.length = S.mackDepth * S.numSats
  lg : m.gsts.length = S.mackDepth
  wp : m.writePointer < S.mackDepth
  le : ∀ x ∈ L, x.2.length ≤ S.numSats
  llen : L.length ≤ S.mackDepth
  gst : ∀ k, k < S.mackDepth → m.gsts[pos S.mackDepth m.writePointer k]? = some (L[k]?.map (·.1))
  slot : ∀ k, k < S.mackDepth →
    slotOf S.numSats m.macks (pos S.mackDepth m.writePointer k)
      = fill S.numSats ((L[k]?.map (·.2)).getD [])

theorem fill_length {n : Nat} {xs : List StoredMack} (h : xs.length ≤ n) : (fill n xs).length = n := by
  simp [fill]; omega

theorem putFirstFree_fill (n : Nat) (x : StoredMack) (xs : List StoredMack) (h : xs.length ≤ n) :
    putFirstFree x (fill n xs) = fill n (if xs.length < n then xs ++ [x] else xs) := by
  unfold fill
  induction xs generalizing n with
  | nil =>
    cases n with
    | zero => simp [putFirstFree]
    | succ n => simp [putFirstFree, List.replicate_succ]
  | cons y ys ih =>
    cases n with
    | zero => simp at h
    | succ n =>
      have := ih n (by simpa using h)
      simp only [List.map_cons, List.cons_append, putFirstFree, List.length_cons, Nat.add_sub_add_right,
        this, Nat.add_lt_add_iff_right]
      split <;> simp

theorem putFirstFree_length (x : StoredMack) (l : List (Option StoredMack)) :
    (putFirstFree x l).length = l.length := by
  induction l with
  | nil => rfl
  | cons y l ih => cases y <;> simp [putFirstFree, ih]

variable {S : Storage} (hS : S.Consistent)
include hS

theorem rep_new : Rep S (.new S) [] := by
  refine ⟨by simp [new, hS.mack_prod], by simp [new], hS.mack_pos, by simp, by simp, ?_, ?_⟩
  · intro k hk
    have := pos_lt hS.mack_pos hk
    simp [new, this]
  · intro k hk
    have := pos_lt hS.mack_pos hk
    simp only [new, hS.mack_prod]
    rw [slotOf_replicate _ this]
    simp [fill]

/-- Opening of a fresh slot in the abstract state (`none` slot contents yet). -/
theorem adjust_rep {m : MackStorage} {L : List Slot} (h : Rep S m L) (g : Gst) :
    ∃ m' L', adjustWritePointer S m g = .ok m' ∧ Rep S m' L' ∧
      L' = (match L with
        | [] => [(g, [])]
        | (g0, xs) :: rest => if g0 = g then (g0, xs) :: rest else ((g, []) :: L).take S.mackDepth) := by
  have hd := hS.mack_pos
  have h0 := h.gst 0 hd
  rw [pos_zero] at h0
  unfold adjustWritePointer
  rw [← index_eq_ok] at h0
  simp only [h0, Res.ok_bind]
  cases L with
  | nil =>
    simp only [List.getElem?_nil, Option.map_none, Res.pure_eq, Res.ok_bind]
    rw [setIndex_ok (by rw [h.lg]; exact h.wp)]
    refine ⟨_, _, rfl, ?_, rfl⟩
    refine ⟨h.lm, by simp [h.lg], h.wp, by simp, by simp; omega, ?_, ?_⟩
    · intro k hk
      by_cases hk0 : k = 0
      · subst hk0
        rw [pos_zero]
        simp [h.lg, h.wp]
      · have hne : m.writePointer ≠ pos S.mackDepth m.writePointer k := by
          intro hc
          exact hk0 (pos_inj (d := S.mackDepth) (wp := m.writePointer) hk hd (by rw [pos_zero]; omega))
        have := h.gst k hk
        simp only [List.getElem?_set_ne hne, this]
        cases k with
        | zero => exact absurd rfl hk0
        | succ k => simp
    · intro k hk
      rw [h.slot k hk]
      cases k with
      | zero => simp
      | succ k => simp
  | cons x rest =>
    obtain ⟨g0, xs⟩ := x
    simp only [List.getElem?_cons_zero, Option.map_some]
    by_cases hg : g0 = g
    · subst hg
      simp only [ne_eq, not_true_eq_false, if_false, Res.pure_eq, Res.ok_bind, if_true]
      rw [setIndex_ok (by rw [h.lg]; exact h.wp)]
      refine ⟨_, _, rfl, ?_, rfl⟩
      refine ⟨h.lm, by simp [h.lg], h.wp, h.le, h.llen, ?_, h.slot⟩
      intro k hk
      by_cases hk0 : m.writePointer = pos S.mackDepth m.writePointer k
      · have : k = 0 := pos_inj (d := S.mackDepth) (wp := m.writePointer) hk hd (by rw [pos_zero]; omega)
        subst this
        rw [pos_zero]
        simp [h.lg, h.wp]
      · simp only [List.getElem?_set_ne hk0, h.gst k hk]
    · simp only [ne_eq, hg, not_false_eq_true, if_true, if_false]
      have hwp' : (m.writePointer + 1) % S.mackDepth < S.mackDepth := Nat.mod_lt _ hd
      rw [slice_slot h.lm hwp']
      simp only [Res.ok_bind]
      have hsl := slotOf_length h.lm hwp'
      rw [writeSlice_slot h.lm hwp' (by simp [hsl])]
      simp only [Res.ok_bind, Res.pure_eq]
      rw [setIndex_ok (by rw [h.lg]; exact hwp')]
      refine ⟨_, _, rfl, ?_, rfl⟩
      have hL' : ∀ k, k + 1 < S.mackDepth →
          ((((g, []) :: (g0, xs) :: rest).take S.mackDepth)[k + 1]? = ((g0, xs) :: rest)[k]?) := by
        intro k hk
        rw [List.getElem?_take_of_lt hk]; rfl
      have hL0 : (((g, []) :: (g0, xs) :: rest).take S.mackDepth)[0]? = some (g, []) := by
        rw [List.getElem?_take_of_lt hd]; rfl
      refine ⟨?_, by simp [h.lg], hwp', ?_, ?_, ?_, ?_⟩
      · exact setSlot_length h.lm hwp' (by simp [hsl])
      · intro x hx
        have := List.mem_of_mem_take hx
        rcases List.mem_cons.1 this with rfl | hx'
        · simp
        · exact h.le x hx'
      · simp only [List.length_take]; omega
      · intro k hk
        cases k with
        | zero =>
          rw [hL0]; simp only [pos_zero]
          simp [h.lg, hwp']
        | succ k =>
          rw [hL' k hk]
          dsimp only
          have hne : (m.writePointer + 1) % S.mackDepth ≠ pos S.mackDepth ((m.writePointer + 1) % S.mackDepth) (k+1) := by
            intro hc
            have := pos_inj (d := S.mackDepth) (wp := (m.writePointer + 1) % S.mackDepth) (k := 0) (k' := k + 1) hd hk (by rw [pos_zero]; exact hc)
            omega
          rw [List.getElem?_set_ne hne, pos_succ h.wp hk, h.gst k (by omega)]
      · intro k hk
        cases k with
        | zero =>
          rw [hL0]
          dsimp only
          rw [pos_zero, slotOf_setSlot_self h.lm hwp' (by simp [hsl])]
          simp only [fill, Option.map_some, Option.getD_some, List.map_nil, List.length_nil, Nat.sub_zero, List.nil_append]
          rw [List.map_const', hsl]
        | succ k =>
          rw [hL' k hk]
          dsimp only
          have hne : pos S.mackDepth ((m.writePointer + 1) % S.mackDepth) (k+1) ≠ (m.writePointer + 1) % S.mackDepth := by
            intro hc
            have := pos_inj (d := S.mackDepth) (wp := (m.writePointer + 1) % S.mackDepth) (k := 0) (k' := k + 1) hd hk (by rw [pos_zero]; exact hc.symm)
            omega
          rw [slotOf_setSlot_ne h.lm hwp' (by simp [hsl]) hne (pos_lt hwp' hk), pos_succ h.wp hk, h.slot k (by omega)]

/-- `store` never panics and refines the abstract step. -/
theorem store_rep {m : MackStorage} {L : List Slot} (h : Rep S m L) (c : MackCall) :
    ∃ m', m.store S c.mack c.svn c.gst c.status = .ok m' ∧ Rep S m' (astep S L c) := by
  obtain ⟨m1, L1, h1, h2, h3⟩ := adjust_rep hS h c.gst
  have hd := hS.mack_pos
  have hs := hS.sats_pos
  unfold store
  simp only [h1, Res.ok_bind]
  rw [slice_slot h2.lm h2.wp]
  simp only [Res.ok_bind]
  -- the current slot
  obtain ⟨g, xs, rest, hL1, hL⟩ : ∃ g xs rest, L1 = (g, xs) :: rest ∧
      astep S L c = (g, if xs.length < S.numSats then xs ++ [⟨c.mack, c.svn, c.status⟩] else xs) :: rest := by
    rw [h3]
    cases L with
    | nil => exact ⟨c.gst, [], [], rfl, by simp [astep, hs]⟩
    | cons x rest =>
      obtain ⟨g0, xs⟩ := x
      by_cases hg : g0 = c.gst
      · exact ⟨g0, xs, rest, by simp [hg], by simp [astep, hg]⟩
      · refine ⟨c.gst, [], ((g0, xs) :: rest).take (S.mackDepth - 1), ?_, ?_⟩
        · simp only [hg, if_false]
          rw [show S.mackDepth = (S.mackDepth - 1) + 1 by omega, List.take_succ_cons]; simp
        · simp only [astep, hg, if_false]
          rw [show S.mackDepth = (S.mackDepth - 1) + 1 by omega, List.take_succ_cons]
          simp [hs]
  have hxs : xs.length ≤ S.numSats := h2.le (g, xs) (by rw [hL1]; simp)
  have hcur := h2.slot 0 hd
  rw [pos_zero, hL1] at hcur
  simp only [List.getElem?_cons_zero, Option.map_some, Option.getD_some] at hcur
  rw [hcur, putFirstFree_fill _ _ _ hxs]
  generalize hxs' : (if xs.length < S.numSats then xs ++ [(⟨c.mack, c.svn, c.status⟩ : StoredMack)] else xs) = xs' at *
  have hxs'l : xs'.length ≤ S.numSats := by
    rw [← hxs']; split
    · simp; omega
    · exact hxs
  rw [writeSlice_slot h2.lm h2.wp (fill_length hxs'l)]
  simp only [Res.ok_bind, Res.pure_eq]
  refine ⟨_, rfl, ?_⟩
  rw [hL]
  have hlen := h2.llen
  rw [hL1] at hlen
  refine ⟨setSlot_length h2.lm h2.wp (fill_length hxs'l), h2.lg, h2.wp, ?_, by simpa using hlen, ?_, ?_⟩
  · intro x hx
    rcases List.mem_cons.1 hx with rfl | hx'
    · exact hxs'l
    · exact h2.le x (by rw [hL1]; exact List.mem_cons_of_mem _ hx')
  · intro k hk
    have := h2.gst k hk
    rw [hL1] at this
    cases k with
    | zero => simpa using this
    | succ k => simpa using this
  · intro k hk
    cases k with
    | zero =>
      simp only [pos_zero]
      rw [slotOf_setSlot_self h2.lm h2.wp (fill_length hxs'l)]; simp
    | succ k =>
      dsimp only
      have hne : pos S.mackDepth m1.writePointer (k+1) ≠ m1.writePointer := by
        intro hc
        have := pos_inj (d := S.mackDepth) (wp := m1.writePointer) (k := 0) (k' := k + 1) hd hk (by rw [pos_zero]; exact hc.symm)
        omega
      rw [slotOf_setSlot_ne h2.lm h2.wp (fill_length hxs'l) hne (pos_lt h2.wp hk), h2.slot (k+1) hk, hL1]
      simp

/-- Abstract state after a history. -/
def aAfter (S : Storage) (hist : List MackCall) : List Slot := hist.foldl (astep S) []

theorem storeMacks_rep (hist : List MackCall) :
    ∃ m, storeMacks S hist = .ok m ∧ Rep S m (aAfter S hist) := by
  have key : ∀ (m : MackStorage) (L : List Slot), Rep S m L →
      ∃ m', loopM (fun m c => m.store S c.mack c.svn c.gst c.status) hist m = .ok m' ∧
        Rep S m' (hist.foldl (astep S) L) := by
    induction hist with
    | nil => intro m L h; exact ⟨m, rfl, h⟩
    | cons c hist ih =>
      intro m L h
      obtain ⟨m1, h1, h2⟩ := store_rep hS h c
      obtain ⟨m2, h3, h4⟩ := ih m1 _ h2
      exact ⟨m2, by rw [loopM_cons, h1]; exact h3, h4⟩
  exact key _ _ (rep_new hS)

omit hS in
theorem findSome_fill (n : Nat) (xs : List StoredMack) (svn : Svn) :
    (fill n xs).findSome? (fun x => match x with
      | some y => if y.svn = svn then some (y.message, y.nmaStatus) else none
      | none => none)
    = (xs.find? (fun y => y.svn == svn)).map (fun y => (y.message, y.nmaStatus)) := by
  unfold fill
  induction xs generalizing n with
  | nil =>
    simp only [List.map_nil, List.nil_append, List.find?_nil, Option.map_none]
    rw [List.findSome?_eq_none_iff]
    intro x hx
    rw [List.eq_of_mem_replicate hx]
  | cons y ys ih =>
    simp only [List.map_cons, List.cons_append, List.findSome?_cons]
    by_cases h : y.svn = svn
    · simp [h]
    · have := ih (n - 1)
      simp only [h, if_false]
      rw [List.find?_cons_of_neg (by simpa using h)]
      rw [← this]
      simp only [List.length_cons]
      congr 3; omega

omit hS in
/-- `get` in terms of the abstract state: it answers from *some* slot of this subframe, and there is
one if and only if the subframe is in the abstract state. -/
theorem get_rep {m : MackStorage} {L : List Slot} (h : Rep S m L) (svn : Svn) (gst : Gst) :
    (gst ∉ L.map (·.1) ∧ m.get S svn gst = .ok none) ∨
      ∃ xs, (gst, xs) ∈ L ∧ m.get S svn gst =
        .ok ((xs.find? (fun y => y.svn == svn)).map (fun y => (y.message, y.nmaStatus))) := by
  unfold get
  cases hf : m.gsts.findIdx? (fun g => g == some gst) with
  | none =>
    left
    refine ⟨?_, rfl⟩
    intro hmem
    obtain ⟨x, hx, hxg⟩ := List.mem_map.1 hmem
    obtain ⟨k, hk⟩ := List.mem_iff_getElem?.1 hx
    have hkd : k < S.mackDepth := by
      have := (List.getElem?_eq_some_iff.1 hk).1
      have := h.llen; omega
    have hg := h.gst k hkd
    rw [hk] at hg
    simp only [Option.map_some, hxg] at hg
    rw [List.findIdx?_eq_none_iff] at hf
    have := hf _ (List.mem_of_getElem? hg)
    simp at this
  | some i =>
    right
    obtain ⟨hi, hg, _⟩ := List.findIdx?_eq_some_iff_getElem.1 hf
    simp only [beq_iff_eq] at hg
    have hid : i < S.mackDepth := by rw [← h.lg]; exact hi
    obtain ⟨k, hk, hpos⟩ := pos_surj h.wp hid
    have hgk := h.gst k hk
    rw [hpos, List.getElem?_eq_getElem hi, hg] at hgk
    simp only [Option.some.injEq] at hgk
    cases hLk : L[k]? with
    | none => rw [hLk] at hgk; cases hgk
    | some x =>
      obtain ⟨g, xs⟩ := x
      rw [hLk] at hgk
      simp only [Option.map_some, Option.some.injEq] at hgk
      subst hgk
      refine ⟨xs, List.mem_of_getElem? hLk, ?_⟩
      simp only
      rw [slice_slot h.lm hid]
      simp only [Res.ok_bind, Res.pure_eq]
      have hs := h.slot k hk
      rw [hpos, hLk] at hs
      simp only [Option.map_some, Option.getD_some] at hs
      rw [hs]
      exact congrArg Res.ok (findSome_fill S.numSats xs svn)

omit hS in
/-- Everything in the abstract state was stored. -/
theorem aAfter_mem (hist : List MackCall) :
    ∀ x ∈ aAfter S hist, ∀ y ∈ x.2, (⟨y.message, y.svn, x.1, y.nmaStatus⟩ : MackCall) ∈ hist := by
  induction hist using CollectSubframe.snoc_induction with
  | h0 => simp [aAfter]
  | h1 hist c ih =>
    have e : aAfter S (hist ++ [c]) = astep S (aAfter S hist) c := by simp [aAfter]
    rw [e]
    intro x hx y hy
    generalize hL : aAfter S hist = L at *
    cases L with
    | nil =>
      simp only [astep, List.mem_singleton] at hx
      subst hx
      simp only [List.mem_singleton] at hy
      subst hy; simp
    | cons z rest =>
      obtain ⟨g, xs⟩ := z
      simp only [astep] at hx
      split at hx
      · rename_i hg
        rcases List.mem_cons.1 hx with rfl | hx'
        · dsimp only at hy ⊢
          split at hy
          · rcases List.mem_append.1 hy with h | h
            · exact List.mem_append_left _ (ih (g, xs) (by simp) y h)
            · simp only [List.mem_singleton] at h; subst h; subst hg; simp
          · exact List.mem_append_left _ (ih (g, xs) (by simp) y hy)
        · exact List.mem_append_left _ (ih x (List.mem_cons_of_mem _ hx') y hy)
      · rcases List.mem_cons.1 (List.mem_of_mem_take hx) with rfl | hx'
        · simp only [List.mem_singleton] at hy
          subst hy; simp
        · exact List.mem_append_left _ (ih x hx' y hy)

/-- For chronological histories the abstract state is the list of the last distinct subframes, each
with the first messages stored for it. -/
theorem aAfter_chron (hist : List MackCall)
    (hchr : hist.Pairwise (fun a b => a.gst.abs ≤ b.gst.abs)) :
    aAfter S hist = ((recentGsts hist).take S.mackDepth).map (fun g =>
      (g, ((hist.filter (fun c => c.gst == g)).take S.numSats).map
        (fun c => (⟨c.mack, c.svn, c.status⟩ : StoredMack)))) := by
  have hs := hS.sats_pos
  have hd := hS.mack_pos
  induction hist using CollectSubframe.snoc_induction with
  | h0 => simp [aAfter, recentGsts]
  | h1 hist c ih =>
    have e : aAfter S (hist ++ [c]) = astep S (aAfter S hist) c := by simp [aAfter]
    rw [List.pairwise_append] at hchr
    obtain ⟨hchr1, _, hchr2⟩ := hchr
    have ih := ih hchr1
    have hle : ∀ a ∈ hist, a.gst.abs ≤ c.gst.abs := fun a ha => hchr2 a ha c (by simp)
    rw [e, ih]
    rcases List.eq_nil_or_concat hist with rfl | ⟨l, q, rfl⟩
    · simp only [recentGsts, astep]
      rw [show S.mackDepth = (S.mackDepth - 1) + 1 by omega, show S.numSats = (S.numSats - 1) + 1 by omega]
      simp [List.eraseDups_cons]
    · rw [List.concat_eq_append] at *
      have hrq : recentGsts (l ++ [q]) = q.gst :: (((l.map (·.gst)).reverse).filter (fun b => !b == q.gst)).eraseDups := by
        simp [recentGsts, List.eraseDups_cons]
      have hrc : recentGsts (l ++ [q] ++ [c]) = if q.gst = c.gst then recentGsts (l ++ [q]) else c.gst :: recentGsts (l ++ [q]) := by
        have h1 : recentGsts (l ++ [q] ++ [c]) = c.gst :: ((((l ++ [q]).map (·.gst)).reverse).filter (fun b => !b == c.gst)).eraseDups := by
          simp [recentGsts, List.eraseDups_cons]
        rw [h1]
        split
        · rename_i hqc
          rw [hrq, hqc]
          simp [hqc]
        · rename_i hqc
          congr 1
          rw [recentGsts]
          congr 1
          rw [List.filter_eq_self]
          intro g hg
          simp only [List.mem_reverse, List.mem_map] at hg
          obtain ⟨a, ha, rfl⟩ := hg
          simp only [Bool.not_eq_true', beq_eq_false_iff_ne, ne_eq]
          intro hac
          apply hqc
          apply Gst.abs_inj
          have h2 := hle q (by simp)
          have h3 : a.gst.abs ≤ q.gst.abs := by
            rcases List.mem_append.1 ha with h | h
            · rw [List.pairwise_append] at hchr1
              exact hchr1.2.2 a h q (by simp)
            · simp at h; subst h; exact Int.le_refl _
          rw [hac] at h3; omega
      rw [hrc]
      have hfilter_ne : ∀ g, g ≠ c.gst → (l ++ [q] ++ [c]).filter (fun x => x.gst == g) = (l ++ [q]).filter (fun x => x.gst == g) := by
        intro g hg
        rw [List.filter_append, List.filter_cons_of_neg (by simpa using fun h => hg h.symm)]
        simp
      by_cases hqc : q.gst = c.gst
      · rw [if_pos hqc, hrq]
        rw [show S.mackDepth = (S.mackDepth - 1) + 1 by omega]
        simp only [List.take_succ_cons, List.map_cons, astep]
        rw [if_pos hqc]
        congr 1
        · congr 1
          have h5 : (l ++ [q] ++ [c]).filter (fun x => x.gst == q.gst) = (l ++ [q]).filter (fun x => x.gst == q.gst) ++ [c] := by
            rw [List.filter_append, List.filter_cons_of_pos (by simp [hqc])]; simp
          rw [h5]
          generalize (l ++ [q]).filter (fun x => x.gst == q.gst) = F
          simp only [List.length_map, List.length_take]
          split
          · rename_i hlt
            rw [List.take_append, List.take_of_length_le (show F.length ≤ S.numSats by omega)]
            rw [List.take_of_length_le (by simp; omega)]
            simp
          · rename_i hlt
            rw [List.take_append_of_le_length (by omega)]
        · apply List.map_congr_left
          intro g hg
          have hg' := List.mem_of_mem_take hg
          rw [List.mem_eraseDups, List.mem_filter] at hg'
          rw [hfilter_ne g]
          have := hg'.2
          simp only [Bool.not_eq_true', beq_eq_false_iff_ne, ne_eq] at this
          rw [← hqc]; exact this
      · rw [if_neg hqc]
        have hex : ∃ rest, ((recentGsts (l ++ [q])).take S.mackDepth).map (fun g =>
            (g, (((l ++ [q]).filter (fun c => c.gst == g)).take S.numSats).map
              (fun c => (⟨c.mack, c.svn, c.status⟩ : StoredMack)))) = (q.gst, (((l ++ [q]).filter (fun c => c.gst == q.gst)).take S.numSats).map
              (fun c => (⟨c.mack, c.svn, c.status⟩ : StoredMack))) :: rest := by
          rw [hrq, show S.mackDepth = (S.mackDepth - 1) + 1 by omega]
          exact ⟨_, rfl⟩
        obtain ⟨rest, hrest⟩ := hex
        have hast : astep S (((recentGsts (l ++ [q])).take S.mackDepth).map (fun g =>
            (g, (((l ++ [q]).filter (fun c => c.gst == g)).take S.numSats).map
              (fun c => (⟨c.mack, c.svn, c.status⟩ : StoredMack))))) c = ((c.gst, [⟨c.mack, c.svn, c.status⟩]) :: (((recentGsts (l ++ [q])).take S.mackDepth).map (fun g =>
            (g, (((l ++ [q]).filter (fun c => c.gst == g)).take S.numSats).map
              (fun c => (⟨c.mack, c.svn, c.status⟩ : StoredMack)))))).take S.mackDepth := by
          rw [hrest]; simp only [astep]; rw [if_neg hqc]
        rw [hast]
        have hd1 : S.mackDepth = (S.mackDepth - 1) + 1 := by omega
        rw [hd1]
        simp only [List.take_succ_cons, List.map_cons]
        congr 1
        · congr 1
          have h5 : (l ++ [q] ++ [c]).filter (fun x => x.gst == c.gst) = [c] := by
            rw [List.filter_append, List.filter_cons_of_pos (by simp)]
            rw [List.filter_eq_nil_iff.2]
            · simp
            · intro a ha hac
              simp only [beq_iff_eq] at hac
              apply hqc
              apply Gst.abs_inj
              have h2 := hle q (by simp)
              have h3 : a.gst.abs ≤ q.gst.abs := by
                rcases List.mem_append.1 ha with h | h
                · rw [List.pairwise_append] at hchr1
                  exact hchr1.2.2 a h q (by simp)
                · simp at h; subst h; exact Int.le_refl _
              rw [hac] at h3; omega
          rw [h5, show S.numSats = (S.numSats - 1) + 1 by omega]; simp
        · rw [← List.map_take, List.take_take, show min (S.mackDepth - 1) (S.mackDepth - 1 + 1) = S.mackDepth - 1 by omega]
          apply List.map_congr_left
          intro g hg
          rw [hfilter_ne g]
          intro hgc
          have hg' := List.mem_of_mem_take hg
          rw [recentGsts, List.mem_eraseDups, List.mem_reverse, List.mem_map] at hg'
          obtain ⟨a, ha, rfl⟩ := hg'
          apply hqc
          apply Gst.abs_inj
          have h2 := hle q (by simp)
          have h3 : a.gst.abs ≤ q.gst.abs := by
            rcases List.mem_append.1 ha with h | h
            · rw [List.pairwise_append] at hchr1
              exact hchr1.2.2 a h q (by simp)
            · simp at h; subst h; exact Int.le_refl _
          rw [hgc] at h3; omega

end MackStorage
end Verif
