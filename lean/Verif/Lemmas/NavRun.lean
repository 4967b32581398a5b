import Verif.Lemmas.NavHead

/-! # Lemmas: the slots of the store after a list of `feed_inav` calls, up to authentication bits -/

namespace Verif
open CollectSubframe (snoc_induction)

/-- Entries without their authentication bits. -/
def NavSlot.core (s : NavSlot) : NavSlot := ⟨s.gst, s.ced.map NavItem.core, s.timing.map NavItem.core⟩

theorem NavSlot.core_items (s : NavSlot) (kd : NavKind) : s.core.items kd = (s.items kd).map NavItem.core := by cases kd <;> rfl

/-- Slots after a list of calls, without authentication bits. -/
def navRun (S : Storage) (p : List InavCall) : List NavSlot := p.foldl (navStep S) []

/-- Current slot after a list of calls. -/
def navHead (S : Storage) (p : List InavCall) : Option NavSlot := (navRun S p).head?

variable {S : Storage}

theorem navRun_snoc (p : List InavCall) (c : InavCall) : navRun S (p ++ [c]) = navStep S (navRun S p) c := by
  simp [navRun]

theorem navHead_nil : navHead S [] = none := rfl

theorem navHead_snoc (p : List InavCall) (c : InavCall) : navHead S (p ++ [c]) = some (NavSlot.step S.numSats (navHead S p) c) := by
  unfold navHead; rw [navRun_snoc]; rfl

/-- Induction over the current slot. -/
theorem navHead_induction {P : List InavCall → Option NavSlot → Prop} (h0 : P [] none)
    (h1 : ∀ p c, P p (navHead S p) → P (p ++ [c]) (some (NavSlot.step S.numSats (navHead S p) c))) (p : List InavCall) :
    P p (navHead S p) := by
  induction p using snoc_induction with
  | h0 => exact h0
  | h1 p c ih => rw [navHead_snoc]; exact h1 p c ih

theorem navHead_gst {p : List InavCall} {s : NavSlot} (h : navHead S p = some s) :
    ∃ q c, p = q ++ [c] ∧ s.gst = c.gst.subframe := by
  rcases List.eq_nil_or_concat p with rfl | ⟨q, c, rfl⟩
  · simp [navHead, navRun] at h
  · rw [List.concat_eq_append] at h ⊢
    rw [navHead_snoc] at h; cases h
    exact ⟨q, c, rfl, rfl⟩

/-- Every slot is the current slot at the end of its subframe. -/
theorem navRun_slots (p : List InavCall) : ∀ k s, (navRun S p)[k]? = some s → ∃ q r, p = q ++ r ∧ navHead S q = some s ∧
    ((k = 0 ∧ r = []) ∨ (0 < k ∧ ∃ c r', r = c :: r' ∧ c.gst.subframe ≠ s.gst)) := by
  induction p using snoc_induction with
  | h0 => intro k s hs; simp [navRun] at hs
  | h1 p c ih =>
    intro k s hs
    rw [navRun_snoc] at hs
    unfold navStep at hs
    cases k with
    | zero =>
      simp only [List.getElem?_cons_zero, Option.some.injEq] at hs
      exact ⟨p ++ [c], [], by simp, by rw [navHead_snoc, ← hs]; rfl, .inl ⟨rfl, rfl⟩⟩
    | succ k =>
      rw [List.getElem?_cons_succ] at hs
      unfold navTail at hs
      split at hs
      · simp at hs
      · rename_i hd tl heq
        have fin : ∀ j, (navRun S p)[j]? = some s → (j = 0 → s.gst ≠ c.gst.subframe) →
            ∃ q r, p ++ [c] = q ++ r ∧ navHead S q = some s ∧
              ((k + 1 = 0 ∧ r = []) ∨ (0 < k + 1 ∧ ∃ c r', r = c :: r' ∧ c.gst.subframe ≠ s.gst)) := by
          intro j hj h0
          obtain ⟨q, r, rfl, h2, h3⟩ := ih j s hj
          rcases h3 with ⟨hj0, rfl⟩ | ⟨_, c', r', rfl, h3⟩
          · rw [List.append_nil]
            exact ⟨q, [c], rfl, h2, .inr ⟨by omega, c, [], rfl, fun h => h0 hj0 h.symm⟩⟩
          · exact ⟨q, c' :: (r' ++ [c]), by simp, h2, .inr ⟨by omega, c', r' ++ [c], rfl, h3⟩⟩
        split at hs
        · exact fin (k + 1) (by rw [heq, List.getElem?_cons_succ]; exact hs) (by omega)
        · rename_i hne
          rw [← heq, List.getElem?_take] at hs
          split at hs
          · refine fin k hs ?_
            intro hk
            subst hk
            rw [heq] at hs
            simp only [List.getElem?_cons_zero, Option.some.injEq] at hs
            rw [← hs]; exact hne
          · cases hs

theorem navHead_good (hn : 0 < S.numSats) (kd : NavKind) (p : List InavCall) :
    ∀ s, navHead S p = some s → NavSlot.Good S.numSats kd (s.items kd) := by
  refine navHead_induction (P := fun _ h => ∀ s, h = some s → NavSlot.Good S.numSats kd (s.items kd)) ?_ ?_ p
  · intro s h; cases h
  · intro p c ih s h
    cases h
    rw [NavSlot.step_items]
    obtain ⟨_, _, _, _, _, h⟩ := (NavSlot.Good.base (g := c.gst.subframe) ih).upd hn c
    exact h

/-! ## Contents of the entries -/

theorem Contiguous.init {p : List InavCall} {c : InavCall} (h : Contiguous (p ++ [c])) : Contiguous p := by
  intro i a b ha hb
  have h1 : i < p.length := (List.getElem?_eq_some_iff.1 ha).1
  have h2 : i + 1 < p.length := (List.getElem?_eq_some_iff.1 hb).1
  exact h i a b (by rw [List.getElem?_append_left h1]; exact ha) (by rw [List.getElem?_append_left h2]; exact hb)

theorem Contiguous.last {p : List InavCall} {a c : InavCall} (h : Contiguous (p ++ [a] ++ [c])) :
    c.gst.subframe.abs = a.gst.subframe.abs ∨ c.gst.subframe.abs = a.gst.subframe.abs + 30 := by
  apply h p.length a c
  · rw [List.append_assoc, List.getElem?_append_right (by omega)]; simp
  · simp

theorem Chronological.init {p : List InavCall} {c : InavCall} (h : Chronological (p ++ [c])) : Chronological p := by
  intro i a b ha hb
  have h1 : i < p.length := (List.getElem?_eq_some_iff.1 ha).1
  have h2 : i + 1 < p.length := (List.getElem?_eq_some_iff.1 hb).1
  exact h i a b (by rw [List.getElem?_append_left h1]; exact ha) (by rw [List.getElem?_append_left h2]; exact hb)

theorem Chronological.last {p : List InavCall} {a c : InavCall} (h : Chronological (p ++ [a] ++ [c])) :
    a.gst.subframe.abs ≤ c.gst.subframe.abs := by
  apply h p.length a c
  · rw [List.append_assoc, List.getElem?_append_right (by omega)]; simp
  · simp

theorem Contiguous.chronological {p : List InavCall} (h : Contiguous p) : Chronological p := by
  intro i a b ha hb
  rcases h i a b ha hb with h | h <;> omega

theorem Contiguous.prefix {p q r : List InavCall} (h : Contiguous p) (hp : p = q ++ r) : Contiguous q := by
  intro i a b ha hb
  have l1 : i < q.length := (List.getElem?_eq_some_iff.1 ha).1
  have l2 : i + 1 < q.length := (List.getElem?_eq_some_iff.1 hb).1
  exact h i a b (by rw [hp, List.getElem?_append_left l1]; exact ha) (by rw [hp, List.getElem?_append_left l2]; exact hb)

/-- With chronological words, the slots are in strictly decreasing order of time. -/
theorem navRun_decreasing {p : List InavCall} (h : Chronological p) :
    (navRun S p).Pairwise (fun s t => t.gst.abs < s.gst.abs) := by
  induction p using snoc_induction with
  | h0 => exact List.Pairwise.nil
  | h1 p c ih =>
    have ih := ih h.init
    have hhead : ∀ s, navHead S p = some s → s.gst.abs ≤ c.gst.subframe.abs := by
      intro s hs
      obtain ⟨q, d, rfl, hsd⟩ := navHead_gst hs
      have := h.last
      rw [hsd]; exact this
    rw [navRun_snoc]
    unfold navStep
    unfold navHead at hhead
    rw [List.pairwise_cons, NavSlot.step_gst]
    unfold navTail
    split
    · exact ⟨by simp, List.Pairwise.nil⟩
    · rename_i hd tl heq
      rw [heq] at ih hhead
      have h1 := hhead hd rfl
      have h2 := List.pairwise_cons.1 ih
      split
      · rename_i hg
        refine ⟨?_, h2.2⟩
        intro t ht
        have := h2.1 t ht
        rw [hg] at this; exact this
      · rename_i hg
        refine ⟨?_, List.Pairwise.sublist (List.take_sublist _ _) ih⟩
        intro t ht
        have hne : hd.gst.abs ≠ c.gst.subframe.abs := fun hc => hg (Gst.abs_inj hc)
        rcases List.mem_cons.1 (List.mem_of_mem_take ht) with rfl | htl
        · omega
        · have := h2.1 t htl; omega

theorem NavItem.minAge_older (x : NavItem) : x.older.minAge = min 255 (x.minAge + 1) := by
  unfold NavItem.minAge NavItem.older
  dsimp only
  have : ∀ (l : List Nat) (a : Nat), (l.map (fun a => min 255 (a + 1))).foldl min (min 255 (a + 1)) = min 255 (l.foldl min a + 1) := by
    intro l
    induction l with
    | nil => intro a; rfl
    | cons b l ih =>
      intro a
      simp only [List.map_cons, List.foldl_cons]
      rw [show min (min 255 (a + 1)) (min 255 (b + 1)) = min 255 (min a b + 1) by omega]
      exact ih _
  have h := this x.age 255
  simpa using h

theorem NavItem.minAge_set {x : NavItem} {i : Nat} (h : i < x.age.length) : ({ x with age := x.age.set i 0 } : NavItem).minAge = 0 := by
  have := minAge_le_mem (x := { x with age := x.age.set i 0 }) (a := 0) (by dsimp only; exact List.mem_set h 0)
  omega

theorem NavItem.minAge_of_age {x y : NavItem} (h : x.age = y.age) : x.minAge = y.minAge := by
  unfold NavItem.minAge; rw [h]

theorem NavItem.minAge_all {x : NavItem} (h : ∀ a ∈ x.age, a = 255) : x.minAge = 255 := by
  have h1 := x.minAge_le_255
  have h2 : 255 ≤ x.minAge := le_minAge.2 ⟨Nat.le_refl _, fun a ha => by have := h a ha; omega⟩
  omega

/-- What an entry says, for every storage: a field that was refreshed less than 255 subframes ago
holds the latest word; the smallest age is that of the latest word. -/
structure FreshInv (T : Prop) (kd : NavKind) (p : List InavCall) (g : Gst) (x : NavItem) : Prop where
  unassigned : x.svn = none → ∀ a ∈ x.age, a = 255
  field : ∀ v, x.svn = some v → ∀ (i : Nat) (f : NavField) (a : Nat), kd.fields[i]? = some f → x.age[i]? = some a → a < 255 →
    ∃ c, kd.latest p v f = some c ∧ x.seg kd i f = f.bits c ∧ (T → c.gst.subframe.abs + 30 * (a : Int) = g.abs)
  any : ∀ v, x.svn = some v → x.minAge < 255 →
    ∃ c, kd.latestAny p v = some c ∧ (T → c.gst.subframe.abs + 30 * (x.minAge : Int) = g.abs)

namespace FreshInv
variable {T T' : Prop} {kd : NavKind} {p : List InavCall} {g g' : Gst} {x : NavItem}

theorem weaken (h : FreshInv T kd p g x) (ht : T' → T) (hg : T' → g'.abs = g.abs) : FreshInv T' kd p g' x := by
  refine ⟨h.unassigned, ?_, ?_⟩
  · intro v hv i f a hf ha hlt
    obtain ⟨c, h1, h2, h3⟩ := h.field v hv i f a hf ha hlt
    exact ⟨c, h1, h2, fun t => by rw [hg t]; exact h3 (ht t)⟩
  · intro v hv hlt
    obtain ⟨c, h1, h2⟩ := h.any v hv hlt
    exact ⟨c, h1, fun t => by rw [hg t]; exact h2 (ht t)⟩

theorem other (h : FreshInv T kd p g x) {c : InavCall} (hc : x.svn ≠ some c.svn) : FreshInv T kd (p ++ [c]) g x := by
  have hne : ∀ v, x.svn = some v → c.svn ≠ v := fun v hv he => hc (he ▸ hv)
  refine ⟨h.unassigned, ?_, ?_⟩
  · intro v hv i f a hf ha hlt
    obtain ⟨d, h1, h2⟩ := h.field v hv i f a hf ha hlt
    exact ⟨d, by rw [NavKind.latest_snoc, if_neg (fun hh => hne v hv hh.1)]; exact h1, h2⟩
  · intro v hv hlt
    obtain ⟨d, h1, h2⟩ := h.any v hv hlt
    exact ⟨d, by rw [NavKind.latestAny_snoc, if_neg (fun hh => hne v hv hh.1)]; exact h1, h2⟩

theorem older (h : FreshInv T kd p g x) (hg : T → g'.abs = g.abs + 30) : FreshInv T kd p g' x.older := by
  refine ⟨?_, ?_, ?_⟩
  · intro hn a ha
    simp only [NavItem.older, List.mem_map] at ha
    obtain ⟨b, hb, rfl⟩ := ha
    have := h.unassigned hn b hb; omega
  · intro v hv i f a hf ha hlt
    simp only [NavItem.older, List.getElem?_map, Option.map_eq_some_iff] at ha
    obtain ⟨b, hb, rfl⟩ := ha
    obtain ⟨d, h1, h2, h3⟩ := h.field v hv i f b hf hb (by omega)
    refine ⟨d, h1, h2, ?_⟩
    intro t
    have := h3 t; have := hg t
    omega
  · intro v hv hlt
    rw [NavItem.minAge_older] at hlt ⊢
    obtain ⟨d, h1, h2⟩ := h.any v hv (by omega)
    refine ⟨d, h1, ?_⟩
    intro t
    have := h2 t; have := hg t
    omega

theorem new (kd : NavKind) (p : List InavCall) (g : Gst) : FreshInv T kd p g kd.newItem := by
  refine ⟨?_, ?_, ?_⟩
  · intro _ a ha
    cases kd <;> exact List.eq_of_mem_replicate ha
  · intro v hv; rw [NavKind.newItem_svn] at hv; cases hv
  · intro v hv; rw [NavKind.newItem_svn] at hv; cases hv

theorem feed (hw : x.Wf kd) (h : FreshInv T kd p g x) {c : InavCall} (hg : T → g.abs = c.gst.subframe.abs) :
    FreshInv T kd (p ++ [c]) g (x.feedUpd (kd.upd c) c.svn) := by
  have hag : ∀ (i : Nat) (a : Nat), (x.assign c.svn).age[i]? = some a → a < 255 → x.svn = some c.svn ∧ x.age[i]? = some a := by
    intro i a ha hlt
    rcases x.assign_age c.svn with ⟨he, hs⟩ | he
    · rw [he] at ha
      rcases hs with hs | hs
      · exact ⟨hs, ha⟩
      · have := h.unassigned hs a (List.mem_of_getElem? ha); omega
    · rw [he] at ha
      simp only [List.getElem?_map, Option.map_eq_some_iff] at ha
      obtain ⟨b, _, rfl⟩ := ha
      omega
  have hwa := hw.assign c.svn
  refine ⟨?_, ?_, ?_⟩
  · intro hn; rw [NavItem.feedUpd_svn] at hn; cases hn
  · intro v hv i f a hf ha hlt
    rw [NavItem.feedUpd_svn] at hv; cases hv
    cases hu : kd.upd c with
    | none =>
      rw [hu] at ha
      simp only [NavItem.feedUpd] at ha ⊢
      obtain ⟨hs, ha⟩ := hag i a ha hlt
      obtain ⟨d, h1, h2, h3⟩ := h.field _ hs i f a hf ha hlt
      refine ⟨d, ?_, ?_, h3⟩
      · rw [NavKind.latest_snoc, if_neg (by rw [kd.upd_none hu f (List.mem_of_getElem? hf)]; simp)]; exact h1
      · rw [NavItem.seg_assign]; exact h2
    | some u =>
      rw [hu] at ha
      simp only [NavItem.feedUpd] at ha ⊢
      rw [NavItem.copyWord_age] at ha
      rw [NavItem.seg_copyWord hwa hu hf]
      obtain ⟨f', k1, k2, k3, k4, k5, k6⟩ := kd.upd_some hu
      by_cases hi : i = u.idx
      · subst hi
        rw [hf] at k1; cases k1
        rw [List.getElem?_set_self (by rw [hwa.age]; exact (kd.fits hu).idx)] at ha
        cases ha
        refine ⟨c, ?_, by simp, ?_⟩
        · rw [NavKind.latest_snoc, if_pos ⟨rfl, k2⟩]
        · intro t; rw [hg t]; simp
      · rw [List.getElem?_set_ne (fun h => hi h.symm)] at ha
        obtain ⟨hs, ha⟩ := hag i a ha hlt
        obtain ⟨d, h1, h2, h3⟩ := h.field _ hs i f a hf ha hlt
        refine ⟨d, ?_, ?_, h3⟩
        · rw [NavKind.latest_snoc, if_neg (fun hh => hi (k6 i f hf hh.2))]; exact h1
        · rw [if_neg hi, NavItem.seg_assign]; exact h2
  · intro v hv hlt
    rw [NavItem.feedUpd_svn] at hv; cases hv
    cases hu : kd.upd c with
    | none =>
      rw [hu] at hlt
      simp only [NavItem.feedUpd] at hlt ⊢
      have hno : kd.fields.any (fun f => kd.carries c f) = false := by
        rw [List.any_eq_false]; intro f hf; rw [kd.upd_none hu f hf]; simp
      have hmem := NavItem.minAge_mem hlt
      obtain ⟨i, hi, he⟩ := List.mem_iff_getElem.1 hmem
      obtain ⟨hs, _⟩ := hag i _ (by rw [List.getElem?_eq_getElem hi, he]) hlt
      rw [NavItem.assign_same hs] at hlt ⊢
      obtain ⟨d, h1, h2⟩ := h.any _ hs hlt
      exact ⟨d, by rw [NavKind.latestAny_snoc, if_neg (by rw [hno]; simp)]; exact h1, h2⟩
    | some u =>
      simp only [NavItem.feedUpd]
      obtain ⟨f', k1, k2, k3, k4, k5, k6⟩ := kd.upd_some hu
      have hm : ((x.assign c.svn).copyWord u.lo u.hi u.src u.idx).minAge = 0 := by
        rw [NavItem.minAge_of_age (y := { x.assign c.svn with age := (x.assign c.svn).age.set u.idx 0 }) (NavItem.copyWord_age ..)]
        exact NavItem.minAge_set (by rw [hwa.age]; exact (kd.fits hu).idx)
      rw [hm]
      refine ⟨c, ?_, ?_⟩
      · rw [NavKind.latestAny_snoc, if_pos ⟨rfl, by rw [List.any_eq_true]; exact ⟨f', List.mem_of_getElem? k1, k2⟩⟩]
      · intro t; rw [hg t]; simp

end FreshInv

/-- One step on all the entries of the current slot. -/
theorem NavSlot.Good.step_all {n : Nat} (hn : 0 < n) {kd : NavKind} {s : List NavItem} (h : Good n kd s) (c : InavCall)
    {P Q : NavItem → Prop} (hp : ∀ x ∈ s, P x) (h1 : ∀ x, x ∈ s → x.Wf kd → P x → Q (NavItem.feedUpd (kd.upd c) c.svn x))
    (h2 : ∀ x, x ∈ s → x.Wf kd → P x → x.svn ≠ some c.svn → Q x) :
    ∀ x ∈ updSel c.svn (NavItem.feedUpd (kd.upd c) c.svn) s, Q x := by
  obtain ⟨i, x, hx, hu, hc, _⟩ := h.upd hn c
  rw [hu]
  intro y hy
  obtain ⟨j, hj, he⟩ := List.mem_iff_getElem.1 hy
  have hj' : j < s.length := by simpa using hj
  rw [List.getElem_set] at he
  split at he
  · rw [← he]
    exact h1 x (List.mem_of_getElem? hx) (h.wf x (List.mem_of_getElem? hx)) (hp x (List.mem_of_getElem? hx))
  · rename_i hij
    have hm : y ∈ s := by rw [← he]; exact List.getElem_mem hj'
    refine h2 y hm (h.wf y hm) (hp y hm) ?_
    intro hys
    rcases hc with hc | ⟨hc, _⟩
    · exact hij (h.distinct i j x y c.svn hx (by rw [List.getElem?_eq_getElem hj', he]) hc hys)
    · exact hc y hm hys

theorem navHead_fresh (hn : 0 < S.numSats) (kd : NavKind) (p : List InavCall) :
    ∀ s, navHead S p = some s → ∀ x ∈ s.items kd, FreshInv (Contiguous p) kd p s.gst x := by
  refine navHead_induction (P := fun p h => ∀ s, h = some s → ∀ x ∈ s.items kd, FreshInv (Contiguous p) kd p s.gst x) ?_ ?_ p
  · intro s h; cases h
  · intro p c ih s h
    cases h
    rw [NavSlot.step_items, NavSlot.step_gst]
    have hg := NavSlot.Good.base (g := c.gst.subframe) (navHead_good hn kd p)
    have hb : ∀ x ∈ (NavSlot.base S.numSats c.gst.subframe (navHead S p)).items kd,
        FreshInv (Contiguous (p ++ [c])) kd p c.gst.subframe x := by
      intro x hx
      rcases NavSlot.base_items S.numSats c.gst.subframe (navHead S p) kd with ⟨_, he⟩ | ⟨s, hh, ⟨hgs, he⟩ | ⟨hgs, he⟩⟩
      · rw [he] at hx
        rw [List.eq_of_mem_replicate hx]; exact FreshInv.new kd p _
      · rw [he] at hx
        exact (ih s hh x hx).weaken Contiguous.init (fun _ => by rw [hgs])
      · rw [he] at hx
        obtain ⟨y, hy, rfl⟩ := List.mem_map.1 hx
        refine ((ih s hh y hy).weaken Contiguous.init (fun _ => rfl)).older ?_
        intro hcc
        obtain ⟨q, d, rfl, hsd⟩ := navHead_gst hh
        rcases hcc.last with h | h
        · exact absurd (by rw [hsd]; exact (Gst.abs_inj h).symm) hgs
        · rw [hsd]; exact h
    exact hg.step_all hn c hb (fun x _ hw h => h.feed hw (fun _ => rfl)) (fun x _ _ h hne => h.other hne)

/-! ## Storage for all the satellites -/

/-- Ages of a field given its latest word: exact under the condition `T`, not more than the real age under the condition `U`. -/
def AgeOf (T U : Prop) (g : Gst) (l : Option InavCall) (a : Nat) : Prop :=
  match l with
  | none => a = 255
  | some c => (T → (a : Int) = min 255 ((g.abs - c.gst.subframe.abs) / 30)) ∧ (U → (a : Int) ≤ (g.abs - c.gst.subframe.abs) / 30)

/-- What an entry says when the storage has room for all the satellites. -/
structure FullInv (T U : Prop) (kd : NavKind) (p : List InavCall) (g : Gst) (x : NavItem) : Prop where
  unassigned : x.svn = none → x.data = List.replicate (kd.nbits + 3) false ∧ ∀ a ∈ x.age, a = 255
  pad : x.data.drop kd.nbits = List.replicate 3 false
  field : ∀ v, x.svn = some v → ∀ (i : Nat) (f : NavField), kd.fields[i]? = some f →
    x.seg kd i f = kd.fieldAfter p v f ∧
      ∀ a, x.age[i]? = some a → AgeOf T U g (kd.latest p v f) a
  any : ∀ v, x.svn = some v → AgeOf T U g (kd.latestAny p v) x.minAge

theorem AgeOf.weaken {T T' U U' : Prop} {g g' : Gst} {l : Option InavCall} {a : Nat} (h : AgeOf T U g l a) (ht : T' → T)
    (hu : U' → U) (hg : g'.abs = g.abs) : AgeOf T' U' g' l a := by
  cases l with
  | none => exact h
  | some c => exact ⟨fun t => by rw [hg]; exact h.1 (ht t), fun u => by rw [hg]; exact h.2 (hu u)⟩

theorem AgeOf.older {T U : Prop} {g g' : Gst} {l : Option InavCall} {a : Nat} (h : AgeOf T U g l a)
    (hg : T → g'.abs = g.abs + 30) (hu : U → g.abs + 30 ≤ g'.abs) : AgeOf T U g' l (min 255 (a + 1)) := by
  cases l with
  | none => simp only [AgeOf] at h ⊢; omega
  | some c =>
    refine ⟨fun t => ?_, fun u => ?_⟩
    · have := hg t; have := h.1 t; omega
    · have := hu u; have := h.2 u; omega

namespace FullInv
variable {T T' U U' : Prop} {kd : NavKind} {p : List InavCall} {g g' : Gst} {x : NavItem}

theorem weaken (h : FullInv T U kd p g x) (ht : T' → T) (hu : U' → U) (hg : g'.abs = g.abs) : FullInv T' U' kd p g' x :=
  ⟨h.unassigned, h.pad, fun v hv i f hf => ⟨(h.field v hv i f hf).1, fun a ha => ((h.field v hv i f hf).2 a ha).weaken ht hu hg⟩,
    fun v hv => (h.any v hv).weaken ht hu hg⟩

theorem other (h : FullInv T U kd p g x) {c : InavCall} (hc : x.svn ≠ some c.svn) : FullInv T U kd (p ++ [c]) g x := by
  have hne : ∀ v, x.svn = some v → c.svn ≠ v := fun v hv he => hc (he ▸ hv)
  refine ⟨h.unassigned, h.pad, ?_, ?_⟩
  · intro v hv i f hf
    unfold NavKind.fieldAfter
    rw [NavKind.latest_snoc, if_neg (fun hh => hne v hv hh.1)]; exact h.field v hv i f hf
  · intro v hv
    rw [NavKind.latestAny_snoc, if_neg (fun hh => hne v hv hh.1)]; exact h.any v hv

theorem older (h : FullInv T U kd p g x) (hg : T → g'.abs = g.abs + 30) (hu : U → g.abs + 30 ≤ g'.abs) : FullInv T U kd p g' x.older := by
  refine ⟨?_, h.pad, ?_, ?_⟩
  · intro hn
    refine ⟨(h.unassigned hn).1, ?_⟩
    intro a ha
    simp only [NavItem.older, List.mem_map] at ha
    obtain ⟨b, hb, rfl⟩ := ha
    have := (h.unassigned hn).2 b hb; omega
  · intro v hv i f hf
    refine ⟨(h.field v hv i f hf).1, ?_⟩
    intro a ha
    simp only [NavItem.older, List.getElem?_map, Option.map_eq_some_iff] at ha
    obtain ⟨b, hb, rfl⟩ := ha
    exact ((h.field v hv i f hf).2 b hb).older hg hu
  · intro v hv
    rw [NavItem.minAge_older]
    exact (h.any v hv).older hg hu

theorem new (kd : NavKind) (p : List InavCall) (g : Gst) : FullInv T U kd p g kd.newItem := by
  have hd : kd.newItem.data = List.replicate (kd.nbits + 3) false := by cases kd <;> rfl
  refine ⟨?_, ?_, ?_, ?_⟩
  · intro _
    refine ⟨hd, ?_⟩
    intro a ha
    cases kd <;> exact List.eq_of_mem_replicate ha
  · rw [hd, List.drop_replicate]; congr 1; omega
  · intro v hv; rw [NavKind.newItem_svn] at hv; cases hv
  · intro v hv; rw [NavKind.newItem_svn] at hv; cases hv

theorem zero_seg (hd : x.data = List.replicate (kd.nbits + 3) false) {i : Nat} {f : NavField} (hf : kd.fields[i]? = some f) :
    x.seg kd i f = List.replicate f.len false := by
  unfold NavItem.seg
  have := kd.off_le hf
  rw [hd, List.drop_replicate, List.take_replicate]; congr 1; omega

/-- Entry of a satellite before its words: the entry is its own, or unassigned and then the satellite
was never fed. -/
theorem assign (h : FullInv T U kd p g x) {v : Svn} (hs : x.svn = some v ∨ (x.svn = none ∧ ∀ c ∈ p, c.svn ≠ v)) :
    FullInv T U kd p g (x.assign v) := by
  rcases hs with hs | ⟨hs, hp⟩
  · rw [NavItem.assign_same hs]; exact h
  · have hl : ∀ f, kd.latest p v f = none := by
      intro f
      unfold NavKind.latest
      rw [List.getLast?_eq_none_iff, List.filter_eq_nil_iff]
      intro c hc; simp [hp c hc]
    have hla : kd.latestAny p v = none := by
      unfold NavKind.latestAny
      rw [List.getLast?_eq_none_iff, List.filter_eq_nil_iff]
      intro c hc; simp [hp c hc]
    have he : x.assign v = { x with svn := some v } := by unfold NavItem.assign; rw [hs]
    rw [he]
    obtain ⟨hd, ha⟩ := h.unassigned hs
    refine ⟨fun hc => (Option.some_ne_none v hc).elim, h.pad, ?_, ?_⟩
    · intro w hw i f hf
      cases hw
      unfold NavKind.fieldAfter
      rw [hl]
      exact ⟨zero_seg hd hf, fun a ha' => ha a (List.mem_of_getElem? ha')⟩
    · intro w hw
      cases hw
      rw [hla]
      exact NavItem.minAge_all ha

theorem feed (hw : x.Wf kd) (h : FullInv T U kd p g x) {c : InavCall} (hg : g.abs = c.gst.subframe.abs)
    (hs : x.svn = some c.svn ∨ (x.svn = none ∧ ∀ d ∈ p, d.svn ≠ c.svn)) :
    FullInv T U kd (p ++ [c]) g (x.feedUpd (kd.upd c) c.svn) := by
  have hy := h.assign hs
  have hwy := hw.assign c.svn
  unfold NavItem.feedUpd
  have hsv := x.assign_svn c.svn
  generalize x.assign c.svn = y at *
  cases hu : kd.upd c with
  | none =>
    have hno : kd.fields.any (fun f => kd.carries c f) = false := by
      rw [List.any_eq_false]; intro f hf; rw [kd.upd_none hu f hf]; simp
    refine ⟨hy.unassigned, hy.pad, ?_, ?_⟩
    · intro v hv i f hf
      unfold NavKind.fieldAfter
      rw [NavKind.latest_snoc, if_neg (by rw [kd.upd_none hu f (List.mem_of_getElem? hf)]; simp)]
      exact hy.field v hv i f hf
    · intro v hv
      rw [NavKind.latestAny_snoc, if_neg (by rw [hno]; simp)]
      exact hy.any v hv
  | some u =>
    dsimp only
    obtain ⟨f', k1, k2, k3, k4, k5, k6⟩ := kd.upd_some hu
    have hfit := kd.fits hu
    have hm : (y.copyWord u.lo u.hi u.src u.idx).minAge = 0 := by
      rw [NavItem.minAge_of_age (y := { y with age := y.age.set u.idx 0 }) (NavItem.copyWord_age ..)]
      exact NavItem.minAge_set (by rw [hwy.age]; exact hfit.idx)
    refine ⟨?_, ?_, ?_, ?_⟩
    · intro hn; rw [NavItem.copyWord_svn, hsv] at hn; cases hn
    · rw [NavItem.copyWord_data _ _ _ _ _ hfit.le, ← hy.pad]
      have := hfit.hi; have := hfit.len; have := hfit.le; have := hwy.data
      rw [List.drop_append, List.drop_eq_nil_of_le (by simp; omega), List.nil_append, List.drop_drop]
      congr 1
      simp only [List.length_append, List.length_take]; omega
    · intro v hv i f hf
      rw [NavItem.copyWord_svn, hsv] at hv; cases hv
      unfold NavKind.fieldAfter
      rw [NavItem.seg_copyWord hwy hu hf, NavItem.copyWord_age]
      by_cases hi : i = u.idx
      · subst hi
        rw [hf] at k1; cases k1
        rw [if_pos rfl, NavKind.latest_snoc, if_pos ⟨rfl, k2⟩]
        refine ⟨rfl, ?_⟩
        intro a ha
        rw [List.getElem?_set_self (by rw [hwy.age]; exact hfit.idx)] at ha
        cases ha
        exact ⟨fun t => by omega, fun u => by omega⟩
      · rw [if_neg hi, NavKind.latest_snoc, if_neg (fun hh => hi (k6 i f hf hh.2)), List.getElem?_set_ne (fun h => hi h.symm)]
        exact hy.field c.svn hsv i f hf
    · intro v hv
      rw [NavItem.copyWord_svn, hsv] at hv; cases hv
      rw [hm, NavKind.latestAny_snoc, if_pos ⟨rfl, by rw [List.any_eq_true]; exact ⟨f', List.mem_of_getElem? k1, k2⟩⟩]
      exact ⟨fun t => by omega, fun u => by omega⟩

/-- The data of an entry is the expected one. -/
theorem bits (hw : x.Wf kd) (h : FullInv T U kd p g x) {v : Svn} (hv : x.svn = some v) :
    x.messageBits kd.nbits = kd.expected p v ∧ x.data = kd.expected p v ++ [false, false, false] := by
  have h1 : x.messageBits kd.nbits = kd.expected p v := by
    unfold NavKind.expected
    cases kd with
    | ced =>
      have e0 := (h.field v hv 0 _ rfl).1
      have e1 := (h.field v hv 1 _ rfl).1
      have e2 := (h.field v hv 2 _ rfl).1
      have e3 := (h.field v hv 3 _ rfl).1
      have e4 := (h.field v hv 4 _ rfl).1
      simp only [NavKind.fields, List.flatMap_cons, List.flatMap_nil, List.append_nil]
      rw [← e0, ← e1, ← e2, ← e3, ← e4]
      simp only [NavItem.seg, NavItem.messageBits, NavKind.off, NavKind.fields, NavKind.nbits, NavField.len]
      simp only [List.take_succ_cons, List.take_zero, List.map_cons, List.map_nil, List.sum_cons, List.sum_nil, List.drop_zero]
      rw [show (549 : Nat) = 120 + (120 + (122 + (120 + 67))) from rfl, List.take_add, List.take_add, List.take_add, List.take_add]
      simp only [List.drop_drop]
      rfl
    | timing =>
      have e0 := (h.field v hv 0 _ rfl).1
      have e1 := (h.field v hv 1 _ rfl).1
      simp only [NavKind.fields, List.flatMap_cons, List.flatMap_nil, List.append_nil]
      rw [← e0, ← e1]
      simp only [NavItem.seg, NavItem.messageBits, NavKind.off, NavKind.fields, NavKind.nbits, NavField.len]
      simp only [List.take_succ_cons, List.take_zero, List.map_cons, List.map_nil, List.sum_cons, List.sum_nil, List.drop_zero]
      rw [show (141 : Nat) = 99 + 42 from rfl, List.take_add]
      rfl
  refine ⟨h1, ?_⟩
  rw [← h1, ← show x.data.drop kd.nbits = [false, false, false] from h.pad]
  exact (List.take_append_drop kd.nbits x.data).symm

end FullInv

/-- The slot holds exactly the satellites fed. -/
structure FullSlot (kd : NavKind) (p : List InavCall) (g : Gst) (s : List NavItem) (T U : Prop) : Prop where
  inv : ∀ x ∈ s, FullInv T U kd p g x
  fed : ∀ x ∈ s, ∀ v, x.svn = some v → ∃ c ∈ p, c.svn = v
  all : ∀ c ∈ p, ∃ x ∈ s, x.svn = some c.svn

/-- Pigeonhole: a list of distinct satellites among `sats` without `v`. -/
theorem assigned_lt {sats : List Svn} {s : List NavItem} {v : Svn} (hv : v ∈ sats) (hd : NavSlot.Distinct s)
    (hsub : ∀ x ∈ s, ∀ w, x.svn = some w → w ∈ sats) (hno : ∀ x ∈ s, x.svn ≠ some v)
    (hall : ∀ x ∈ s, x.svn ≠ none) : s.length < sats.length := by
  induction s generalizing sats with
  | nil => cases sats with
    | nil => simp at hv
    | cons a l => simp
  | cons x s ih =>
    obtain ⟨w, hw⟩ := Option.ne_none_iff_exists'.1 (hall x (by simp))
    have hwm := hsub x (by simp) w hw
    have hwv : w ≠ v := by rintro rfl; exact hno x (by simp) hw
    have := ih (sats := sats.erase w) ((List.mem_erase_of_ne (Ne.symm hwv)).2 hv) ?_ ?_ (fun y hy => hno y (List.mem_cons_of_mem _ hy))
      (fun y hy => hall y (List.mem_cons_of_mem _ hy))
    · rw [List.length_erase_of_mem hwm] at this
      have := List.length_pos_of_mem hwm
      simp only [List.length_cons]; omega
    · intro i j a b u ha hb hau hbu
      have := hd (i+1) (j+1) a b u (by simpa using ha) (by simpa using hb) hau hbu
      omega
    · intro y hy u hyu
      have hum := hsub y (List.mem_cons_of_mem _ hy) u hyu
      refine (List.mem_erase_of_ne ?_).2 hum
      rintro rfl
      obtain ⟨j, hj, he⟩ := List.mem_iff_getElem.1 hy
      have := hd 0 (j+1) x y u (by simp) (by simp [List.getElem?_eq_getElem hj, he]) hw hyu
      omega

theorem Fits.init {p : List InavCall} {c : InavCall} (h : Fits S (p ++ [c])) : Fits S p := by
  obtain ⟨sats, h1, h2⟩ := h
  exact ⟨sats, h1, fun d hd => h2 d (by simp [hd])⟩

/-- A call updates the entry of its satellite, or an unassigned one if the satellite was never fed; no other entry is of this satellite. -/
theorem FullSlot.upd {n : Nat} (hn : 0 < n) {kd : NavKind} {p : List InavCall} {c : InavCall} {b : List NavItem} {T U : Prop}
    (hg : NavSlot.Good n kd b) (hb : FullSlot kd p c.gst.subframe b T U) (hf : ∃ sats : List Svn, sats.length ≤ n ∧ ∀ d ∈ p ++ [c], d.svn ∈ sats) :
    ∃ i x, b[i]? = some x ∧ updSel c.svn (NavItem.feedUpd (kd.upd c) c.svn) b = b.set i (NavItem.feedUpd (kd.upd c) c.svn x) ∧
      (x.svn = some c.svn ∨ (x.svn = none ∧ ∀ d ∈ p, d.svn ≠ c.svn)) ∧ (∀ j y, b[j]? = some y → i ≠ j → y.svn ≠ some c.svn) ∧
      NavSlot.Good n kd (updSel c.svn (NavItem.feedUpd (kd.upd c) c.svn) b) ∧
      FullSlot kd (p ++ [c]) c.gst.subframe (updSel c.svn (NavItem.feedUpd (kd.upd c) c.svn) b) T U := by
  obtain ⟨i, x, hx, hu, hc, hgood⟩ := hg.upd hn c
  have hxm := List.mem_of_getElem? hx
  have hcs : x.svn = some c.svn ∨ (x.svn = none ∧ ∀ d ∈ p, d.svn ≠ c.svn) := by
    rcases hc with hc | ⟨hc, hc2⟩
    · exact .inl hc
    · have hnf : ∀ d ∈ p, d.svn ≠ c.svn := by
        intro d hd hdc
        obtain ⟨y, hy, hys⟩ := hb.all d hd
        exact hc y hy (by rw [hys, hdc])
      rcases hc2 with hc2 | hc2
      · exact .inr ⟨hc2, hnf⟩
      · exfalso
        obtain ⟨sats, h1, h2⟩ := hf
        have := assigned_lt (sats := sats) (v := c.svn) (h2 c (by simp)) hg.distinct
          (fun y hy w hw => by obtain ⟨d, hd, rfl⟩ := hb.fed y hy w hw; exact h2 d (by simp [hd])) hc (fun y hy => (hc2 y hy).1)
        have := hg.len
        omega
  have hi : i < b.length := (List.getElem?_eq_some_iff.1 hx).1
  have hoth : ∀ j y, b[j]? = some y → i ≠ j → y.svn ≠ some c.svn := by
    intro j y hy hij hys
    rcases hc with hc | ⟨hc, _⟩
    · exact hij (hg.distinct i j x y c.svn hx hy hc hys)
    · exact hc y (List.mem_of_getElem? hy) hys
  refine ⟨i, x, hx, hu, hcs, hoth, hgood, ?_, ?_, ?_⟩
  · rw [hu]
    intro y hy
    obtain ⟨j, hj, he⟩ := List.mem_iff_getElem.1 hy
    have hj' : j < b.length := by simpa using hj
    rw [List.getElem_set] at he
    split at he
    · rw [← he]
      exact (hb.inv x hxm).feed (hg.wf x hxm) rfl hcs
    · rename_i hij
      have hm : y ∈ b := by rw [← he]; exact List.getElem_mem hj'
      refine (hb.inv y hm).other ?_
      intro hys
      rcases hc with hc | ⟨hc, _⟩
      · exact hij (hg.distinct i j x y c.svn hx (by rw [List.getElem?_eq_getElem hj', he]) hc hys)
      · exact hc y hm hys
  · rw [hu]
    intro y hy v hv
    rcases List.mem_or_eq_of_mem_set hy with h | rfl
    · obtain ⟨d, hd, h⟩ := hb.fed y h v hv
      exact ⟨d, by simp [hd], h⟩
    · rw [NavItem.feedUpd_svn] at hv; cases hv
      exact ⟨c, by simp, rfl⟩
  · rw [hu]
    intro d hd
    by_cases hdc : d.svn = c.svn
    · exact ⟨_, List.mem_set hi _, by rw [NavItem.feedUpd_svn, hdc]⟩
    · rcases List.mem_append.1 hd with hd | hd
      · obtain ⟨y, hy, hys⟩ := hb.all d hd
        obtain ⟨j, hj, he⟩ := List.mem_iff_getElem.1 hy
        refine ⟨y, ?_, hys⟩
        have hij : i ≠ j := by
          rintro rfl
          have : x = y := by rw [List.getElem?_eq_getElem hj, he] at hx; exact (Option.some.inj hx).symm
          subst this
          rcases hcs with h | ⟨h, _⟩
          · rw [h] at hys; exact hdc (Option.some.inj hys).symm
          · rw [h] at hys; cases hys
        rw [List.mem_iff_getElem]
        exact ⟨j, by simpa using hj, by rw [List.getElem_set_ne hij, he]⟩
      · rw [List.mem_singleton] at hd
        subst hd; exact absurd rfl hdc

theorem navHead_full (hn : 0 < S.numSats) (kd : NavKind) (p : List InavCall) (hf : Fits S p) :
    ∀ s, navHead S p = some s → FullSlot kd p s.gst (s.items kd) (Contiguous p) (Chronological p) := by
  revert hf
  refine navHead_induction (P := fun p h => Fits S p → ∀ s, h = some s → FullSlot kd p s.gst (s.items kd) (Contiguous p) (Chronological p)) ?_ ?_ p
  · intro _ s h; cases h
  · intro p c ih hf s h
    cases h
    replace ih := ih hf.init
    rw [NavSlot.step_items, NavSlot.step_gst]
    have hg := NavSlot.Good.base (g := c.gst.subframe) (navHead_good hn kd p)
    have hb : FullSlot kd p c.gst.subframe ((NavSlot.base S.numSats c.gst.subframe (navHead S p)).items kd) (Contiguous (p ++ [c])) (Chronological (p ++ [c])) := by
      rcases NavSlot.base_items S.numSats c.gst.subframe (navHead S p) kd with ⟨hnone, he⟩ | ⟨s, hh, ⟨hgs, he⟩ | ⟨hgs, he⟩⟩
      · rw [he]
        have hp : p = [] := by
          rcases List.eq_nil_or_concat p with rfl | ⟨q, d, rfl⟩
          · rfl
          · rw [List.concat_eq_append, navHead_snoc] at hnone; cases hnone
        refine ⟨?_, ?_, ?_⟩
        · intro x hx; rw [List.eq_of_mem_replicate hx]; exact FullInv.new kd p _
        · intro x hx v hv; rw [List.eq_of_mem_replicate hx, NavKind.newItem_svn] at hv; cases hv
        · intro d hd; rw [hp] at hd; simp at hd
      · rw [he]
        have := ih s hh
        exact ⟨fun x hx => (this.inv x hx).weaken Contiguous.init Chronological.init (by rw [hgs]), this.fed, this.all⟩
      · rw [he]
        have := ih s hh
        refine ⟨?_, ?_, ?_⟩
        · intro x hx
          obtain ⟨y, hy, rfl⟩ := List.mem_map.1 hx
          obtain ⟨q, d, rfl, hsd⟩ := navHead_gst hh
          refine ((this.inv y hy).weaken Contiguous.init Chronological.init rfl).older ?_ ?_
          rotate_left
          · intro hcc
            have h1 := hcc.last
            have a1 := Gst.subframe_aligned d.gst
            have a2 := Gst.subframe_aligned c.gst
            have hne : c.gst.subframe.abs ≠ d.gst.subframe.abs := fun h => hgs (by rw [hsd]; exact (Gst.abs_inj h).symm)
            unfold Gst.Aligned at a1 a2
            rw [hsd]; omega
          intro hcc
          rcases hcc.last with h | h
          · exact absurd (by rw [hsd]; exact (Gst.abs_inj h).symm) hgs
          · rw [hsd]; exact h
        · intro x hx v hv
          obtain ⟨y, hy, rfl⟩ := List.mem_map.1 hx
          exact this.fed y hy v hv
        · intro d hd
          obtain ⟨x, hx, hxs⟩ := this.all d hd
          exact ⟨x.older, List.mem_map_of_mem hx, hxs⟩
    obtain ⟨_, _, _, _, _, _, _, h⟩ := hb.upd hn hg hf
    exact h

end Verif
