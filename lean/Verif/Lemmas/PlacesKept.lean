import Verif.Lemmas.Places
import Verif.Lemmas.CompleteMack

/-! # Lemmas: when places are kept, and what the entries then are -/

namespace Verif
open CollectSubframe (snoc_induction)

variable {S : Storage}

/-! ## When places are kept -/

theorem append_eq_append_prefix {α : Type} {a b c d : List α} (h : a ++ b = c ++ d) (hl : a.length ≤ c.length) : ∃ e, c = a ++ e ∧ b = e ++ d := by
  rcases List.append_eq_append_iff.1 h with ⟨e, h1, h2⟩ | ⟨e, h1, h2⟩
  · exact ⟨e, h1, h2⟩
  · have : e = [] := by
      have := congrArg List.length h1
      rw [List.length_append] at this
      exact List.length_eq_zero_iff.1 (by omega)
    subst this
    exact ⟨[], by simpa using h1.symm, by simpa using h2.symm⟩

/-- A place kept during some words was kept during the first of them. -/
theorem KeepsPlace.prefix {kd : NavKind} {q r r1 r2 : List InavCall} {v : Svn} (h : KeepsPlace S kd q v r) (hr : r = r1 ++ r2) (hne : r1 ≠ []) :
    KeepsPlace S kd q v r1 := by
  have key : ∀ {r0 : List InavCall} {c : InavCall} {r2 : List InavCall}, KeepsPlace S kd q v r0 → KeepsPlace S kd q v (r0 ++ [c]) →
      r0 ++ [c] = r1 ++ r2 → (∀ r2, r0 = r1 ++ r2 → KeepsPlace S kd q v r1) → KeepsPlace S kd q v r1 := by
    intro r0 c r2 h0 h1 he ih
    rcases List.eq_nil_or_concat r2 with rfl | ⟨r3, d, rfl⟩
    · rw [List.append_nil] at he; rw [← he]; exact h1
    · rw [List.concat_eq_append, ← List.append_assoc] at he
      exact ih r3 (List.append_inj' he rfl).1
  induction h generalizing r2 with
  | gets q c =>
    cases r1 with
    | nil => exact absurd rfl hne
    | cons a r1 =>
      rw [List.cons_append, List.cons.injEq] at hr
      obtain ⟨rfl, h⟩ := hr
      have := List.append_eq_nil_iff.1 h.symm
      rw [this.1]; exact .gets q c
  | own c h hc ih => exact key h (.own c h hc) hr (fun r2 e => ih e key)
  | placed c h hs hc ih _ => exact key h (.placed c h hs hc) hr (fun r2 e => ih e key)
  | fresh c h hc ih => exact key h (.fresh c h hc) hr (fun r2 e => ih e key)

theorem nodup_eraseDups {α : Type} [BEq α] [LawfulBEq α] : ∀ (n : Nat) (l : List α), l.length ≤ n → l.eraseDups.Nodup
  | 0, l, h => by
    have : l = [] := List.length_eq_zero_iff.1 (by omega)
    subst this; simp
  | n + 1, [], _ => by simp
  | n + 1, a :: l, h => by
    rw [List.eraseDups_cons, List.nodup_cons]
    refine ⟨?_, nodup_eraseDups n _ ?_⟩
    · rw [List.mem_eraseDups, List.mem_filter]
      rintro ⟨_, h⟩
      simp at h
    · have := List.length_filter_le (fun b => !b == a) l
      simp only [List.length_cons] at h
      omega

theorem heard_nodup (p : List InavCall) : (heard p).Nodup := nodup_eraseDups _ _ (Nat.le_refl _)

theorem mem_heard {p : List InavCall} {v : Svn} : v ∈ heard p ↔ ∃ c ∈ p, c.svn = v := by
  unfold heard; rw [List.mem_eraseDups, List.mem_map]

/-- Satellites that come before `v`, with `v` and the sender of the word. -/
theorem fresher_bound {kd : NavKind} {q r : List InavCall} {v : Svn} {c : InavCall} (hcv : c.svn ≠ v) {sats : List Svn} (hv : v ∈ sats)
    (hc : c.svn ∈ sats) (hall : ∀ w ∈ kd.fresherThan q r v c, w ∈ sats) : (kd.fresherThan q r v c).length + 2 ≤ sats.length := by
  have hnd : (c.svn :: v :: kd.fresherThan q r v c).Nodup := by
    rw [List.nodup_cons, List.nodup_cons]
    refine ⟨?_, ?_, (heard_nodup _).filter _⟩
    · rw [List.mem_cons]
      rintro (h | h)
      · exact hcv h
      · unfold NavKind.fresherThan at h; simp [List.mem_filter] at h
    · intro h; unfold NavKind.fresherThan at h; simp [List.mem_filter] at h
  have := length_le_of_nodup (m := sats) hnd (by
    intro w hw
    rcases List.mem_cons.1 hw with rfl | hw
    · exact hc
    · rcases List.mem_cons.1 hw with rfl | hw
      · exact hv
      · exact hall w hw)
  simpa using this

theorem fresherThan_heard {kd : NavKind} {q r : List InavCall} {v : Svn} {c : InavCall} {w : Svn} (h : w ∈ kd.fresherThan q r v c) :
    (∃ d ∈ q ++ r, d.svn = w) ∧ kd.oldestAge (q ++ r ++ [c]) w ≤ kd.oldestAge (r ++ [c]) v := by
  unfold NavKind.fresherThan at h
  rw [List.mem_filter, mem_heard] at h
  simp only [decide_eq_true_eq] at h
  exact ⟨h.1, h.2.2.2⟩

/-- With a place for each satellite ever heard, all of them keep theirs. -/
theorem KeepsPlace.of_fits (kd : NavKind) {q r : List InavCall} (c : InavCall) (hf : Fits S (q ++ c :: r)) : KeepsPlace S kd q c.svn (c :: r) := by
  induction r using snoc_induction with
  | h0 => exact .gets q c
  | h1 r d ih =>
    have hf' : Fits S (q ++ c :: r) := by
      obtain ⟨sats, h1, h2⟩ := hf
      refine ⟨sats, h1, fun e he => h2 e ?_⟩
      simp only [List.mem_append, List.mem_cons] at he ⊢
      grind
    rw [← List.cons_append]
    by_cases hd : d.svn = c.svn
    · exact .own d (ih hf') hd
    · refine .fresh d (ih hf') ?_
      obtain ⟨sats, h1, h2⟩ := hf
      have := fresher_bound (kd := kd) (q := q) (r := c :: r) hd (sats := sats) (h2 c (by simp)) (h2 d (by simp)) (by
        intro w hw
        obtain ⟨⟨e, he, rfl⟩, _⟩ := fresherThan_heard hw
        refine h2 e ?_
        simp only [List.mem_append, List.mem_cons] at he ⊢
        grind)
      omega

theorem laterSubframes_suffix {q r : List InavCall} (h : Chronological (q ++ r)) {d : InavCall} (hd : d ∈ r) :
    laterSubframes (q ++ r) d.gst.subframe = laterSubframes r d.gst.subframe := by
  have hpw : ∀ e ∈ q, e.gst.subframe.abs ≤ d.gst.subframe.abs := by
    intro e he
    obtain ⟨r1, r2, rfl⟩ := List.append_of_mem hd
    have : Chronological (q ++ r1 ++ [d]) := by
      intro i a b ha hb
      have l1 : i < (q ++ r1 ++ [d]).length := (List.getElem?_eq_some_iff.1 ha).1
      have l2 : i + 1 < (q ++ r1 ++ [d]).length := (List.getElem?_eq_some_iff.1 hb).1
      have e : q ++ (r1 ++ d :: r2) = (q ++ r1 ++ [d]) ++ r2 := by simp
      rw [e] at h
      exact h i a b (by rw [List.getElem?_append_left l1]; exact ha) (by rw [List.getElem?_append_left l2]; exact hb)
    exact this.le_last e (by simp [he])
  unfold laterSubframes
  rw [List.map_append, List.filter_append]
  have : (q.map (fun c => c.gst.subframe)).filter (fun h => decide (d.gst.subframe.abs < h.abs)) = [] := by
    rw [List.filter_eq_nil_iff]
    intro g hg
    obtain ⟨e, he, rfl⟩ := List.mem_map.1 hg
    have := hpw e he
    simp only [decide_eq_true_eq]; omega
  rw [this, List.nil_append]

theorem NavKind.fields_nonempty (kd : NavKind) : ∃ f, f ∈ kd.fields := by cases kd <;> exact ⟨_, List.mem_cons_self⟩

/-- A satellite whose oldest field is recent was heard recently. -/
theorem heardWithin_of_age {kd : NavKind} {p q r : List InavCall} (hp : p = q ++ r) (hchr : Chronological p) {v : Svn} {K : Nat} (hK : K ≤ 255)
    (h : kd.oldestAge r v < K) : v ∈ heardWithin K p := by
  obtain ⟨f, hf⟩ := kd.fields_nonempty
  have h1 : kd.fieldAge r v f ≤ kd.oldestAge r v :=
    ((NavItem.foldl_max_le (l := kd.fields.map (kd.fieldAge r v)) (a := 0)).1 (Nat.le_refl _)).2 _ (List.mem_map_of_mem hf)
  have h2 : kd.fieldAge r v f < K := by omega
  unfold NavKind.fieldAge at h2
  split at h2
  · rename_i c hc
    have hm := NavKind.latest_mem hc
    have hcv : c.svn = v := by
      unfold NavKind.latest at hc
      have := (List.mem_filter.1 (List.mem_of_getLast? hc)).2
      simp only [Bool.and_eq_true, beq_iff_eq] at this
      exact this.1
    unfold heardWithin
    rw [mem_heard]
    refine ⟨c, ?_, hcv⟩
    rw [List.mem_filter]
    subst hp
    refine ⟨by simp [hm], ?_⟩
    rw [laterSubframes_suffix hchr hm]
    simp only [decide_eq_true_eq]; omega
  · omega

/-- **Satellites in view.**  A satellite whose fields are all refreshed every `K` subframes, and that has a place, keeps it as long as not
more satellites than there are places are heard in any `K` subframes in a row. -/
theorem KeepsPlace.in_view {kd : NavKind} {q r t : List InavCall} {v : Svn} (h : KeepsPlace S kd q v r) {K : Nat} (hK : 0 < K) (hK' : K ≤ 255)
    (hchr : Chronological (q ++ (r ++ t)))
    (hage : ∀ t1 t2, t = t1 ++ t2 → kd.oldestAge (r ++ t1) v < K)
    (hview : ∀ t1 t2, t = t1 ++ t2 → (heardWithin K (q ++ (r ++ t1))).length ≤ S.numSats) : KeepsPlace S kd q v (r ++ t) := by
  induction t using snoc_induction with
  | h0 => rw [List.append_nil]; exact h
  | h1 t c ih =>
    rw [← List.append_assoc r] at hchr ⊢
    have ih := ih (by rw [← List.append_assoc q] at hchr; exact hchr.init)
      (fun t1 t2 he => hage t1 (t2 ++ [c]) (by rw [he, List.append_assoc])) (fun t1 t2 he => hview t1 (t2 ++ [c]) (by rw [he, List.append_assoc]))
    by_cases hc : c.svn = v
    · exact .own c ih hc
    · refine .fresh c ih ?_
      have ha := hage (t ++ [c]) [] (by simp)
      have hb := hview (t ++ [c]) [] (by simp)
      rw [← List.append_assoc r] at ha
      rw [← List.append_assoc r] at hb
      have := fresher_bound (kd := kd) (q := q) (r := r ++ t) hc (sats := heardWithin K (q ++ (r ++ t ++ [c])))
        (heardWithin_of_age rfl hchr hK' ha) ?_ ?_
      · omega
      · unfold heardWithin
        rw [mem_heard]
        refine ⟨c, ?_, rfl⟩
        rw [List.mem_filter]
        refine ⟨by simp, ?_⟩
        rw [laterSubframes_zero]
        · simpa using hK
        · rw [← List.append_assoc q] at hchr ⊢
          exact hchr.le_last
      · intro w hw
        obtain ⟨_, hle⟩ := fresherThan_heard hw
        refine heardWithin_of_age (q := []) (r := q ++ (r ++ t) ++ [c]) (by simp) hchr hK' (kd := kd) ?_
        omega

/-! ## Contents -/

/-- The age of a field is not more than the time since it was received. -/
theorem NavKind.fieldAge_time {kd : NavKind} {v : Svn} {f : NavField} {r : List InavCall} {l c : InavCall}
    (hchr : Chronological (r ++ [l])) (hc : kd.latest (r ++ [l]) v f = some c) :
    30 * (kd.fieldAge (r ++ [l]) v f : Int) ≤ l.gst.subframe.abs - c.gst.subframe.abs := by
  induction r using snoc_induction generalizing l c with
  | h0 =>
    rw [latest_snoc] at hc
    have h := (NavKind.fieldAge_snoc (p := []) hchr kd v f).2 (by simp)
    split at hc
    · rename_i hh
      cases hc
      rw [h, if_pos hh]; omega
    · simp [latest] at hc
  | h1 r d ih =>
    have h := NavKind.fieldAge_step hchr kd v f
    rw [latest_snoc] at hc
    split at hc
    · rename_i hh
      cases hc
      rw [h, if_pos hh]; omega
    · rename_i hh
      rw [if_neg hh] at h
      have ih := ih hchr.init hc
      have hl := hchr.last
      rw [h]
      split
      · rename_i hs
        rw [← hs]; exact ih
      · rename_i hs
        have hne : d.gst.subframe.abs ≠ l.gst.subframe.abs := fun h => hs (Gst.abs_inj h)
        have a1 := Gst.subframe_aligned d.gst
        have a2 := Gst.subframe_aligned l.gst
        unfold Gst.Aligned at a1 a2
        omega

theorem NavItem.bits_of_segs {kd : NavKind} {x : NavItem} {F : NavField → List Bool}
    (h : ∀ (i : Nat) (f : NavField), kd.fields[i]? = some f → x.seg kd i f = F f) : x.messageBits kd.nbits = kd.fields.flatMap F := by
  cases kd with
  | ced =>
    have e0 := h 0 _ rfl
    have e1 := h 1 _ rfl
    have e2 := h 2 _ rfl
    have e3 := h 3 _ rfl
    have e4 := h 4 _ rfl
    simp only [NavKind.fields, List.flatMap_cons, List.flatMap_nil, List.append_nil]
    rw [← e0, ← e1, ← e2, ← e3, ← e4]
    simp only [NavItem.seg, NavItem.messageBits, NavKind.off, NavKind.fields, NavKind.nbits, NavField.len]
    simp only [List.take_succ_cons, List.take_zero, List.map_cons, List.map_nil, List.sum_cons, List.sum_nil, List.drop_zero]
    rw [show (549 : Nat) = 120 + (120 + (122 + (120 + 67))) from rfl, List.take_add, List.take_add, List.take_add, List.take_add]
    simp only [List.drop_drop]
    rfl
  | timing =>
    have e0 := h 0 _ rfl
    have e1 := h 1 _ rfl
    simp only [NavKind.fields, List.flatMap_cons, List.flatMap_nil, List.append_nil]
    rw [← e0, ← e1]
    simp only [NavItem.seg, NavItem.messageBits, NavKind.off, NavKind.fields, NavKind.nbits, NavField.len]
    simp only [List.take_succ_cons, List.take_zero, List.map_cons, List.map_nil, List.sum_cons, List.sum_nil, List.drop_zero]
    rw [show (141 : Nat) = 99 + 42 from rfl, List.take_add]
    rfl

theorem NavKind.latest_append {kd : NavKind} {q r : List InavCall} {v : Svn} {f : NavField} {c : InavCall} (h : kd.latest r v f = some c) :
    kd.latest (q ++ r) v f = some c := by
  unfold latest at *
  rw [List.filter_append, List.getLast?_append, h]; rfl

/-- All the fields received: the entry is the expected data. -/
theorem HolderOf.complete {kd : NavKind} {q r : List InavCall} {A : NavField → Nat} {v : Svn} {x : NavItem} (h : HolderOf kd r A v x)
    (hall : ∀ f ∈ kd.fields, ∃ c, kd.latest r v f = some c) : x.messageBits kd.nbits = kd.expected (q ++ r) v := by
  unfold NavKind.expected
  refine NavItem.bits_of_segs ?_
  intro i f hf
  obtain ⟨c, hc⟩ := hall f (List.mem_of_getElem? hf)
  rw [(h.field i f c hf hc).1]
  unfold NavKind.fieldAfter
  rw [NavKind.latest_append hc]

end Verif
