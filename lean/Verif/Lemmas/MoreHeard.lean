import Verif.Spec.MoreHeard
import Verif.Lemmas.StorageSize
import Verif.Props.Spoofing

/-! # Lemmas: two machines, one of which hears more -/

namespace Verif
open CollectSubframe (snoc_induction)

variable {S : Storage} {C : Crypto} {root0 : Option MerkleTreeNode} {pk0 : Option (PublicKey C)} {slow : Bool}
  {hist : List Call} {log : List (KeyEvent C)} {b : Broadcast C} {G : Svn → Prop}

/-! ## Calls -/

/-- `HearsMore`, call by call. -/
inductive MorePages : List Call → List Call → Prop
  | nil : MorePages [] []
  | word {a a' : List Call} (h : MorePages a a') (c : InavCall) :
      MorePages (a ++ [.inav c.word c.svn c.gst c.band]) (a' ++ [.inav c.word c.svn c.gst c.band])
  | page {a a' : List Call} (h : MorePages a a') (p : Page) : MorePages (a ++ [.osnma p.data p.svn p.gst]) (a' ++ [.osnma p.data p.svn p.gst])
  | extra {a a' : List Call} (h : MorePages a a') (p : Page) : MorePages a (a' ++ [.osnma p.data p.svn p.gst])

theorem inavsOf_sub {a a' : List Call} (h : a.Sublist a') : (inavsOf a).Sublist (inavsOf a') := by unfold inavsOf; exact h.filterMap _

theorem pagesOf_sub {a a' : List Call} (h : a.Sublist a') : (pagesOf a).Sublist (pagesOf a') := by unfold pagesOf; exact h.filterMap _

theorem HearsMore.more {a a' : List Call} (h : HearsMore a a') : MorePages a a' := by
  obtain ⟨h1, h2⟩ := h
  induction a' using snoc_induction generalizing a with
  | h0 => rw [List.sublist_nil.1 h1]; exact .nil
  | h1 l c ih =>
    rcases List.eq_nil_or_concat a with rfl | ⟨r, x, rfl⟩
    · cases c with
      | inav w v g bd =>
        have := congrArg List.length h2
        rw [inavsOf_append'] at this
        simp [inavsOf] at this
      | osnma d v g =>
        rw [inavsOf_append', show inavsOf [Call.osnma d v g] = [] from rfl, List.append_nil] at h2
        exact .extra (ih (List.nil_sublist _) h2) ⟨d, v, g⟩
    · rw [List.concat_eq_append] at *
      have hcase : (r ++ [x]).Sublist l ∨ x = c ∧ r.Sublist l := by
        have := List.reverse_sublist.2 h1
        rw [List.reverse_append, List.reverse_append] at this
        simp only [List.reverse_cons, List.reverse_nil, List.nil_append, List.singleton_append] at this
        cases this with
        | cons _ h => left; rw [← List.reverse_sublist, List.reverse_append]; exact h
        | cons_cons _ h => exact .inr ⟨rfl, List.reverse_sublist.1 h⟩
      rcases hcase with hs | ⟨rfl, hs⟩
      · cases c with
        | inav w v g bd =>
          exfalso
          have h3 := (inavsOf_sub hs).length_le
          have := congrArg List.length h2
          rw [inavsOf_append' l, List.length_append, show (inavsOf [Call.inav w v g bd]).length = 1 from rfl] at this
          omega
        | osnma d v g =>
          rw [inavsOf_append' l, show inavsOf [Call.osnma d v g] = [] from rfl, List.append_nil] at h2
          exact .extra (ih hs h2) ⟨d, v, g⟩
      · rw [inavsOf_append' r, inavsOf_append' l] at h2
        have := List.append_cancel_right h2
        cases x with
        | inav w v g bd => exact .word (ih hs this) ⟨w, v, g, bd⟩
        | osnma d v g => exact .page (ih hs this) ⟨d, v, g⟩

theorem MorePages.sub {a a' : List Call} (h : MorePages a a') : a.Sublist a' := by
  induction h with
  | nil => exact List.Sublist.refl _
  | word _ c ih => exact ih.append (List.Sublist.refl _)
  | page _ p ih => exact ih.append (List.Sublist.refl _)
  | extra _ p ih => exact ih.trans (List.sublist_append_left _ _)

theorem MorePages.words {a a' : List Call} (h : MorePages a a') : inavsOf a = inavsOf a' := by
  induction h with
  | nil => rfl
  | word _ c ih => rw [inavsOf_append', inavsOf_append', ih]
  | page _ p ih => rw [inavsOf_append', inavsOf_append', ih]
  | extra _ p ih => rw [inavsOf_append', ih]; exact (List.append_nil _).symm

/-! ## Frames -/

/-- Frames with at most the same authentication bits. -/
theorem Lined.below {n : Nat} {A B Z : List NavFrame} (h : Lined (· ≤ ·) n B Z) (hlen : A.length = B.length)
    (hget : ∀ {i : Nat} {x y : NavFrame}, A[i]? = some x → B[i]? = some y → x.gst = y.gst ∧ x.words = y.words ∧ ∀ kd v, x.auth kd v ≤ y.auth kd v) :
    Lined (· ≤ ·) n A Z := by
  refine ⟨hlen.trans h.len, fun {i x z} hx hz => ?_⟩
  have hi := (List.getElem?_eq_some_iff.1 hx).1
  obtain ⟨y, hy⟩ : ∃ y, B[i]? = some y := ⟨B[i]'(by omega), List.getElem?_eq_getElem _⟩
  obtain ⟨a1, a2, a3⟩ := hget hx hy
  obtain ⟨b1, b2, b3⟩ := h.get hy hz
  exact ⟨a1.trans b1, a2.trans b2, fun kd v => Nat.le_trans (a3 kd v) (b3 kd v)⟩

/-- More checks in the second machine. -/
theorem Lined.more {n : Nat} {A Z : List NavFrame} (h : Lined (· ≤ ·) n A Z) (hcap : ∀ x ∈ A, ∀ kd v, x.auth kd v ≤ 65535) (us : NavKind → List TagUse) :
    Lined (· ≤ ·) n A (tagsChecked C us Z) := by
  unfold tagsChecked
  refine ⟨by rw [List.length_map]; exact h.len, fun {i x z} hx hz => ?_⟩
  rw [List.getElem?_map, Option.map_eq_some_iff] at hz
  obtain ⟨y, hy, rfl⟩ := hz
  obtain ⟨b1, b2, b3⟩ := h.get hx hy
  refine ⟨b1, b2, fun kd v => ?_⟩
  have := b3 kd v
  have := hcap x (List.mem_of_getElem? hx) kd v
  dsimp only
  omega

theorem capped_word {depth : Nat} {c : InavCall} {A : List NavFrame} (h : ∀ x ∈ A, ∀ kd v, x.auth kd v ≤ 65535) :
    ∀ x ∈ wordReceived depth c A, ∀ kd v, x.auth kd v ≤ 65535 := by
  cases A with
  | nil =>
    intro x hx kd v
    unfold wordReceived at hx
    rw [List.mem_singleton.1 hx]
    exact Nat.zero_le _
  | cons f fs =>
    intro x hx kd v
    unfold wordReceived at hx
    rcases List.mem_cons.1 hx with rfl | hx
    · dsimp only
      split
      · exact h f (by simp) kd v
      · exact Nat.zero_le _
    · split at hx
      · exact h x (by simp [hx]) kd v
      · exact h x (List.mem_of_mem_take hx) kd v

theorem capped_checked (us : NavKind → List TagUse) (A : List NavFrame) : ∀ x ∈ tagsChecked C us A, ∀ kd v, x.auth kd v ≤ 65535 := by
  intro x hx kd v
  unfold tagsChecked at hx
  obtain ⟨y, _, rfl⟩ := List.mem_map.1 hx
  exact Nat.min_le_left _ _

theorem NavMachine.capped {rs : List Received} {fs : List NavFrame} (h : NavMachine root0 pk0 S slow hist rs log fs) :
    ∀ x ∈ fs, ∀ kd v, x.auth kd v ≤ 65535 := by
  induction h with
  | nil => intro x hx; cases hx
  | word c h ih => exact capped_word ih
  | zero p _ hz ih => exact ih
  | page p _ hz hn ih => exact ih
  | subframe p r _ hz hr h₁ h₂ h₃ ih =>
    cases h₃ with
    | none => exact ih
    | key k t1 t10 t11 h1 h10 h11 => exact capped_checked _ _

/-- Checking tags and then receiving a word of the subframe of the key leaves at least as many authentication bits as the other order. -/
theorem word_checked {n : Nat} {c : InavCall} {fs : List NavFrame} {us : NavKind → List TagUse} {p : List InavCall}
    (hends : (∀ f ∈ fs, EndsWithWord p f) ∧ (fs.head?.map NavFrame.words).getD [] = p)
    (htime : ∀ kd, ∀ u ∈ us kd, u.gst.abs - 30 < c.gst.subframe.abs)
    (hret : ∀ (kd : NavKind) (v : Svn), kd.expected (p ++ [c]) v ≠ kd.expected p v → ∀ q, q <+: p → kd.expected q v ≠ kd.expected (p ++ [c]) v)
    {Z : List NavFrame} {m : Nat} (h : Lined (· ≤ ·) m (wordReceived n c (tagsChecked C us fs)) Z) :
    Lined (· ≤ ·) m (tagsChecked C us (wordReceived n c fs)) Z := by
  cases fs with
  | nil =>
    refine h.below rfl fun {i x y} hx hy => ?_
    unfold tagsChecked wordReceived at hx hy
    cases i with
    | succ i => simp at hx
    | zero =>
      simp only [List.map_cons, List.map_nil, List.getElem?_cons_zero, Option.some.injEq] at hx hy
      subst hx; subst hy
      refine ⟨rfl, rfl, fun kd v => ?_⟩
      dsimp only
      have : gainFor C [⟨c.gst.subframe, [c], fun _ _ => 0⟩] (us kd) kd v ⟨c.gst.subframe, [c], fun _ _ => 0⟩ ≤ gainFor C [] [] kd v ⟨c.gst.subframe, [c], fun _ _ => 0⟩ := by
        have e : us kd = (us kd) ++ [] := (List.append_nil _).symm
        unfold gainFor
        simp only [List.map_nil, List.sum_nil, Nat.le_zero]
        rw [List.sum_eq_zero_iff_forall_eq_nat]
        intro z hz
        obtain ⟨u, hu, rfl⟩ := List.mem_map.1 hz
        rw [if_neg]
        rintro ⟨_, _, _, _, y, hy, e, _⟩
        rw [List.mem_singleton] at hy
        have := htime kd u hu
        rw [hy] at e
        dsimp only at e
        omega
      unfold gainFor at this ⊢
      simp only [List.map_nil, List.sum_nil] at this
      omega
  | cons f fs =>
    have hfp : f.words = p := hends.2
    -- the frames before the current subframe
    have key : ∀ {L : List NavFrame} (f' : NavFrame), f'.gst = c.gst.subframe → (∀ y ∈ L, y ∈ f :: fs) → ∀ {kd : NavKind} {v : Svn} {x : NavFrame},
        ∀ u ∈ us kd, u.CountsFor C (f' :: L) kd v x → u.CountsFor C (f :: fs) kd v x := by
      intro L f' hf' hL kd v x u hu hc
      obtain ⟨h1, h2, h3, h4, y, hy, h5, h6⟩ := hc
      refine ⟨h1, h2, h3, h4, y, ?_, h5, h6⟩
      rcases List.mem_cons.1 hy with rfl | hy
      · have := htime kd u hu
        rw [hf'] at h5
        omega
      · exact hL y hy
    -- the current one
    have head : ∀ {L : List NavFrame} (f' : NavFrame), f'.gst = c.gst.subframe → f'.words = f.words ++ [c] → (∀ y ∈ L, y ∈ f :: fs) →
        ∀ kd v, min 65535 ((if kd.expected (f.words ++ [c]) v = f.data kd v then f.auth kd v else 0) + gainFor C (f' :: L) (us kd) kd v f') ≤
          if kd.expected (f.words ++ [c]) v = f.data kd v then min 65535 (f.auth kd v + gainFor C (f :: fs) (us kd) kd v f) else 0 := by
      intro L f' hf' hw hL kd v
      by_cases he : kd.expected (f.words ++ [c]) v = f.data kd v
      · rw [if_pos he, if_pos he]
        have hd : f'.data kd v = f.data kd v := by unfold NavFrame.data at *; rw [hw]; exact he
        have := gain_mono (C := C) (fs := f' :: L) (fs' := f :: fs) (List.Sublist.refl (us kd)) (kd := kd) (v := v) (f := f') (f' := f) (by
          intro u hu hc
          obtain ⟨h1, h2, h3, h4, y, hy, h5, h6, h7, h8, h9⟩ := key f' hf' hL u hu hc
          rw [hd] at h8 h9
          refine ⟨h1, h2, h3, ?_, y, hy, h5, h6, h7, h8, h9⟩
          obtain ⟨r, l, e1, _⟩ := hends.1 y hy
          obtain ⟨z, hz, hzv⟩ := h6
          exact ⟨z, by rw [hfp, e1]; exact List.mem_append_left _ hz, hzv⟩)
        omega
      · rw [if_neg he, if_neg he, Nat.zero_add]
        have : gainFor C (f' :: L) (us kd) kd v f' = 0 := by
          unfold gainFor
          rw [List.sum_eq_zero_iff_forall_eq_nat]
          intro z hz
          obtain ⟨u, hu, rfl⟩ := List.mem_map.1 hz
          rw [if_neg]
          intro hc
          obtain ⟨h1, h2, h3, h4, y, hy, h5, h6, h7, h8, h9⟩ := key f' hf' hL u hu hc
          obtain ⟨r, l, e1, _⟩ := hends.1 y hy
          have := hret kd v (by rw [← hfp]; exact he) y.words ⟨r, e1.symm⟩
          unfold NavFrame.data at h8
          rw [hw, hfp] at h8
          exact this h8.symm
        rw [this]
        exact Nat.min_le_right _ _
    by_cases hg : f.gst = c.gst.subframe
    · refine h.below ?_ fun {i x y} hx hy => ?_
      · unfold tagsChecked wordReceived
        simp only [List.map_cons, List.length_map, List.length_cons]
        rw [if_pos hg, if_pos hg, List.length_map]
      · unfold tagsChecked wordReceived at hx hy
        simp only [List.map_cons] at hx hy
        rw [if_pos hg] at hx hy
        cases i with
        | zero =>
          simp only [List.getElem?_cons_zero, Option.some.injEq] at hx hy
          subst hx; subst hy
          refine ⟨rfl, rfl, fun kd v => ?_⟩
          exact head ⟨c.gst.subframe, f.words ++ [c], _⟩ rfl rfl (fun y hy => List.mem_cons_of_mem _ hy) kd v
        | succ i =>
          rw [List.getElem?_cons_succ, List.getElem?_map, Option.map_eq_some_iff] at hx hy
          obtain ⟨z, hz, rfl⟩ := hx
          obtain ⟨z', hz', rfl⟩ := hy
          rw [hz] at hz'
          obtain rfl := Option.some.inj hz'
          refine ⟨rfl, rfl, fun kd v => ?_⟩
          dsimp only
          have := gain_mono (C := C) (List.Sublist.refl (us kd)) (kd := kd) (v := v) (f := z) (f' := z)
            (key ⟨c.gst.subframe, f.words ++ [c], fun kd v => if kd.expected (f.words ++ [c]) v = f.data kd v then f.auth kd v else 0⟩ rfl
              (fun y hy => List.mem_cons_of_mem _ hy : ∀ y ∈ fs, _))
          omega
    · refine h.below ?_ fun {i x y} hx hy => ?_
      · unfold tagsChecked wordReceived
        simp only [List.map_cons, List.length_map, List.length_cons]
        rw [if_neg hg, if_neg hg, List.length_take, List.length_take]
        simp
      · unfold tagsChecked wordReceived at hx hy
        simp only [List.map_cons] at hx hy
        rw [if_neg hg] at hx hy
        cases i with
        | zero =>
          simp only [List.getElem?_cons_zero, Option.some.injEq] at hx hy
          subst hx; subst hy
          refine ⟨rfl, rfl, fun kd v => ?_⟩
          exact head ⟨c.gst.subframe, f.words ++ [c], _⟩ rfl rfl (fun y hy => List.mem_of_mem_take hy) kd v
        | succ i =>
          have hy : ((f :: fs).map (fun x : NavFrame => { x with auth := fun kd v => min 65535 (x.auth kd v + gainFor C (f :: fs) (us kd) kd v x) })
            |>.take (n - 1))[i]? = some y := hy
          rw [List.getElem?_cons_succ, List.getElem?_map, Option.map_eq_some_iff] at hx
          rw [List.getElem?_take] at hy
          obtain ⟨z, hz, rfl⟩ := hx
          rw [List.getElem?_take] at hz
          split at hz
          · rename_i hin
            rw [if_pos hin, List.getElem?_map, Option.map_eq_some_iff] at hy
            obtain ⟨z', hz', rfl⟩ := hy
            rw [hz] at hz'
            obtain rfl := Option.some.inj hz'
            refine ⟨rfl, rfl, fun kd v => ?_⟩
            dsimp only
            have := gain_mono (C := C) (List.Sublist.refl (us kd)) (kd := kd) (v := v) (f := z) (f' := z)
              (key ⟨c.gst.subframe, f.words ++ [c], fun kd v => if kd.expected (f.words ++ [c]) v = f.data kd v then f.auth kd v else 0⟩ rfl
                (fun y hy => List.mem_of_mem_take hy : ∀ y ∈ (f :: fs).take (n - 1), _))
            omega
          · cases hz

end Verif
