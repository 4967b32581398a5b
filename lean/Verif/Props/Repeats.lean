import Verif.Lemmas.Repeats

/-! # Hearing the same thing more than once (C73) -/

namespace Verif

variable {S : Storage} {C : Crypto}

/-- When all the satellites fit in the storage, there is room. -/
theorem RoomForRepeats.of_fits {p : List InavCall} (h : Fits S p) : RoomForRepeats S p := by
  intro q r t c d he _ _ kd
  refine C65_fits kd c ?_
  obtain ⟨sats, h1, h2⟩ := h
  refine ⟨sats, h1, fun x hx => h2 x ?_⟩
  rw [he]
  exact List.mem_append_left _ hx

/-- **C73, one call.**  A call that repeats an earlier one does nothing. -/
theorem C73_repeat_does_nothing (hS : S.Consistent) {o0 o : Osnma C} (h0 : o0.Fresh S) {hist : List Call} (h : run S o0 hist = .ok o)
    {c : Call} (hh : HeardBySeveral (hist ++ [c])) (hroom : RoomForRepeats S (inavsOf (hist ++ [c])))
    (hrep : ∃ a ∈ hist, a.RepeatedBy c = true) : c.run S o = .ok o := by
  obtain ⟨a, ha, hr⟩ := hrep
  cases c with
  | inav w s g b =>
    cases a with
    | osnma => simp [Call.RepeatedBy] at hr
    | inav w' s' g' b' =>
      rw [Call.repeated_inav] at hr
      obtain ⟨r1, r2, r3, r4⟩ := hr
      have hm : (⟨w', s', g', b'⟩ : InavCall) ∈ inavsOf hist := mem_inavsOf.2 ha
      obtain ⟨q, r, hqr⟩ := List.append_of_mem hm
      have hw := hh.words
      have hst := hh.steady
      rw [inavsOf_snoc] at hw hst hroom
      exact feedInav_repeat hS h0 h (d := ⟨w, s, g, b⟩) hqr hw hst
        (hroom q r [] ⟨w', s', g', b'⟩ ⟨w, s, g, b⟩ (by rw [hqr]; rfl) r2.symm r3.symm) r1.symm r2.symm r3.symm r4.symm
  | osnma d s g =>
    cases a with
    | inav => simp [Call.RepeatedBy] at hr
    | osnma d' s' g' =>
      rw [Call.repeated_osnma] at hr
      obtain ⟨r1, r2, r3, r4⟩ := hr
      by_cases hz : d.val.all (fun x => x == 0#8) = true
      · show o.feedOsnma S d s g = .ok o
        unfold Osnma.feedOsnma
        rw [if_pos hz]
        rfl
      · refine feedOsnma_repeat hS h0 h hh.init ?_ ⟨⟨d', s', g'⟩, mem_pagesOf.2 ⟨ha, r1⟩, r2, r3, r4⟩
        have hp := hh.pages
        rw [pagesOf_snoc, List.pairwise_append] at hp
        exact fun p hp' => hp.2.2 p hp' ⟨d, s, g⟩ (mem_pagesOf.2 ⟨by simp, by simpa using hz⟩)

/-- **C73.**  Feeding what several stations heard is the same as feeding the first copy of each page and word: the calls return, or
panic, in the same way, and leave the same state. -/
theorem C73_repeats (hS : S.Consistent) {o0 : Osnma C} (h0 : o0.Fresh S) {hist : List Call} (hh : HeardBySeveral hist)
    (hroom : RoomForRepeats S (inavsOf hist)) : run S o0 hist = run S o0 (onceEach hist) := by
  induction hist using CollectSubframe.snoc_induction with
  | h0 => rfl
  | h1 l c ih =>
    have ih := ih hh.init hroom.init
    rw [onceEach_snoc]
    split
    · rename_i hany
      obtain ⟨a, ha, hr⟩ := List.any_eq_true.1 hany
      rw [← ih, run_snoc]
      cases h : run S o0 l with
      | panic w => rfl
      | ok o => exact C73_repeat_does_nothing hS h0 h hh hroom ⟨a, (onceEach_sublist l).subset ha, hr⟩
    · rw [run_snoc, run_snoc, ih]

/-- **C73, the same first copies.**  Two groups of stations from which the first copies are the same end with the same answers. -/
theorem C73_same_answers (hS : S.Consistent) {o0 o o' : Osnma C} (h0 : o0.Fresh S) {hist hist' : List Call} (hh : HeardBySeveral hist)
    (hh' : HeardBySeveral hist') (hf : Fits S (inavsOf hist)) (hf' : Fits S (inavsOf hist')) (he : onceEach hist = onceEach hist')
    (h : run S o0 hist = .ok o) (h' : run S o0 hist' = .ok o') (kd : NavKind) (v : Svn) : o.get S kd v = o'.get S kd v := by
  rw [C73_repeats hS h0 hh (.of_fits hf), he, ← C73_repeats hS h0 hh' (.of_fits hf'), h'] at h
  cases h
  rfl

end Verif
