import Verif.Props.Places
import Verif.Props.CompleteExample

/-! # Concrete runs that meet the hypotheses of C65 -/

namespace Verif.Sim
open Verif

/-- Own words only. -/
theorem keepsPlace_own {S : Storage} {kd : NavKind} (q : List InavCall) (c : InavCall) (r : List InavCall) (h : ∀ d ∈ r, d.svn = c.svn) :
    KeepsPlace S kd q c.svn (c :: r) := by
  induction r using CollectSubframe.snoc_induction with
  | h0 => exact .gets q c
  | h1 r d ih =>
    rw [← List.cons_append]
    exact .own d (ih (fun e he => h e (by simp [he]))) (h d (by simp))

/-! ## More satellites heard than places, not all at the same time -/

/-- Three places: satellites 1, 2 and 3; two subframes with satellite 1 only; then satellites 1 and 4. -/
def fourHeard : List Call := turns [1, 2, 3] 36000 ++ (turns [1] 36030 ++ turns [1] 36060 ++ turns [1, 4] 36090)

/-- Four satellites are heard, and satellite 1 keeps its place and data. -/
example : ∃ o, run S3 receiver3 fourHeard = .ok o ∧ (heard (inavsOf fourHeard)).length = 4 ∧
    ∃ s x, (o.stored S3)[0]? = some s ∧ x ∈ s.items .ced ∧ x.svn = some (sv 1) ∧
      x.data.take 549 = NavKind.expected .ced (inavsOf fourHeard) (sv 1) := by
  obtain ⟨L, hL⟩ : ∃ L, storedAfter receiver3 S3 fourHeard = some L := Option.isSome_iff_exists.1 (by decide +kernel)
  obtain ⟨o, ho, _⟩ := storedAfter_some hL
  refine ⟨o, ho, by decide +kernel, ?_⟩
  have hchr : Chronological (inavsOf fourHeard) := by
    have h : ((inavsOf fourHeard).map (fun c => c.gst.subframe.abs)).Pairwise (· ≤ ·) := by decide +kernel
    intro i a b ha hb
    obtain ⟨hi, rfl⟩ := List.getElem?_eq_some_iff.1 ha
    obtain ⟨hj, rfl⟩ := List.getElem?_eq_some_iff.1 hb
    exact List.pairwise_iff_getElem.1 (List.pairwise_map.1 h) i (i + 1) hi hj (Nat.lt_succ_self i)
  have hk : KeepsPlace S3 .ced [] (sv 1) (inavsOf (turns [1, 2, 3] 36000)) := by
    have := C65_fits (S := S3) .ced (q := []) (r := (inavsOf (turns [1, 2, 3] 36000)).tail) ⟨word 1 17, sv 1, gst 36000, .E1B⟩
      ⟨[sv 1, sv 2, sv 3], by decide, by decide +kernel⟩
    exact this
  have htake : ∀ t t1 t2 : List InavCall, t = t1 ++ t2 → t1 = t.take t1.length ∧ t1.length ≤ t.length := by
    intro t t1 t2 h; subst h; simp
  exact (C65_in_view (C := toy) (S := S3) ⟨by decide, by decide, by decide, by decide, by decide⟩ (.inr ⟨pub 1, false, rfl⟩) ho hchr .ced
    (q := []) (r := inavsOf (turns [1, 2, 3] 36000)) (t := inavsOf (turns [1] 36030 ++ turns [1] 36060 ++ turns [1, 4] 36090))
    (by decide +kernel) hk (K := 2) (by decide) (by decide)
    (by
      intro t1 t2 h
      obtain ⟨e1, e2⟩ := htake _ _ _ h
      have : ∀ n, n < 21 → NavKind.oldestAge .ced (inavsOf (turns [1, 2, 3] 36000) ++
        (inavsOf (turns [1] 36030 ++ turns [1] 36060 ++ turns [1, 4] 36090)).take n) (sv 1) < 2 := by decide +kernel
      rw [e1]
      exact this _ (Nat.lt_succ_of_le (Nat.le_trans e2 (by decide +kernel))))
    (by
      intro t1 t2 h
      obtain ⟨e1, e2⟩ := htake _ _ _ h
      have : ∀ n, n < 21 → (heardWithin 2 ([] ++ (inavsOf (turns [1, 2, 3] 36000) ++
        (inavsOf (turns [1] 36030 ++ turns [1] 36060 ++ turns [1, 4] 36090)).take n))).length ≤ S3.numSats := by decide +kernel
      rw [e1]
      exact this _ (Nat.lt_succ_of_le (Nat.le_trans e2 (by decide +kernel))))).2

/-! ## Authentication with more satellites heard than places -/

/-- Satellites 2 and 3 before the nominal scenario, in a storage with two places. -/
def busy : List Call := turns [2, 3] 35940 ++ nominal 8

theorem busy_whole : WholeMack busy (sv 1) (gst 36180) .Test (nomMack 36180) where
  words := by
    rw [show (pagesIn busy (sv 1) (gst 36180)).map Page.word = List.range 15 by decide +kernel]
    exact List.Sublist.refl _
  mack := by decide +kernel
  status := by decide +kernel

theorem busy_inOrder : InOrder S busy (gst 36210) where
  pages := by
    have : ((pagesOf busy).map (fun p => p.sub.abs)).Pairwise (· ≤ ·) := by decide +kernel
    exact List.pairwise_map.1 this
  words := by
    have h : ((inavsOf busy).map (fun c => c.gst.subframe.abs)).Pairwise (· ≤ ·) := by decide +kernel
    intro i a b ha hb
    obtain ⟨hi, rfl⟩ := List.getElem?_eq_some_iff.1 ha
    obtain ⟨hj, rfl⟩ := List.getElem?_eq_some_iff.1 hb
    exact List.pairwise_iff_getElem.1 (List.pairwise_map.1 h) i (i + 1) hi hj (Nat.lt_succ_self i)
  noneAhead := by decide +kernel
  roomPages := fun _ => ⟨[sv 1], by decide, fun p hp _ =>
    (by decide +kernel : ∀ p ∈ pagesOf busy, p.svn ∈ [sv 1]) p hp⟩

theorem busy_genuine : nomTag.Genuine toy S false busy .ced (sv 1) (navData .ced 1 0x35) where
  prnd := by decide +kernel
  status := .inl rfl
  rightKey := .inl ⟨rfl, by decide +kernel, by decide +kernel, rfl⟩
  verifies := by unfold TagSpec.Verifies; decide +kernel
  mack := ⟨nomMack 36180, busy_whole, by decide +kernel, by
    intro vk n h1 h2 h3
    have := derives_same h3 (by dsimp only; rw [h2]; decide +kernel)
    rw [Prod.mk.injEq] at this
    exact nom_right h1 this.2.symm⟩
  data := by decide +kernel
  recent := by decide +kernel
  alive := by decide +kernel
  depthNav := by decide +kernel
  depthMack := by decide +kernel

/-- The last call of the scenario. -/
def busyLast : Call := busy.getLast (by decide +kernel)

theorem busy_event : check withKey (busy.take 185) (fun _ o =>
    (o.events S busyLast).any (fun e => match e with
      | .tesla k => k == nomTag.key
      | _ => false)) = true := by decide +kernel

theorem busy_due : TagDue S withKey false busy .ced (sv 1) (navData .ced 1 0x35) 185 nomTag := by
  obtain ⟨log, o, hl, he⟩ := check_some busy_event
  refine ⟨log, o, busyLast, by decide +kernel, hl, ?_, ?_, ?_, ?_⟩
  · rw [List.any_eq_true] at he
    obtain ⟨e, h1, h2⟩ := he
    cases e with
    | tesla k => rw [← beq_iff_eq.1 h2]; exact h1
    | _ => cases h2
  · rw [show busy.take (185 + 1) = busy from List.take_of_length_le (by decide +kernel)]
    exact busy_inOrder
  · rw [show busy.take (185 + 1) = busy from List.take_of_length_le (by decide +kernel)]
    exact busy_genuine
  · intro h
    exact absurd h (by decide +kernel)

theorem busy_runs : check withKey busy (fun _ _ => true) = true := by decide +kernel

/-- The hypotheses of the last part of C65 are met: three satellites are heard, and there are two places. -/
example : ∃ o d, S.numSats = 2 ∧ (heard (inavsOf busy)).length = 3 ∧ run S withKey busy = .ok o ∧
    o.get S .ced (sv 1) = .ok (some d) ∧ d.data = navData .ced 1 0x35 ∧ 40 ≤ d.authbits := by
  obtain ⟨log, o, hl, _⟩ := check_some busy_runs
  have hk : KeepsPlace S .ced (inavsOf (turns [2, 3] 35940)) (sv 1) (inavsOf (nominal 8)) := by
    have := keepsPlace_own (S := S) (kd := .ced) (inavsOf (turns [2, 3] 35940)) ⟨word 1 0x35, sv 1, gst 36000, .E1B⟩ (inavsOf (nominal 8)).tail
      (by decide +kernel)
    rw [show (⟨word 1 0x35, sv 1, gst 36000, .E1B⟩ : InavCall) :: (inavsOf (nominal 8)).tail = inavsOf (nominal 8) by decide +kernel] at this
    exact this
  obtain ⟨d, h1, h2, h3⟩ := C65_genuine_data_in_view (C := toy) (root0 := none) (pk0 := some (pub 1)) (slow := false)
    S_consistent (.inr ⟨pub 1, false, rfl⟩) hl.run busy_inOrder.words (by decide +kernel) .ced (sv 1)
    (navData .ced 1 0x35) 171 (q := inavsOf (turns [2, 3] 35940)) (r := inavsOf (nominal 8)) (r0 := inavsOf ((nominal 8).take 161))
    (by decide +kernel) (by decide +kernel) hk
    (by
      have : ∀ f ∈ NavKind.fields .ced, (NavKind.latest .ced (inavsOf ((nominal 8).take 161)) (sv 1) f).isSome = true := by decide +kernel
      exact fun f hf => Option.isSome_iff_exists.1 (this f hf))
    (by
      intro i h1 h2
      have : ∀ i, i < 187 → 171 ≤ i → NavKind.expected .ced (inavsOf (busy.take i)) (sv 1) = navData .ced 1 0x35 := by decide +kernel
      exact this i (Nat.lt_succ_of_le (Nat.le_trans h2 (by decide +kernel))) h1)
    [(185, nomTag)] (by simp) (by
      intro p hp
      rw [List.mem_singleton] at hp
      subst hp
      exact ⟨by decide, busy_due⟩)
    (by
      intro p hp c hc hcv
      exact absurd hcv ((by decide +kernel : ∀ c ∈ inavsOf (turns [2, 3] 35940), c.svn ≠ sv 1) c hc))
    (by decide +kernel) (by decide +kernel)
  exact ⟨o, d, rfl, by decide +kernel, hl.run, h1, h2, Nat.le_trans (by decide +kernel) h3⟩

end Verif.Sim
