import Verif.Lemmas.Interleaving
import Verif.Lemmas.InterleavingPages
import Verif.Props.NavMachine
import Verif.Props.Disclosure

/-! # C79: the interleaving of satellites does not matter -/

namespace Verif

variable {S : Storage} {C : Crypto} {root0 : Option MerkleTreeNode} {pk0 : Option (PublicKey C)} {slow : Bool}
  {hist hist' : List Call} {log log' : List (KeyEvent C)} {o o' : Osnma C}

/-- Two parts of a history, each call of one independent of each call of the other, can be exchanged. -/
theorem InterleavedBy.blocks {R : Call → Call → Prop} (a b : List Call) {xs ys : List Call} (h : ∀ x ∈ xs, ∀ y ∈ ys, R x y) :
    InterleavedBy R (a ++ (xs ++ ys) ++ b) (a ++ (ys ++ xs) ++ b) := by
  have one : ∀ (x : Call) (ys : List Call) (a b : List Call), (∀ y ∈ ys, R x y) →
      InterleavedBy R (a ++ ([x] ++ ys) ++ b) (a ++ (ys ++ [x]) ++ b) := by
    intro x ys
    induction ys with
    | nil => intro a b _; simpa using InterleavedBy.same _
    | cons y ys ih =>
      intro a b hy
      have h1 : InterleavedBy R (a ++ x :: y :: (ys ++ b)) (a ++ y :: x :: (ys ++ b)) := .swap a (ys ++ b) x y (hy y (by simp))
      have h2 := ih (a ++ [y]) b (fun z hz => hy z (by simp [hz]))
      refine .trans (by simpa using h1) (by simpa using h2)
  induction xs generalizing a b with
  | nil => simpa using InterleavedBy.same _
  | cons x xs ih =>
    have h1 := ih (a ++ [x]) b (fun z hz => h z (by simp [hz]))
    have h2 := one x ys a (xs ++ b) (h x (by simp))
    refine .trans (by simpa using h1) (by simpa using h2)

/-- **C79.** Two histories that are the same up to the interleaving of words and pages, with the words in the same order, lead to the
very same state, from any state and with any storage sizes; in particular one panics if and only if the other does, and all results
afterwards are the same. -/
theorem C79_same_state (hi : PagesInterleaved hist hist') (o₀ : Osnma C) :
    run S o₀ hist = .ok o ↔ run S o₀ hist' = .ok o := by
  have step : ∀ {a b : List Call} {c c' : Call} {o : Osnma C}, c.Independent c' ∧ ¬ (c.IsWord ∧ c'.IsWord) →
      run S o₀ (a ++ c :: c' :: b) = .ok o → run S o₀ (a ++ c' :: c :: b) = .ok o := by
    intro a b c c' o hR h
    have e : ∀ x y : Call, a ++ x :: y :: b = a ++ [x] ++ [y] ++ b := by intro x y; simp
    rw [e] at h ⊢
    clear e
    induction b using CollectSubframe.snoc_induction generalizing o with
    | h0 =>
      rw [List.append_nil] at h ⊢
      obtain ⟨o2, h, h2⟩ := run_snoc_ok.1 h
      obtain ⟨o1, h, h1⟩ := run_snoc_ok.1 h
      obtain ⟨o1', k1, k2⟩ := run_swap hR.1 hR.2 h1 h2
      exact run_snoc_ok.2 ⟨o1', run_snoc_ok.2 ⟨o1, h, k1⟩, k2⟩
    | h1 b d ih =>
      rw [← List.append_assoc] at h ⊢
      obtain ⟨o2, h, h2⟩ := run_snoc_ok.1 h
      exact run_snoc_ok.2 ⟨o2, ih h, h2⟩
  have symm : ∀ {c c' : Call}, c.Independent c' ∧ ¬ (c.IsWord ∧ c'.IsWord) → c'.Independent c ∧ ¬ (c'.IsWord ∧ c.IsWord) := by
    intro c c' ⟨h1, h2⟩
    refine ⟨?_, fun h => h2 ⟨h.2, h.1⟩⟩
    cases c <;> cases c' <;> first
      | exact ⟨h1.1.imp Ne.symm Ne.symm, h1.2.symm⟩
      | exact ⟨Ne.symm h1.1, h1.2.1.symm, fun h => h1.2.2 ⟨h.2, h.1⟩⟩
      | exact h1
  induction hi generalizing o with
  | same => rfl
  | swap a b c c' hR => exact ⟨step hR, step (symm hR)⟩
  | trans _ _ ih ih' => exact ih.trans ih'

/-- What is assumed about the order of the calls does not depend on the interleaving. -/
theorem InterleavedBy.assumptions (hi : Interleaved hist hist')
    (hpages : (pagesOf hist).Pairwise (fun a b => a.sub.abs ≤ b.sub.abs)) (hwords : Chronological (inavsOf hist))
    (hfits : Fits S (inavsOf hist)) :
    (pagesOf hist').Pairwise (fun a b => a.sub.abs ≤ b.sub.abs) ∧ Chronological (inavsOf hist') ∧ Fits S (inavsOf hist') := by
  obtain ⟨t1, t2, t3⟩ := hi.same_times
  have hpages' : (pagesOf hist').Pairwise (fun a b => a.sub.abs ≤ b.sub.abs) := by
    have : ((pagesOf hist).map Page.sub).Pairwise (fun a b => a.abs ≤ b.abs) := (List.pairwise_map (R := fun a b : Gst => a.abs ≤ b.abs)).2 hpages
    rw [t1] at this
    exact (List.pairwise_map (R := fun a b : Gst => a.abs ≤ b.abs)).1 this
  have hwords' : Chronological (inavsOf hist') := by
    intro i a b ha hb
    have ea : ((inavsOf hist').map (fun c => c.gst.subframe))[i]? = some a.gst.subframe := by rw [List.getElem?_map, ha]; rfl
    have eb : ((inavsOf hist').map (fun c => c.gst.subframe))[i + 1]? = some b.gst.subframe := by rw [List.getElem?_map, hb]; rfl
    rw [← t2, List.getElem?_map] at ea eb
    obtain ⟨x, hx, ex⟩ := Option.map_eq_some_iff.1 ea
    obtain ⟨y, hy, ey⟩ := Option.map_eq_some_iff.1 eb
    rw [← ex, ← ey]
    exact hwords i x y hx hy
  have hfits' : Fits S (inavsOf hist') := by
    obtain ⟨sats, f1, f2⟩ := hfits
    refine ⟨sats, f1, ?_⟩
    intro c hc
    obtain ⟨x, hx, e⟩ := List.mem_filterMap.1 hc
    exact f2 c (List.mem_filterMap.2 ⟨x, (t3 x).2 hx, e⟩)
  exact ⟨hpages', hwords', hfits'⟩

/-- **C79.** Two histories in chronological order that are the same up to the interleaving of the words and pages of different satellites
give the same messages about keys and the same authenticated data, as long as there are not more satellites than places. -/
theorem C79_same_result (hS : S.Consistent) (h0 : (Osnma.new S root0 pk0 slow : Osnma C).Fresh S)
    (h : Logs S (Osnma.new S root0 pk0 slow) hist log o) (h' : Logs S (Osnma.new S root0 pk0 slow) hist' log' o')
    (hi : Interleaved hist hist')
    (hpages : (pagesOf hist).Pairwise (fun a b => a.sub.abs ≤ b.sub.abs)) (hwords : Chronological (inavsOf hist))
    (hfits : Fits S (inavsOf hist)) :
    log' = log ∧ ∀ kd v res res', o.get S kd v = .ok res → o'.get S kd v = .ok res' → res' = res := by
  obtain ⟨hpages', hwords', hfits'⟩ := hi.assumptions hpages hwords hfits
  obtain ⟨rs, fs, m, g⟩ := C63_reference_machine hS h0 h hpages hwords hfits
  obtain ⟨rs', fs', m', g'⟩ := C63_reference_machine hS h0 h' hpages' hwords' hfits'
  obtain ⟨⟨ra, la, fa⟩, ma, ⟨e1, e2, e3⟩⟩ := machine_interleaved hi ⟨rs, log, fs⟩ m
  dsimp only at e1 e2 e3 ma
  subst e1 e2
  obtain ⟨_, rfl, rfl⟩ := C63_machine_deterministic m' ma
  refine ⟨rfl, ?_⟩
  intro kd v res res' hr hr'
  have a := g kd v res hr
  have b := g' kd v res' hr'
  rw [← e3.authenticated kd v] at b
  rw [← a] at b
  cases res with
  | none => cases res' with
    | none => rfl
    | some x => cases b
  | some x => cases res' with
    | none => cases b
    | some y =>
      simp only [Option.map_some, Option.some.injEq, Prod.mk.injEq] at b
      obtain ⟨b1, b2, b3⟩ := b
      have b3 := Gst.abs_inj b3
      cases x; cases y
      simp_all

end Verif
