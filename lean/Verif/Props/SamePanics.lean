import Verif.Lemmas.SamePanics
import Verif.Props.Interleaving
import Verif.Props.StorageSize

/-! # C62, C79, C81: panics do not depend on the order of words, on their content or on the storage either -/

namespace Verif

variable {S S' : Storage} {C : Crypto} {root0 : Option MerkleTreeNode} {pk0 : Option (PublicKey C)} {slow slow' : Bool}
  {hist hist' : List Call} {log log' : List (KeyEvent C)} {o o' : Osnma C}

/-- **C62.** If the parameters of the chains signed so far fit together (see C39), two receivers with the same Merkle tree root and public
key that are given the same pages both return or both panic, and give the same messages, whatever their storage sizes and Slow MAC
settings and whatever words they are given in between. -/
theorem C62_same_panics (hS : S.Consistent) (hS' : S'.Consistent) (h0 : (Osnma.new S root0 pk0 slow : Osnma C).Fresh S)
    (h0' : (Osnma.new S' root0 pk0 slow' : Osnma C).Fresh S') (hp : pagesOf hist = pagesOf hist')
    (hg : ∀ p ∈ pagesOf hist, 360 ≤ p.sub.abs) {log : List (KeyEvent C)} (hs : SensibleLog log) :
    (∃ o, Logs S (Osnma.new S root0 pk0 slow) hist log o) ↔ ∃ o', Logs S' (Osnma.new S' root0 pk0 slow') hist' log o' := by
  constructor
  · rintro ⟨o, h⟩
    obtain ⟨o', h', _⟩ := Osnma.same_panics hS hS' h0 h0' h hs hg hp
    exact ⟨o', h'⟩
  · rintro ⟨o', h'⟩
    obtain ⟨o, h, _⟩ := Osnma.same_panics hS' hS h0' h0 h' hs (hp ▸ hg) hp.symm
    exact ⟨o, h⟩

/-- **C79.** If the parameters of the chains signed so far fit together (see C39), a history does not panic if one with another interleaving
of the satellites does not. -/
theorem C79_same_panics (hS : S.Consistent) (h0 : (Osnma.new S root0 pk0 slow : Osnma C).Fresh S)
    (h : Logs S (Osnma.new S root0 pk0 slow) hist log o) (hi : Interleaved hist hist') (hs : SensibleLog log)
    (hg : ∀ p ∈ pagesOf hist, 360 ≤ p.sub.abs) (hpages : (pagesOf hist).Pairwise (fun a b => a.sub.abs ≤ b.sub.abs))
    (hwords : Chronological (inavsOf hist)) (hfits : Fits S (inavsOf hist)) :
    ∃ o', Logs S (Osnma.new S root0 pk0 slow) hist' log o' := by
  induction hi generalizing o with
  | same => exact ⟨o, h⟩
  | swap a b c c' hR =>
    by_cases hw : c.IsWord ∧ c'.IsWord
    · have hp : pagesOf (a ++ c :: c' :: b) = pagesOf (a ++ c' :: c :: b) := by
        cases c with
        | osnma => exact hw.1.elim
        | inav => cases c' with
          | osnma => exact hw.2.elim
          | inav => unfold pagesOf; simp only [List.filterMap_append, List.filterMap_cons]
      obtain ⟨o', h', _⟩ := Osnma.same_panics hS hS h0 h0 h hs hg hp
      exact ⟨o', h'⟩
    · have := (C79_same_state (S := S) (InterleavedBy.swap a b c c' ⟨hR, hw⟩) (Osnma.new S root0 pk0 slow)).1 h.run
      obtain ⟨log', h'⟩ := Logs.of_run this
      obtain ⟨rfl, _⟩ := C79_same_result hS h0 h h' (.swap a b c c' hR) hpages hwords hfits
      exact ⟨o, h'⟩
  | @trans x y z h1 h2 ih1 ih2 =>
    obtain ⟨o1, k1⟩ := ih1 h hg hpages hwords hfits
    obtain ⟨hpages', hwords', hfits'⟩ := h1.assumptions hpages hwords hfits
    refine ih2 k1 ?_ hpages' hwords' hfits'
    obtain ⟨t1, _⟩ := Interleaved.same_times h1
    intro p hp
    have : p.sub ∈ (pagesOf y).map Page.sub := List.mem_map_of_mem hp
    rw [← t1] at this
    obtain ⟨q, hq, e⟩ := List.mem_map.1 this
    rw [← e]
    exact hg q hq

/-- **C79.** So every getter answers the same after both. -/
theorem C79_same_answers (hS : S.Consistent) (h0 : (Osnma.new S root0 pk0 slow : Osnma C).Fresh S)
    (h : Logs S (Osnma.new S root0 pk0 slow) hist log o) (hi : Interleaved hist hist') (hs : SensibleLog log)
    (hg : ∀ p ∈ pagesOf hist, 360 ≤ p.sub.abs) (hweek : ∀ c ∈ inavsOf hist, 7650 ≤ c.gst.abs)
    (hpages : (pagesOf hist).Pairwise (fun a b => a.sub.abs ≤ b.sub.abs)) (hwords : Chronological (inavsOf hist))
    (hfits : Fits S (inavsOf hist)) :
    ∃ o', Logs S (Osnma.new S root0 pk0 slow) hist' log o' ∧
      ∀ kd v, ∃ res, o.get S kd v = .ok res ∧ o'.get S kd v = .ok res := by
  obtain ⟨o', h'⟩ := C79_same_panics hS h0 h hi hs hg hpages hwords hfits
  refine ⟨o', h', fun kd v => ?_⟩
  obtain ⟨res, r1⟩ := C38_get_returns hS h0 h.run hweek kd v
  have hweek' : ∀ c ∈ inavsOf hist', 7650 ≤ c.gst.abs := by
    obtain ⟨_, _, t3⟩ := hi.same_times
    intro c hc
    obtain ⟨x, hx, e⟩ := List.mem_filterMap.1 hc
    exact hweek c (List.mem_filterMap.2 ⟨x, (t3 x).2 hx, e⟩)
  obtain ⟨res', r2⟩ := C38_get_returns hS h0 h'.run hweek' kd v
  obtain ⟨_, e⟩ := C79_same_result hS h0 h h' hi hpages hwords hfits
  rw [e kd v res res' r1 r2] at r2
  exact ⟨res, r1, r2⟩

/-- **C81.** With the documented sizes, more storage changes nothing: if the parameters of the chains signed so far fit together (see C39),
the larger receiver does not panic if the smaller one does not, and its getters answer the same, apart from data older than the smaller one
keeps. -/
theorem C81_larger_receiver (hS : S.Consistent) (hS' : S'.Consistent) (hw : S.Within S')
    (ho : (Osnma.new S root0 pk0 slow : Osnma C).Fresh S) (ho' : (Osnma.new S' root0 pk0 slow : Osnma C).Fresh S')
    (h : Logs S (Osnma.new S root0 pk0 slow) hist log o) (hord : CallsInOrder hist) (hfits : Fits S (inavsOf hist)) (hpf : PagesFit S hist)
    (hen : S.Enough hist log) (hs : SensibleLog log) (hg : ∀ p ∈ pagesOf hist, 360 ≤ p.sub.abs)
    (hweek : ∀ c ∈ inavsOf hist, 7650 ≤ c.gst.abs) :
    ∃ o', Logs S' (Osnma.new S' root0 pk0 slow) hist log o' ∧ ∀ kd v, ∃ res res', o.get S kd v = .ok res ∧ o'.get S' kd v = .ok res' ∧
      (res' = res ∨ res = none ∧ ∃ d', res' = some d' ∧ S.navDepth ≤ laterSubframes (inavsOf hist) d'.gst) := by
  obtain ⟨o', h', _⟩ := Osnma.same_panics hS hS' ho ho' h hs hg rfl
  refine ⟨o', h', fun kd v => ?_⟩
  obtain ⟨res, r1⟩ := C38_get_returns hS ho h.run hweek kd v
  obtain ⟨res', r2⟩ := C38_get_returns hS' ho' h'.run hweek kd v
  exact ⟨res, res', r1, r2, (C81_documented_sizes_suffice hS hS' hw ho ho' h h' hord hfits hpf hen r1 r2).2⟩

end Verif
