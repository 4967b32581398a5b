import Verif.Lemmas.OtherWords
import Verif.Lemmas.SamePanics

/-! # C83: the data reported for a satellite does not depend on the words of the others -/

namespace Verif

variable {S : Storage} {C : Crypto} {root0 : Option MerkleTreeNode} {pk0 : Option (PublicKey C)} {slow : Bool}
  {hist hist' : List Call} {log log' : List (KeyEvent C)} {o o' : Osnma C} {kd : NavKind} {v : Svn}

/-- **C83.**  Two receivers are given, in chronological order, the same pages and the same words with the data `kd` of the satellite `v`; all the other words may differ, except that
the same subframes start at the same places.  Both report the same for `kd` and `v`, with the same time and authentication bits. -/
theorem C83_other_words_irrelevant (hS : S.Consistent) (ho : (Osnma.new S root0 pk0 slow : Osnma C).Fresh S)
    (h : Logs S (Osnma.new S root0 pk0 slow) hist log o) (h' : Logs S (Osnma.new S root0 pk0 slow) hist' log' o') (hsame : SameFor kd v hist hist')
    (hpages : (pagesOf hist).Pairwise (fun a b => a.sub.abs ≤ b.sub.abs))
    (hwords : Chronological (inavsOf hist)) (hwords' : Chronological (inavsOf hist')) (hfits : Fits S (inavsOf hist)) (hfits' : Fits S (inavsOf hist')) :
    log' = log ∧ ∀ res res', o.get S kd v = .ok res → o'.get S kd v = .ok res' → res' = res := by
  obtain ⟨rs, fs, m, hget⟩ := C63_reference_machine hS ho h hpages hwords hfits
  obtain ⟨rs', fs', m', hget'⟩ := C63_reference_machine hS ho h' (hsame.pages ▸ hpages) hwords' hfits'
  refine ⟨(machines_agree_pages m m' hsame.pages).2.symm, fun res res' hr hr' => ?_⟩
  have e := (hget kd v _ hr).trans ((hsame.frames m m' hwords hwords').1.authenticated.trans (hget' kd v _ hr').symm)
  cases res with
  | none => cases res' with
    | none => rfl
    | some d' => cases e
  | some d => cases res' with
    | none => cases e
    | some d' =>
      simp only [Option.map_some, Option.some.injEq, Prod.mk.injEq] at e
      obtain ⟨a, b, c⟩ := d
      obtain ⟨a', b', c'⟩ := d'
      obtain ⟨e1, e2, e3⟩ := e
      dsimp only at e1 e2 e3
      have := Gst.abs_inj e3
      simp [e1, e2, this]

/-- **C83.**  If the parameters of the chains signed so far fit together (see C39), the second receiver does not panic either, and both getters answer. -/
theorem C83_same_answer (hS : S.Consistent) (ho : (Osnma.new S root0 pk0 slow : Osnma C).Fresh S)
    (h : Logs S (Osnma.new S root0 pk0 slow) hist log o) (hsame : SameFor kd v hist hist') (hs : SensibleLog log)
    (hg : ∀ p ∈ pagesOf hist, 360 ≤ p.sub.abs) (hweek : ∀ c ∈ inavsOf hist, 7650 ≤ c.gst.abs) (hweek' : ∀ c ∈ inavsOf hist', 7650 ≤ c.gst.abs)
    (hpages : (pagesOf hist).Pairwise (fun a b => a.sub.abs ≤ b.sub.abs))
    (hwords : Chronological (inavsOf hist)) (hwords' : Chronological (inavsOf hist')) (hfits : Fits S (inavsOf hist)) (hfits' : Fits S (inavsOf hist')) :
    ∃ o', Logs S (Osnma.new S root0 pk0 slow) hist' log o' ∧ ∃ res, o.get S kd v = .ok res ∧ o'.get S kd v = .ok res := by
  obtain ⟨o', h', _⟩ := Osnma.same_panics hS hS ho ho h hs hg hsame.pages
  obtain ⟨res, r1⟩ := C38_get_returns hS ho h.run hweek kd v
  obtain ⟨res', r2⟩ := C38_get_returns hS ho h'.run hweek' kd v
  have := (C83_other_words_irrelevant hS ho h h' hsame hpages hwords hwords' hfits hfits').2 res res' r1 r2
  subst this
  exact ⟨o', h', res', r1, r2⟩

end Verif
