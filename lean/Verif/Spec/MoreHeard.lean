import Verif.Spec.NavMachine
import Verif.Spec.Spoofing
import Verif.Spec.StorageSize

/-! # Specification: hearing more

Two receivers are given the same words, and one of them is also given more OSNMA pages. -/

namespace Verif
variable {C : Crypto}

/-- The calls `more` are the calls `less` and more OSNMA pages, anywhere among them. -/
def HearsMore (less more : List Call) : Prop := less.Sublist more ∧ inavsOf less = inavsOf more

/-- A word that comes after the last page of its own subframe (of any satellite) does not change the data of a satellite back to what it was earlier. -/
def NoReturn (hist : List Call) : Prop :=
  ∀ x (c : InavCall) y, hist = x ++ .inav c.word c.svn c.gst c.band :: y → (∃ p ∈ pagesOf x, p.word = 14 ∧ p.sub = c.gst.subframe) →
    ∀ (kd : NavKind) (v : Svn), kd.expected (inavsOf x ++ [c]) v ≠ kd.expected (inavsOf x) v →
      ∀ q, q <+: inavsOf x → kd.expected q v ≠ kd.expected (inavsOf x ++ [c]) v

/-- There is room for the MACK messages of 12 subframes; or of 2, if Slow MAC is not used. -/
def Storage.MackEnough (S : Storage) (hist : List Call) (log : List (KeyEvent C)) : Prop :=
  12 ≤ S.mackDepth ∨ 2 ≤ S.mackDepth ∧ NoSlowTags hist log

end Verif
