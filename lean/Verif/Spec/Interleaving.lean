import Verif.Model.History

/-! # Specification: interleavings

Satellites are received in parallel, and the words and pages of different satellites can reach the receiver in different orders.  Here
it is said which differences of order are meant. -/

namespace Verif

/-- The time is that of the last page of a subframe (pages last two seconds). -/
def Gst.LastPage (g : Gst) : Prop := 28 ≤ g.tow % 30

/-- The type of a navigation word: its first six bits. -/
def wordType (w : InavWord) : Nat := loadBe ((bitsOf w.val).take 6)

/-- Two calls one after the other whose order is accidental: words of two satellites, or of two types, in the same subframe; pages of two satellites in
the same subframe, at most one of them the last page of the subframe; a word and a page that is not the last one of its subframe. -/
def Call.Independent : Call → Call → Prop
  | .inav w s g _, .inav w' s' g' _ => (s ≠ s' ∨ wordType w ≠ wordType w') ∧ g.subframe = g'.subframe
  | .osnma _ s g, .osnma _ s' g' => s ≠ s' ∧ g.subframe = g'.subframe ∧ ¬ (g.LastPage ∧ g'.LastPage)
  | .inav _ _ _ _, .osnma _ _ g => ¬ g.LastPage
  | .osnma _ _ g, .inav _ _ _ _ => ¬ g.LastPage

/-- The call delivers a navigation word. -/
def Call.IsWord : Call → Prop
  | .inav _ _ _ _ => True
  | .osnma _ _ _ => False

/-- The calls are the same up to the order of such pairs of calls. -/
inductive InterleavedBy (R : Call → Call → Prop) : List Call → List Call → Prop
  | same (h : List Call) : InterleavedBy R h h
  | swap (a b : List Call) (c c' : Call) (h : R c c') : InterleavedBy R (a ++ c :: c' :: b) (a ++ c' :: c :: b)
  | trans {x y z : List Call} (h : InterleavedBy R x y) (h' : InterleavedBy R y z) : InterleavedBy R x z

/-- The calls are the same up to the order of independent ones. -/
abbrev Interleaved : List Call → List Call → Prop := InterleavedBy Call.Independent

/-- The calls are the same up to the order of independent ones, and the words are in the same order. -/
abbrev PagesInterleaved : List Call → List Call → Prop := InterleavedBy (fun c c' => c.Independent c' ∧ ¬ (c.IsWord ∧ c'.IsWord))

end Verif
