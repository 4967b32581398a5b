import Verif.Spec.Broadcast
import Verif.Spec.Disclosure

/-! # Specification: signals of the broadcast, sent again at another time

TESLA keys are public once they are disclosed, so whoever records the signals of the satellites can send all of them again.  Here: the
MACK messages that are fed are messages of a broadcast, but each in another subframe than the one it was sent in.  Nothing here refers
to the library. -/

namespace Verif
variable {C : Crypto}

/-- Every page fed in the calls `after` is, as far as the MACK message goes, that of another subframe of the broadcast: the message
sent by some satellite in the subframe `src v g` is heard as one of satellite `v` in the subframe `g`. -/
def Replayed (b : Broadcast C) (src : Svn → Gst → Svn × Gst) (after : List Call) : Prop :=
  ∀ p ∈ pagesOf after, b.On p.sub ∧ b.On (src p.svn p.sub).2 ∧ (src p.svn p.sub).2 ≠ p.sub ∧
    p.mack = ((b.mack (src p.svn p.sub).1 (src p.svn p.sub).2).val.drop (4 * p.word)).take 4

/-- The key of one subframe cannot pass for that of another: they are different, and taken as keys of the same subframe their
derivations do not meet on the way to the root key. -/
def Broadcast.Distinct (b : Broadcast C) : Prop :=
  ∀ g g', b.On g → b.On g' → g ≠ g' → (b.key g').bytes ≠ (b.key g).bytes ∧
    ∀ n : Nat, b.root.gst.abs + 30 * n = g.abs → ¬ DerivationsCollide C b.root.chain n g (b.key g').bytes (b.key g).bytes

/-- All the DSM-KROOTs reported as verified announce the root key of the broadcast. -/
def KrootsOf (b : Broadcast C) (log : List (KeyEvent C)) : Prop :=
  ∀ h data pk key g, KeyEvent.kroot h data pk key g ∈ log → key = b.root

end Verif
