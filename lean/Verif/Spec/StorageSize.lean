import Verif.Spec.NavMachine
import Verif.Spec.Broadcast

/-! # Specification: sizes of the storage

The documentation of `StaticStorage` (`/repo/galileo-osnma/src/storage.rs` lines 66-98) says which sizes are needed: 12 subframes of
MACK messages for Slow MAC, "if Slow MAC processing is not needed, then this value can be as small as 2"; and one more of navigation
data. `FullStorage` (lines 100-115) "is the largest storage size that it makes sense to have". -/

namespace Verif
variable {C : Crypto}

/-- Every size of `S'` is at least that of `S`. -/
structure Storage.Within (S S' : Storage) : Prop where
  sats : S.numSats ≤ S'.numSats
  nav : S.navDepth ≤ S'.navDepth
  mack : S.mackDepth ≤ S'.mackDepth

/-- Slow MAC is not used: in the MACK messages received, read with the sizes of any chain of which a key was accepted, the tags of
Slow MAC (ADKD 12) are dummy tags (COP 0). -/
def NoSlowTags (hist : List Call) (log : List (KeyEvent C)) : Prop :=
  ∀ rs, ReceivedIn (pagesOf hist) rs → ∀ r ∈ rs, ∀ k, KeyEvent.tesla k ∈ log → ∀ t ∈ mackTags r.mack k.chain r.svn, t.adkd = 12 → t.cop = 0

/-- The storage is as large as the documentation asks for: 12 subframes of MACK messages and 13 of navigation data; or 2 and 3, if Slow MAC
is not used. -/
def Storage.Enough (S : Storage) (hist : List Call) (log : List (KeyEvent C)) : Prop :=
  12 ≤ S.mackDepth ∧ 13 ≤ S.navDepth ∨ 2 ≤ S.mackDepth ∧ 3 ≤ S.navDepth ∧ NoSlowTags hist log

/-- The satellites that send OSNMA data in one subframe fit in the storage. -/
def PagesFit (S : Storage) (hist : List Call) : Prop :=
  ∀ g : Gst, ∃ sats : List Svn, sats.length ≤ S.numSats ∧ ∀ p ∈ pagesOf hist, p.sub = g → p.svn ∈ sats

end Verif
