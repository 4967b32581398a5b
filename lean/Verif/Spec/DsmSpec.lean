import Verif.Model.Dsm

/-! # Specification: DSM blocks -/

namespace Verif

/-- What one call of `CollectDsm::feed` is given. -/
structure DsmCall where
  header : DsmHeader
  block : DsmBlock
  deriving DecidableEq

/-- Feeds blocks in order, collecting the result of every call. -/
def feedBlocks (c : CollectDsm) : List DsmCall → Res (CollectDsm × List (Option Dsm))
  | [] => .ok (c, [])
  | p :: ps =>
    match c.feed p.header p.block with
    | .panic w => .panic w
    | .ok (c', out) =>
      match feedBlocks c' ps with
      | .panic w => .panic w
      | .ok (c'', outs) => .ok (c'', out :: outs)

/-- The calls of a history since the DSM id last changed to `id`. -/
def sinceId (hist : List DsmCall) (id : Nat) : List DsmCall :=
  (hist.reverse.takeWhile (fun p => p.header.dsmId == id)).reverse

/-- The first block with number `i` of a list of calls. -/
def firstBlock (r : List DsmCall) (i : Nat) : Option DsmBlock :=
  (r.find? (fun p => p.header.dsmBlockId == i)).map (·.block)

/-- Number of blocks announced by the first block of a DSM with this id: the NB field is the high
half of the first byte.  DSM ids 0 to 11 are DSM-KROOT (7 to 14 blocks), 12 to 15 are DSM-PKR (13
to 16 blocks); other values of NB are reserved. -/
def announcedBlocks (id : Nat) (b0 : DsmBlock) : Option Nat :=
  let nb := (b0.val.headD 0).toNat / 16
  if 12 ≤ id then if 7 ≤ nb ∧ nb ≤ 10 then some (nb + 6) else none
  else if 1 ≤ nb ∧ nb ≤ 8 then some (nb + 6) else none

/-- All the `n` announced blocks of DSM `id` occur in the calls. -/
def CompleteWith (id : Nat) (r : List DsmCall) (n : Nat) : Prop :=
  ∃ b0, firstBlock r 0 = some b0 ∧ announcedBlocks id b0 = some n ∧
    ∀ i, i < n → (firstBlock r i).isSome

/-- All announced blocks of DSM `id` occur in the calls. -/
def Complete (id : Nat) (r : List DsmCall) : Prop := ∃ n, CompleteWith id r n

end Verif
