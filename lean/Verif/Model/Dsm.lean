import Verif.Model.Bitfields

/-! # `galileo-osnma/src/dsm.rs` -/

namespace Verif

/-- `Dsm` (`dsm.rs:18-22`). -/
structure Dsm where
  id : Nat
  dsmType : DsmType
  data : List Byte
  deriving DecidableEq

/-- `CollectDsm` (`dsm.rs:47-53`). -/
structure CollectDsm where
  dsm : List Byte
  blockValid : List Bool
  done : Bool
  dsmType : Option DsmType
  dsmId : Nat
  deriving DecidableEq

namespace CollectDsm

/-- `CollectDsm::new` (`dsm.rs:57-65`). -/
def new : CollectDsm where
  dsm := List.replicate 208 0#8
  blockValid := List.replicate 16 false
  done := false
  dsmType := none
  dsmId := 0

/-- `CollectDsm::reset` (`dsm.rs:67-70`). -/
def reset (c : CollectDsm) : CollectDsm :=
  { c with blockValid := List.replicate 16 false, done := false }

/-- `CollectDsm::number_of_blocks` (`dsm.rs:165-195`). -/
def numberOfBlocks (t : DsmType) (nb : Nat) : Option Nat :=
  match t with
  | .Pkr =>
    match nb with
    | 7 => some 13
    | 8 => some 14
    | 9 => some 15
    | 10 => some 16
    | _ => none
  | .Kroot =>
    match nb with
    | 1 => some 7
    | 2 => some 8
    | 3 => some 9
    | 4 => some 10
    | 5 => some 11
    | 6 => some 12
    | 7 => some 13
    | 8 => some 14
    | _ => none

/-- `CollectDsm::store_block` (`dsm.rs:122-140`). -/
def storeBlock (c : CollectDsm) (blockId : Nat) (block : DsmBlock) : Res CollectDsm := do
  let idx := blockId * 13
  let _ ← slice c.dsm idx (idx + 13)
  let valid ← index c.blockValid blockId
  if valid then pure c
  else do
    let dsm ← writeSlice c.dsm idx block.val
    let bv ← setIndex c.blockValid blockId true
    pure { c with dsm := dsm, blockValid := bv }

/-- `CollectDsm::done_and_size` (`dsm.rs:142-163`). -/
def doneAndSize (c : CollectDsm) (t : DsmType) : Res (Option Nat) := do
  let v0 ← index c.blockValid 0
  if !v0 then pure none
  else do
    let b0 ← index c.dsm 0
    let nb := b0.toNat / 16
    match numberOfBlocks t nb with
    | some n =>
      let bv ← slice c.blockValid 0 n
      let missing := (bv.filter (fun x => !x)).length
      if missing = 0 then pure (some (n * 13)) else pure none
    | none => pure none

/-- `CollectDsm::feed` (`dsm.rs:83-120`). -/
def feed (c : CollectDsm) (header : DsmHeader) (block : DsmBlock) :
    Res (CollectDsm × Option Dsm) := do
  let c :=
    if header.dsmId ≠ c.dsmId ∨ c.dsmType.isNone then
      { c.reset with dsmId := header.dsmId, dsmType := some header.dsmType }
    else c
  let t ← Res.unwrap c.dsmType "self.dsm_type.unwrap()"
  if c.done then pure (c, none)
  else do
    let c ← c.storeBlock header.dsmBlockId block
    match ← c.doneAndSize t with
    | some size =>
      let data ← slice c.dsm 0 size
      pure ({ c with done := true }, some ⟨c.dsmId, t, data⟩)
    | none => pure (c, none)

end CollectDsm
end Verif
