import Verif.Model.Bitfields

/-! # `galileo-osnma/src/maclt.rs` -/

namespace Verif

/-- `AuthObject` (`maclt.rs:239-244`). -/
inductive AuthObject where
  | SelfAuth | CrossAuth
  deriving DecidableEq, Repr

/-- `MacLTSlot` (`maclt.rs:211-232`). -/
inductive MacLTSlot where
  | Fixed (adkd : Adkd) (object : AuthObject)
  | Flex
  deriving DecidableEq, Repr

/-- `MacLTError` (`maclt.rs:248-255`). -/
inductive MacLTError where
  | InvalidMaclt | InvalidTagNumber
  deriving DecidableEq, Repr

namespace Maclt

/-- `F00S` (`maclt.rs:24-27`). -/
def F00S : MacLTSlot := .Fixed .InavCed .SelfAuth
/-- `F00E` (`maclt.rs:28-31`). -/
def F00E : MacLTSlot := .Fixed .InavCed .CrossAuth
/-- `F04S` (`maclt.rs:32-35`). -/
def F04S : MacLTSlot := .Fixed .InavTiming .SelfAuth
/-- `F12S` (`maclt.rs:36-39`). -/
def F12S : MacLTSlot := .Fixed .SlowMac .SelfAuth
/-- `F12E` (`maclt.rs:40-43`). -/
def F12E : MacLTSlot := .Fixed .SlowMac .CrossAuth
/-- `FLX` (`maclt.rs:44`). -/
def FLX : MacLTSlot := .Flex

/-- `MacLTEntry` (`maclt.rs:46-57`): id, number of tags, the two sequences (tag 0 omitted, unused
positions filled with `FLX`). -/
structure Entry where
  id : Nat
  nt : Nat
  seq0 : List MacLTSlot
  seq1 : List MacLTSlot
  deriving DecidableEq

/-- `MACLT` (`maclt.rs:60-157`). -/
def table : List Entry := [
  ⟨27, 6,
    [F00E, F00E, F00E, F12S, F00E, FLX, FLX, FLX, FLX],
    [F00E, F00E, F04S, F12S, F00E, FLX, FLX, FLX, FLX]⟩,
  ⟨28, 10,
    [F00E, F00E, F00E, F00S, F00E, F00E, F12S, F00E, F00E],
    [F00E, F00E, F00S, F00E, F00E, F04S, F12S, F00E, F00E]⟩,
  ⟨31, 5,
    [F00E, F00E, F12S, F00E, FLX, FLX, FLX, FLX, FLX],
    [F00E, F00E, F12S, F04S, FLX, FLX, FLX, FLX, FLX]⟩,
  ⟨33, 6,
    [F00E, F04S, F00E, F12S, F00E, FLX, FLX, FLX, FLX],
    [F00E, F00E, F12S, F00E, F12E, FLX, FLX, FLX, FLX]⟩,
  ⟨34, 6,
    [FLX, F04S, FLX, F12S, F00E, FLX, FLX, FLX, FLX],
    [FLX, F00E, F12S, F00E, F12E, FLX, FLX, FLX, FLX]⟩,
  ⟨35, 6,
    [FLX, F04S, FLX, F12S, FLX, FLX, FLX, FLX, FLX],
    [FLX, FLX, F12S, FLX, FLX, FLX, FLX, FLX, FLX]⟩,
  ⟨36, 5,
    [FLX, F04S, FLX, F12S, FLX, FLX, FLX, FLX, FLX],
    [FLX, F00E, F12S, F12E, FLX, FLX, FLX, FLX, FLX]⟩,
  ⟨37, 5,
    [F00E, F04S, F00E, F12S, FLX, FLX, FLX, FLX, FLX],
    [F00E, F00E, F12S, F12E, FLX, FLX, FLX, FLX, FLX]⟩,
  ⟨38, 5,
    [FLX, F04S, FLX, F12S, FLX, FLX, FLX, FLX, FLX],
    [FLX, FLX, F12S, FLX, FLX, FLX, FLX, FLX, FLX]⟩,
  ⟨39, 4,
    [FLX, F04S, FLX, FLX, FLX, FLX, FLX, FLX, FLX],
    [FLX, F00E, F12S, FLX, FLX, FLX, FLX, FLX, FLX]⟩,
  ⟨40, 4,
    [F00E, F04S, F12S, FLX, FLX, FLX, FLX, FLX, FLX],
    [F00E, F00E, F12E, FLX, FLX, FLX, FLX, FLX, FLX]⟩,
  ⟨41, 4,
    [FLX, F04S, FLX, FLX, FLX, FLX, FLX, FLX, FLX],
    [FLX, FLX, F12S, FLX, FLX, FLX, FLX, FLX, FLX]⟩]

/-- `entry.sequence[msg]`, for `msg` 0 or 1 (asserted by both callers). -/
def Entry.seq (e : Entry) (msg : Nat) : List MacLTSlot := if msg = 0 then e.seq0 else e.seq1

/-- `get_maclt_entry` (`maclt.rs:169-184`). -/
def getEntry (maclt msg numTag : Nat) : Res (Except MacLTError MacLTSlot) := do
  Res.assert (decide (msg = 0 ∨ msg = 1)) "(msg == 0) || (msg == 1)"
  Res.assert (decide (numTag ≥ 1)) "num_tag >= 1"
  match table.find? (fun e => e.id == maclt) with
  | none => pure (.error .InvalidMaclt)
  | some e =>
    if numTag ≥ e.nt then pure (.error .InvalidTagNumber)
    else do
      let slot ← index (e.seq msg) (numTag - 1)
      match slot with
      | .Fixed adkd object =>
        Res.assert (decide (adkd ≠ .InavTiming ∨ object = .SelfAuth)) "InavTiming is SelfAuth"
        pure (.ok slot)
      | .Flex => pure (.ok slot)

/-- `(j + 1)` for the positions of `FLX` in a sequence; the iterator chain of `maclt.rs:200-204`
(`enumerate`, `filter_map`). -/
def flexPositions : List MacLTSlot → Nat → List Nat
  | [], _ => []
  | s :: ss, j => if s = FLX then (j + 1) :: flexPositions ss (j + 1) else flexPositions ss (j + 1)

/-- `get_flx_indices` (`maclt.rs:195-205`). -/
def getFlxIndices (maclt msg : Nat) : Res (Except MacLTError (List Nat)) := do
  Res.assert (decide (msg = 0 ∨ msg = 1)) "(msg == 0) || (msg == 1)"
  match table.find? (fun e => e.id == maclt) with
  | none => pure (.error .InvalidMaclt)
  | some e => pure (.ok (flexPositions ((e.seq msg).take (e.nt - 1)) 0))

end Maclt
end Verif
