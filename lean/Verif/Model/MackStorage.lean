import Verif.Model.Bitfields

/-! # `galileo-osnma/src/mack.rs` -/

namespace Verif

/-- `mack::Mack` (`mack.rs:30-34`): a stored MACK message. -/
structure StoredMack where
  message : MackMessage
  svn : Svn
  nmaStatus : NmaStatus
  deriving DecidableEq

/-- `MackStorage` (`mack.rs:21-25`). -/
structure MackStorage where
  macks : List (Option StoredMack)
  gsts : List (Option Gst)
  writePointer : Nat
  deriving DecidableEq

namespace MackStorage

variable (S : Storage)

/-- `MackStorage::new` (`mack.rs:38-44`). -/
def new : MackStorage where
  macks := List.replicate S.mackDepthSats none
  gsts := List.replicate S.mackDepth none
  writePointer := 0

/-- `MackStorage::adjust_write_pointer` (`mack.rs:80-95`), with `current_macks_as_mut`
(l.76-78) and `fill(None)` inlined. -/
def adjustWritePointer (m : MackStorage) (gst : Gst) : Res MackStorage := do
  let g ← index m.gsts m.writePointer
  let m ← match g with
    | some g =>
      if g ≠ gst then do
        let wp := (m.writePointer + 1) % S.mackDepth
        let cur ← slice m.macks (wp * S.numSats) ((wp + 1) * S.numSats)
        let macks ← writeSlice m.macks (wp * S.numSats) (cur.map (fun _ => none))
        pure { m with macks := macks, writePointer := wp }
      else pure m
    | none => pure m
  let gsts ← setIndex m.gsts m.writePointer (some gst)
  pure { m with gsts := gsts }

/-- Stores into the first free location, if there is one (the loop of `mack.rs:62-72`). -/
def putFirstFree (x : StoredMack) : List (Option StoredMack) → List (Option StoredMack)
  | [] => []
  | none :: rest => some x :: rest
  | some y :: rest => some y :: putFirstFree x rest

/-- `MackStorage::store` (`mack.rs:60-74`). -/
def store (m : MackStorage) (mack : MackMessage) (svn : Svn) (gst : Gst) (st : NmaStatus) :
    Res MackStorage := do
  let m ← adjustWritePointer S m gst
  let cur ← slice m.macks (m.writePointer * S.numSats) ((m.writePointer + 1) * S.numSats)
  let macks ← writeSlice m.macks (m.writePointer * S.numSats) (putFirstFree ⟨mack, svn, st⟩ cur)
  pure { m with macks := macks }

/-- `MackStorage::get` (`mack.rs:109-125`). -/
def get (m : MackStorage) (svn : Svn) (gst : Gst) : Res (Option (MackMessage × NmaStatus)) := do
  match m.gsts.findIdx? (fun g => g == some gst) with
  | none => pure none
  | some i =>
    let cur ← slice m.macks (i * S.numSats) ((i + 1) * S.numSats)
    pure (cur.findSome? (fun x => match x with
      | some y => if y.svn = svn then some (y.message, y.nmaStatus) else none
      | none => none))

end MackStorage
end Verif
