import Verif.Model.Types

/-! # `galileo-osnma/src/subframe.rs` -/

namespace Verif

/-- `CollectSubframe` (`subframe.rs:25-31`).  The arrays of length `NUM_SVNS` are lists. -/
structure CollectSubframe where
  hkroot : List (List Byte)
  mack : List (List Byte)
  numValid : List Nat
  wn : Nat
  subframe : Nat
  deriving DecidableEq

namespace CollectSubframe

/-- `CollectSubframe::new` (`subframe.rs:35-43`). -/
def new : CollectSubframe where
  hkroot := List.replicate NUM_SVNS (List.replicate 15 0#8)
  mack := List.replicate NUM_SVNS (List.replicate 60 0#8)
  numValid := List.replicate NUM_SVNS 0
  wn := 0
  subframe := 0

/-- Word number of a page within its subframe, `(gst.tow() / 2) % 15` (`subframe.rs:67`). -/
def wordNum (g : Gst) : Nat := (g.tow / 2) % 15

/-- The array `[u8; n]` whose contents are given by a list (always of length `n` here; see
`Lemmas/Subframe.lean`). -/
def toBytes (n : Nat) (l : List Byte) : Res (Bytes n) :=
  if h : l.length = n then .ok ⟨l, h⟩ else .panic "unreachable: array length"

/-- Start of a new subframe (`subframe.rs:72-80`). -/
def adjust (s : CollectSubframe) (gst : Gst) : CollectSubframe :=
  if gst.wn ≠ s.wn ∨ gst.tow / 30 ≠ s.subframe then
    { s with wn := gst.wn, subframe := gst.tow / 30, numValid := List.replicate NUM_SVNS 0 }
  else s

/-- `CollectSubframe::feed` (`subframe.rs:59-117`). -/
def feed (s : CollectSubframe) (osnma : OsnmaDataMessage) (svn : Svn) (gst : Gst) :
    Res (CollectSubframe × Option (HkrootMessage × MackMessage × Gst)) := do
  let hkrootSection := osnma.val.take 1
  let mackSection := osnma.val.drop 1
  let s := s.adjust gst
  let i := svn.idx
  let valid ← index s.numValid i
  if wordNum gst ≠ valid then pure (s, none)
  else do
    let hk ← index s.hkroot i
    let hk ← writeSlice hk (valid * 1) hkrootSection
    let hkroot ← setIndex s.hkroot i hk
    let mk ← index s.mack i
    let mk ← writeSlice mk (valid * 4) mackSection
    let mack ← setIndex s.mack i mk
    let numValid ← setIndex s.numValid i (valid + 1)
    let s := { s with hkroot := hkroot, mack := mack, numValid := numValid }
    if valid + 1 = 15 then do
      let hk ← toBytes 15 hk
      let mk ← toBytes 60 mk
      let g ← if h : s.wn < 65536 then Gst.new s.wn (s.subframe * 30) h else .panic "unreachable"
      pure (s, some (hk, mk, g))
    else pure (s, none)

end CollectSubframe
end Verif
