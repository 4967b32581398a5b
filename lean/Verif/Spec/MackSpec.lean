import Verif.Model.MackStorage
import Verif.Spec.Time

/-! # Specification: the MACK store -/

namespace Verif

/-- What one call of `MackStorage::store` is given. -/
structure MackCall where
  mack : MackMessage
  svn : Svn
  gst : Gst
  status : NmaStatus
  deriving DecidableEq

/-- Performs the stores in order. -/
def storeMacks (S : Storage) (hist : List MackCall) : Res MackStorage :=
  loopM (fun m c => m.store S c.mack c.svn c.gst c.status) hist (.new S)

/-- The distinct subframes stored, most recent first. -/
def recentGsts (hist : List MackCall) : List Gst := ((hist.map (·.gst)).reverse).eraseDups

/-- The message expected from `get(svn, gst)`: the first one stored for this satellite and subframe,
if the subframe is among the last `mackDepth` distinct ones and the message was among the first
`numSats` stored for the subframe. -/
def expectedMack (S : Storage) (hist : List MackCall) (svn : Svn) (gst : Gst) :
    Option (MackMessage × NmaStatus) :=
  if gst ∈ (recentGsts hist).take S.mackDepth then
    (((hist.filter (fun c => c.gst == gst)).take S.numSats).find? (fun c => c.svn == svn)).map
      (fun c => (c.mack, c.status))
  else none

end Verif
