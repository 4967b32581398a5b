import Verif.Model.Subframe
import Verif.Spec.Time

/-! # Specification: OSNMA pages of one satellite and subframe -/

namespace Verif

/-- What one call of `CollectSubframe::feed` (or of `Osnma::feed_osnma`) is given. -/
structure Page where
  data : OsnmaDataMessage
  svn : Svn
  gst : Gst
  deriving DecidableEq

namespace Page

/-- The subframe in which the page was transmitted. -/
def sub (p : Page) : Gst := p.gst.subframe

/-- Position (0 to 14) of the page in its subframe: pages last two seconds. -/
def word (p : Page) : Nat := (p.gst.tow - p.sub.tow) / 2

/-- The HKROOT section of the page: its first byte. -/
def hkroot (p : Page) : List Byte := p.data.val.take 1

/-- The MACK section of the page: its last four bytes. -/
def mack (p : Page) : List Byte := p.data.val.drop 1

end Page

/-- Result of `CollectSubframe::feed`. -/
abbrev SubframeOut := Option (HkrootMessage × MackMessage × Gst)

/-- Feeds pages in order, collecting the result of every call. -/
def feedPages (s : CollectSubframe) : List Page → Res (CollectSubframe × List SubframeOut)
  | [] => .ok (s, [])
  | p :: ps =>
    match s.feed p.data p.svn p.gst with
    | .panic w => .panic w
    | .ok (s', out) =>
      match feedPages s' ps with
      | .panic w => .panic w
      | .ok (s'', outs) => .ok (s'', out :: outs)

/-- The calls of a history since the subframe last changed to `g` (empty if the last call was for
another subframe). -/
def sinceSubframe (hist : List Page) (g : Gst) : List Page :=
  (hist.reverse.takeWhile (fun p => p.sub == g)).reverse

/-- The results of the calls for satellite `svn`. -/
def outsOf (svn : Svn) (ps : List Page) (outs : List SubframeOut) : List SubframeOut :=
  ((ps.zip outs).filter (fun x => x.1.svn == svn)).map (·.2)

end Verif
