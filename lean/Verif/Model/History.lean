import Verif.Model.Osnma

/-! # Histories of calls to the public API of `Osnma`

The two mutating methods of `Osnma` (`osnma.rs:192` and `osnma.rs:205`) as data, so that
properties can quantify over all histories of calls. -/

namespace Verif

/-- One call of a mutating method of `Osnma`. -/
inductive Call where
  /-- `feed_inav(word, svn, gst, band)` (`osnma.rs:192`). -/
  | inav (word : InavWord) (svn : Svn) (gst : Gst) (band : InavBand)
  /-- `feed_osnma(osnma, svn, gst)` (`osnma.rs:205`). -/
  | osnma (data : OsnmaDataMessage) (svn : Svn) (gst : Gst)
  deriving DecidableEq

variable {C : Crypto} (S : Storage)

/-- Performs one call. -/
def Call.run (o : Osnma C) : Call → Res (Osnma C)
  | .inav w s g b => o.feedInav S w s g b
  | .osnma d s g => o.feedOsnma S d s g

/-- Performs the calls in order; a panic ends the run. -/
def run (o : Osnma C) (calls : List Call) : Res (Osnma C) := loopM (fun o c => c.run S o) calls o

end Verif
