import Verif.Spec.Operator

/-! # Specification: signals that are received late

TESLA needs that the receiver knows the time: a tag proves something only if it is received before its key is public.  The library takes the
time that is passed with each call as it is, so this is left to the program that uses it.  Here each call has in addition the true time at which
its signal was received (in seconds, on the same scale as `Gst.abs`); an attacker who delays the signals, or a clock that is slow, makes the
true time later than the time that is passed. -/

namespace Verif
variable {C : Crypto}

/-- Calls with the true time of reception; the calls alone. -/
def callsOf (th : List (Call × Int)) : List Call := th.map (·.1)

/-- What was received at a true time before `t`. -/
def receivedBefore (th : List (Call × Int)) (t : Int) : List Call := callsOf (th.filter (fun x => decide (x.2 < t)))

/-- Every signal is received at most `late` seconds after the time that is passed with it. -/
def NotLaterThan (th : List (Call × Int)) (late : Int) : Prop := ∀ x ∈ th, x.2 ≤ x.1.gst.abs + late

/-- The last page (0 to 14) of a subframe that has bits of the TESLA key: the key follows the tags. -/
def lastKeyPage (c : Chain) : Nat :=
  ((480 - 8 * c.keySizeBytes) / (c.tagSizeBits + 16) * (c.tagSizeBits + 16) + 8 * c.keySizeBytes - 1) / 32

/-- The instant at which the satellites begin to transmit the last page of the key, two seconds for each page.  Before this, nobody but the operator
has the whole key. -/
def keyIsOut (k : Key) : Int := k.gst.abs + 2 * lastKeyPage k.chain

/-- The tag is contained in pages of the satellite and subframe that are in the history: the first `n` ones of the subframe, not necessarily all. -/
def TagUse.Heard (hist : List Call) (u : TagUse) : Prop :=
  ∃ (ps : List Page) (n j : Nat), ps.Sublist (pagesOf hist) ∧ ps.map Page.word = List.range n ∧ (∀ q ∈ ps, q.svn = u.prna ∧ q.sub = u.gst) ∧
    (j + 1) * (u.key.chain.tagSizeBits + 16) ≤ 32 * n ∧
    u.tag = mackTag (bitsOf (ps.flatMap Page.mack)) u.key.chain.tagSizeBits u.prna j

/-- A tag that was forged by somebody who could not have had the key: tag and data were received before the key was out. -/
structure Operator.ForgedBeforeKey (op : Operator C) (th : List (Call × Int)) (kd : NavKind) (svn : Svn) (bits : List Bool) (last : Key)
    (u : TagUse) : Prop where
  key : op.KeyOf last u.key
  verifies : u.tag.Verifies C u.key u.prna u.gst u.st bits
  tag : u.Heard (receivedBefore th (keyIsOut u.key))
  data : ReceivedData (inavsOf (receivedBefore th (keyIsOut u.key))) kd svn bits
  notMade : ∀ x, op.tagged last u.key.gst x → x.message ≠ tagMessage u.tag.ctr u.tag.prnd u.prna u.gst u.st bits

end Verif
