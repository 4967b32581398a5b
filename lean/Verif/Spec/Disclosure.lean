import Verif.Spec.Complete

/-! # Specification: first the data, then the tag, then the key

TESLA is secure only if whatever a key authenticates was received before the key: once the key is public, anybody can make tags
with it.  Here it is said, of one tag that counts for some data, at which call its key was accepted and what was received before
that call. -/

namespace Verif
variable {C : Crypto}

/-- The data consists of fields of words of the satellite that are among `p`. -/
def ReceivedData (p : List InavCall) (kd : NavKind) (svn : Svn) (bits : List Bool) : Prop :=
  ∃ words : List InavCall, words.length = kd.fields.length ∧ (∀ c ∈ words, c ∈ p ∧ c.svn = svn) ∧
    (∀ x ∈ kd.fields.zip words, kd.carries x.2 x.1 = true) ∧ bits = (kd.fields.zip words).flatMap (fun x => x.1.bits x.2)

/-- The tag `u` for the data `bits` of satellite `svn` was in time: its key was accepted by call number `i`, and the tag and the data
were received by the calls before. -/
structure TagUse.InTime (S : Storage) (o0 : Osnma C) (hist : List Call) (kd : NavKind) (svn : Svn) (bits : List Bool) (i : Nat)
    (u : TagUse) : Prop where
  /-- Call number `i` reported the key of the tag as a new TESLA key. -/
  accepted : ∃ (log : List (KeyEvent C)) (o : Osnma C) (c : Call), hist[i]? = some c ∧ Logs S o0 (hist.take i) log o ∧
    KeyEvent.tesla u.key ∈ o.events S c
  /-- All the pages of the MACK message with the tag were received before. -/
  tag : ∃ msg, ReceivedMack (hist.take i) u.prna u.gst u.st msg ∧ u.tag ∈ mackTags msg u.key.chain u.prna
  /-- All the words with the data were received before. -/
  data : ReceivedData (inavsOf (hist.take i)) kd svn bits
  /-- If the words are fed in chronological order: the data is that received up to the end of the subframe before the tag's, every
  field of it. -/
  latest : Chronological (inavsOf (hist.take i)) → kd.expected (wordsUpTo (hist.take i) (u.gst.abs - 30)) svn = bits ∧
    ∀ f ∈ kd.fields, ∃ c, kd.latest (wordsUpTo (hist.take i) (u.gst.abs - 30)) svn f = some c
  /-- If moreover no subframe goes by without a word: every field of it was received not more than COP subframes before the tag's. -/
  recent : Contiguous (inavsOf (hist.take i)) → ∀ f ∈ kd.fields, ∃ c ∈ inavsOf (hist.take i), c.svn = svn ∧ kd.carries c f = true ∧
    c.gst.subframe.abs ≤ u.gst.abs - 30 ∧ u.gst.abs - 30 * u.tag.cop ≤ c.gst.subframe.abs

end Verif
