import Verif.Spec.TagSpec
import Verif.Model.NavMessage

/-! # Specification: which tags of a MACK count for which stored data -/

namespace Verif

/-- The entry that the store holds for a satellite in the subframe `g`: the first entry of the
satellite in the first slot that is labelled with `g`. -/
def CollectNavMessage.entryAt (S : Storage) (n : CollectNavMessage) (arr : List NavItem) (g : Gst)
    (svn : Svn) : Option NavItem :=
  match n.gsts.findIdx? (fun x => x == some g) with
  | none => none
  | some i => ((arr.drop (i * S.numSats)).take S.numSats).find? (fun x => x.svn == some svn)

/-- A tag counts for stored data `x`: it was sent with status test or operational, it is not a dummy
tag, the entry `y` of the tag's satellite for the subframe that the tag authenticates (as given by
`entry`) is not older than the cut-off point, `y` is for the same satellite and has the same bits as
`x`, and the tag is the truncated MAC of these bits. -/
def TagCounts (C : Crypto) (key : Key) (prna : Svn) (gst : Gst) (st : NmaStatus) (nbits : Nat)
    (entry : Svn → Option NavItem) (t : TagSpec) (x : NavItem) : Prop :=
  (st = .Test ∨ st = .Operational) ∧ t.cop ≠ 0 ∧
    ∃ (svn : Svn) (y : NavItem), svn.val = t.prnd ∧ entry svn = some y ∧ y.maxAge + 1 ≤ t.cop ∧
      x.svn = some svn ∧ x.messageBits nbits = y.messageBits nbits ∧
      t.Verifies C key prna gst st (x.messageBits nbits)

open Classical in
/-- Authentication bits that a tag adds to stored data: its length if it counts. -/
noncomputable def tagGain (C : Crypto) (key : Key) (prna : Svn) (gst : Gst) (st : NmaStatus) (nbits : Nat)
    (entry : Svn → Option NavItem) (t : TagSpec) (x : NavItem) : Nat :=
  if TagCounts C key prna gst st nbits entry t x then t.tag.length else 0

/-- Authentication bits that the tags of a list add together. -/
noncomputable def tagsGain (C : Crypto) (key : Key) (prna : Svn) (gst : Gst) (st : NmaStatus) (nbits : Nat)
    (entry : Svn → Option NavItem) (ts : List TagSpec) (x : NavItem) : Nat :=
  (ts.map (fun t => tagGain C key prna gst st nbits entry t x)).sum

end Verif
