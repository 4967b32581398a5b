import Verif.Spec.TagCount
import Verif.Model.Osnma

/-! # Specification: the tags that are checked when a new TESLA key arrives -/

namespace Verif

/-- One tag that is checked: the TESLA key, the transmitting satellite, the subframe of its MACK, the
NMA status of that subframe, and the tag. -/
structure TagUse where
  key : Key
  prna : Svn
  gst : Gst
  st : NmaStatus
  tag : TagSpec
  deriving DecidableEq

/-- The entries of the subframe before `gst` (the one that tags sent in `gst` authenticate). -/
def CollectNavMessage.entryBefore (S : Storage) (n : CollectNavMessage) (arr : List NavItem) (gst : Gst)
    (svn : Svn) : Option NavItem :=
  match gst.addSeconds (-30) with
  | .ok g => n.entryAt S arr g svn
  | .panic _ => none

/-- A checked tag counts for stored data `x` of the array `arr` of the store. -/
def TagUse.Counts (S : Storage) (C : Crypto) (n : CollectNavMessage) (arr : List NavItem) (nbits : Nat)
    (u : TagUse) (x : NavItem) : Prop :=
  TagCounts C u.key u.prna u.gst u.st nbits (n.entryBefore S arr u.gst) u.tag x

/-- Total length of the tags of a list that count for `x`. -/
noncomputable def usesGain (S : Storage) (C : Crypto) (n : CollectNavMessage) (arr : List NavItem) (nbits : Nat)
    (us : List TagUse) (x : NavItem) : Nat :=
  (us.map (fun u => tagGain C u.key u.prna u.gst u.st nbits (n.entryBefore S arr u.gst) u.tag x)).sum

namespace OsnmaData
variable {C : Crypto} (S : Storage) (d : OsnmaData C)

/-- The MACK message stored for a satellite and subframe, if it is valid (MACSEQ and MAC look-up
table) under the key `vkey`, with the sizes of `chain`. -/
def usableMack (vkey : Key) (chain : Chain) (gst : Gst) (svn : Svn) : Option (MackMessage × NmaStatus) :=
  match d.mack.get S svn gst with
  | .ok (some (m, st)) =>
    match (Mack.new m chain.keySizeBits chain.tagSizeBits).validate C vkey svn gst with
    | .ok (.ok _) => some (m, st)
    | _ => none
  | _ => none

/-- The tags with a given ADKD of a usable MACK, checked with `key`. -/
def tagsOf (key : Key) (gst : Gst) (adkd : Nat) (svn : Svn) : Option (MackMessage × NmaStatus) → List TagUse
  | none => []
  | some (m, st) =>
    ((mackTags m key.chain svn).filter (fun t => t.adkd == adkd)).map (fun t => ⟨key, svn, gst, st, t⟩)

/-- Fast tags (ADKD 0 or 4) of one satellite checked when `key` arrives; `gst` is the subframe before
the one of the key. -/
def fastUses (key : Key) (gst : Gst) (adkd : Nat) (svn : Svn) : List TagUse :=
  if d.onlySlowmac then [] else tagsOf key gst adkd svn (d.usableMack S key key.chain gst svn)

/-- Slow tags (ADKD 12) of one satellite checked when `key` arrives; `gst` is the subframe eleven
before the one of the key, and `slowKey` the key used for the MACSEQ of that subframe. -/
def slowUses (key : Key) (slowKey : Option Key) (gst : Gst) (svn : Svn) : List TagUse :=
  match slowKey with
  | none => []
  | some sk => tagsOf key gst 12 svn (d.usableMack S sk key.chain gst svn)

/-- All the tags that are checked on CED when `key` arrives. -/
def cedUses (key : Key) (slowKey : Option Key) (gstMack gstSlow : Gst) : List TagUse :=
  Svn.iter.flatMap (fun svn => d.fastUses S key gstMack 0 svn ++ d.slowUses S key slowKey gstSlow svn)

/-- All the tags that are checked on timing parameters when `key` arrives. -/
def timingUses (key : Key) (gstMack : Gst) : List TagUse :=
  Svn.iter.flatMap (fun svn => d.fastUses S key gstMack 4 svn)

end OsnmaData
end Verif
