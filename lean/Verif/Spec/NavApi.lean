import Verif.Model.Api
import Verif.Spec.NavSpec
import Verif.Spec.TagUse

/-! # Specification: data that a program authenticates by itself with `CollectNavMessage` -/

namespace Verif

/-- The words that the program stored, in order. -/
def navFeeds (ops : List NavOp) : List InavCall :=
  ops.filterMap (fun op => match op with
    | .feed w s g b => some ⟨w, s, g, b⟩
    | _ => none)

/-- The tags of a MACK with the given ADKD, to be checked with the given arguments. -/
def tagUses (msg : MackMessage) (c : Chain) (key : Key) (prna : Svn) (gst : Gst) (st : NmaStatus) (adkd : Nat) : List TagUse :=
  ((mackTags msg c prna).filter (fun t => t.adkd == adkd)).map (fun t => ⟨key, prna, gst, st, t⟩)

/-- The tags that a call submits for data of a kind: ADKD 0 and 4 with `process_mack`, ADKD 12 with
`process_mack_slowmac`. -/
def NavOp.tags (kd : NavKind) : NavOp → List TagUse
  | .processMack msg c key prna gst st =>
    match kd with
    | .ced => tagUses msg c key prna gst st 0
    | .timing => tagUses msg c key prna gst st 4
  | .processMackSlowmac msg c key prna gst st =>
    match kd with
    | .ced => tagUses msg c key prna gst st 12
    | .timing => []
  | _ => []

/-- The calls after the last `reset_authbits`. -/
def sinceReset (ops : List NavOp) : List NavOp :=
  (ops.reverse.takeWhile (fun op => match op with
    | .resetAuthbits => false
    | _ => true)).reverse

/-- The tags submitted for data of a kind since the last `reset_authbits`, in order. -/
def tagsSubmitted (kd : NavKind) (ops : List NavOp) : List TagUse := (sinceReset ops).flatMap (NavOp.tags kd)

/-- A tag that was submitted vouches for these bits of the satellite. -/
structure TagUse.Vouches (C : Crypto) (svn : Svn) (bits : List Bool) (u : TagUse) : Prop where
  prnd : u.tag.prnd = svn.val
  cop : u.tag.cop ≠ 0
  status : u.st = .Test ∨ u.st = .Operational
  verifies : u.tag.Verifies C u.key u.prna u.gst u.st bits

/-- The store's getters. -/
def CollectNavMessage.getKind (S : Storage) (n : CollectNavMessage) (kd : NavKind) (svn : Svn) : Res (Option NavMessageData) :=
  match kd with
  | .ced => n.getCedAndStatus S svn
  | .timing => n.getTimingParameters S svn

end Verif
