import Verif.Model.History
import Verif.Spec.Time

/-! # Specification vocabulary for the navigation data store

Small definitions in terms of which the properties C11–C17, C38, C41 and C53 are stated. -/

namespace Verif

/-- The arguments of one call of `feed_inav`. -/
structure InavCall where
  word : InavWord
  svn : Svn
  gst : Gst
  band : InavBand
  deriving DecidableEq

/-- The `feed_inav` calls of a history, in order. -/
def inavsOf (hist : List Call) : List InavCall :=
  hist.filterMap (fun c => match c with
    | .inav w s g b => some ⟨w, s, g, b⟩
    | .osnma _ _ _ => none)

/-- The two kinds of navigation data. -/
inductive NavKind where
  /-- CED and status (ADKD 0 and 12). -/
  | ced
  /-- Timing parameters (ADKD 4). -/
  | timing
  deriving DecidableEq

/-- A field of a word: bits `lo..hi` of the words of type `ty`. -/
structure NavField where
  ty : Nat
  lo : Nat
  hi : Nat
  deriving DecidableEq

namespace NavField

/-- The bits of the field in a word. -/
def bits (f : NavField) (c : InavCall) : List Bool := ((bitsOf c.word.val).drop f.lo).take (f.hi - f.lo)

/-- Length of the field. -/
def len (f : NavField) : Nat := f.hi - f.lo

end NavField

namespace NavKind

/-- The fields that make up the data of each kind, in order (OSNMA ICD, section 6.6: ADKD 0 and
ADKD 4). -/
def fields : NavKind → List NavField
  | .ced => [⟨1, 6, 126⟩, ⟨2, 6, 126⟩, ⟨3, 6, 128⟩, ⟨4, 6, 126⟩, ⟨5, 6, 73⟩]
  | .timing => [⟨6, 6, 105⟩, ⟨10, 86, 128⟩]

/-- Number of bits of the data: 549 and 141. -/
def nbits : NavKind → Nat
  | .ced => 549
  | .timing => 141

/-- Word type: the first six bits of the word. -/
def _root_.Verif.InavCall.type (c : InavCall) : Nat := loadBe ((bitsOf c.word.val).take 6)

/-- The call delivers the field: the word has its type, and timing parameters are taken only from
E1B. -/
def carries (kd : NavKind) (c : InavCall) (f : NavField) : Bool :=
  c.type == f.ty && (kd == .ced || c.band == .E1B)

/-- The last call for the satellite that delivers the field. -/
def latest (kd : NavKind) (p : List InavCall) (svn : Svn) (f : NavField) : Option InavCall :=
  (p.filter (fun c => c.svn == svn && kd.carries c f)).getLast?

/-- The last call for the satellite that delivers any field of the kind. -/
def latestAny (kd : NavKind) (p : List InavCall) (svn : Svn) : Option InavCall :=
  (p.filter (fun c => c.svn == svn && kd.fields.any (fun f => kd.carries c f))).getLast?

/-- A field of the satellite after the calls `p`: its most recent copy, or zeros if it was never
received. -/
def fieldAfter (kd : NavKind) (p : List InavCall) (svn : Svn) (f : NavField) : List Bool :=
  match kd.latest p svn f with
  | some c => f.bits c
  | none => List.replicate f.len false

/-- The data of the satellite after the calls `p`: all the fields, in order. -/
def expected (kd : NavKind) (p : List InavCall) (svn : Svn) : List Bool :=
  kd.fields.flatMap (kd.fieldAfter p svn)

end NavKind

/-- One subframe of the store. -/
structure NavSlot where
  gst : Gst
  ced : List NavItem
  timing : List NavItem
  deriving DecidableEq

/-- The entries of one kind of a slot. -/
def NavSlot.items (s : NavSlot) : NavKind → List NavItem
  | .ced => s.ced
  | .timing => s.timing

/-- The array of the store of one kind. -/
def CollectNavMessage.arr (n : CollectNavMessage) : NavKind → List NavItem
  | .ced => n.ced
  | .timing => n.timing

/-- The subframes that the store holds, most recently written first. -/
def CollectNavMessage.storedSlots (S : Storage) (n : CollectNavMessage) : List NavSlot :=
  (List.range S.navDepth).filterMap (fun j =>
    let i := (S.navDepth + n.writePointer - j) % S.navDepth
    match n.gsts[i]? with
    | some (some g) =>
      some ⟨g, (n.ced.drop (i * S.numSats)).take S.numSats, (n.timing.drop (i * S.numSats)).take S.numSats⟩
    | _ => none)

/-- The subframes of navigation data that the black box holds, most recently written first. -/
def Osnma.stored {C : Crypto} (S : Storage) (o : Osnma C) : List NavSlot :=
  o.data.data.navmessage.storedSlots S

/-- The two getters of the black box. -/
def Osnma.get {C : Crypto} (S : Storage) (o : Osnma C) (kd : NavKind) (svn : Svn) : Res (Option NavMessageData) :=
  match kd with
  | .ced => o.getCedAndStatus S svn
  | .timing => o.getTimingParameters S svn

/-- Each call is in the same subframe as the one before or in a later one. -/
def Chronological (p : List InavCall) : Prop :=
  ∀ i a b, p[i]? = some a → p[i+1]? = some b → a.gst.subframe.abs ≤ b.gst.subframe.abs

/-- Each call is in the same subframe as the one before or in the next one: no subframe goes by
without a word. -/
def Contiguous (p : List InavCall) : Prop :=
  ∀ i a b, p[i]? = some a → p[i+1]? = some b →
    b.gst.subframe.abs = a.gst.subframe.abs ∨ b.gst.subframe.abs = a.gst.subframe.abs + 30

/-- The satellites fed fit the storage. -/
def Fits (S : Storage) (p : List InavCall) : Prop :=
  ∃ sats : List Svn, sats.length ≤ S.numSats ∧ ∀ c ∈ p, c.svn ∈ sats

/-- The black box as constructed by one of the constructors. -/
def Osnma.Fresh {C : Crypto} (S : Storage) (o : Osnma C) : Prop :=
  (∃ root pk slow, o = Osnma.fromMerkleTree S root pk slow) ∨ (∃ pk slow, o = Osnma.fromPubkey S pk slow)

end Verif
