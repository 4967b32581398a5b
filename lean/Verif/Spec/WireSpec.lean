import Verif.Model.Prost
import Verif.Spec.LineGrammar

/-! # Specification: protobuf messages as a sequence of numbered fields

The protobuf wire format (https://protobuf.dev/programming-guides/encoding), as a relation between bytes and fields, and the tables of
`galmon/navmon.proto` (printed from that file by `tools/proto.py`).  Nothing here refers to the decoder. -/

namespace Verif.Wire

/-- Base 128, least significant digit first; the high bit is set in all bytes but the last.  Leading zeros are allowed. -/
inductive Base128 : List Byte → Nat → Prop
  | last {b : Byte} : b.toNat < 128 → Base128 [b] b.toNat
  | more {b : Byte} {l : List Byte} {n : Nat} : 128 ≤ b.toNat → Base128 l n → Base128 (b :: l) (b.toNat - 128 + 128 * n)

/-- A number of 64 bits, in at most ten bytes. -/
def Varint (l : List Byte) (n : Nat) : Prop := Base128 l n ∧ l.length ≤ 10 ∧ n < 2 ^ 64

/-- The contents of a field; those of a group are not of interest. -/
inductive Data where
  | varint (n : Nat)
  | fixed64 (b : List Byte)
  | bytes (b : List Byte)
  | group
  | fixed32 (b : List Byte)

/-- The number of the wire type. -/
def Data.type : Data → Nat
  | .varint _ => 0
  | .fixed64 _ => 1
  | .bytes _ => 2
  | .group => 3
  | .fixed32 _ => 5

/-- A field: its number and contents. -/
structure Elem where
  num : Nat
  data : Data

/-- The key before a field: 32 bits, the lowest three of which are the wire type. -/
def Key (l : List Byte) (num type : Nat) : Prop := Varint l (8 * num + type) ∧ type ≤ 5 ∧ 1 ≤ num ∧ 8 * num + type < 2 ^ 32

/-- The bytes are the fields in order; `P` says what the contents of a field look like. -/
inductive FieldsOf (P : Nat → List Byte → Data → Prop) : List Byte → List Elem → Prop
  | nil : FieldsOf P [] []
  | cons {k p l : List Byte} {num : Nat} {x : Data} {es : List Elem} : Key k num x.type → P num p x → FieldsOf P l es →
    FieldsOf P (k ++ p ++ l) (⟨num, x⟩ :: es)

/-- The bytes of the contents of a field: a varint, 8 bytes, a length and that many bytes, 4 bytes, or the fields of a group and the key that ends it.
Groups nest at most `depth` times. -/
def Payload (depth num : Nat) (p : List Byte) (x : Data) : Prop :=
  match x with
  | .varint n => Varint p n
  | .fixed64 b => p = b ∧ b.length = 8
  | .bytes b => ∃ len, Varint len b.length ∧ p = len ++ b
  | .fixed32 b => p = b ∧ b.length = 4
  | .group =>
    match depth with
    | 0 => False
    | depth + 1 => ∃ body es last, FieldsOf (fun n q y => depth ≠ 0 ∧ Payload depth n q y) body es ∧ Key last num 4 ∧ p = body ++ last

/-- The bytes of a message are these fields. -/
def Fields (depth : Nat) (l : List Byte) (es : List Elem) : Prop := FieldsOf (Payload depth) l es

/-- A type of field: the contents that it allows, with the depth still allowed. -/
abbrev Ty := Nat → Data → Prop

def uint32 : Ty := fun _ x => ∃ n, x = .varint n
def uint64 : Ty := fun _ x => ∃ n, x = .varint n
def int32 : Ty := fun _ x => ∃ n, x = .varint n
def bool : Ty := fun _ x => ∃ n, x = .varint n
def double : Ty := fun _ x => ∃ b, x = .fixed64 b
def bytes : Ty := fun _ x => ∃ b, x = .bytes b
def string : Ty := fun _ x => ∃ b s, x = .bytes b ∧ Utf8Of b s

/-- The fields with numbers in the table are of the types in the table; there may be others. -/
def Typed (table : List (Nat × Ty)) (depth : Nat) (es : List Elem) : Prop := ∀ e ∈ es, ∀ T, (e.num, T) ∈ table → T depth e.data

/-- A message inside a field. -/
def message (table : List (Nat × Ty)) : Ty := fun depth x =>
  match depth with
  | 0 => False
  | depth + 1 => ∃ b es, x = .bytes b ∧ Fields depth b es ∧ Typed table depth es

/-! ## Tables of `navmon.proto` -/

/-- `GalileoInav` of `navmon.proto`. -/
def galileoInav : List (Nat × Ty) :=
    [(1, uint32), (2, uint32), (3, uint32), (4, uint32), (5, bytes), (6, uint32), (7, bytes), (8, bytes), (9, bytes), (10, bytes), (11, bytes), (12,
    uint32)]

/-- `GalileoFnav` of `navmon.proto`. -/
def galileoFnav : List (Nat × Ty) :=
    [(1, uint32), (2, uint32), (3, uint32), (4, uint32), (5, bytes), (6, uint32)]

/-- `GalileoCnav` of `navmon.proto`. -/
def galileoCnav : List (Nat × Ty) :=
    [(1, uint32), (2, uint32), (3, uint32), (4, uint32), (5, bytes), (6, uint32)]

/-- `GPSInav` of `navmon.proto`. -/
def gPSInav : List (Nat × Ty) :=
    [(1, uint32), (2, uint32), (3, uint32), (4, uint32), (5, bytes), (6, uint32)]

/-- `BeidouInavD1` of `navmon.proto`. -/
def beidouInavD1 : List (Nat × Ty) :=
    [(1, uint32), (2, uint32), (3, uint32), (4, uint32), (5, bytes), (6, uint32)]

/-- `BeidouInavD2` of `navmon.proto`. -/
def beidouInavD2 : List (Nat × Ty) :=
    [(1, uint32), (2, uint32), (3, uint32), (4, uint32), (5, bytes), (6, uint32)]

/-- `GlonassInav` of `navmon.proto`. -/
def glonassInav : List (Nat × Ty) :=
    [(1, uint32), (2, uint32), (3, uint32), (4, bytes), (5, uint32)]

/-- `ReceptionData` of `navmon.proto`. -/
def receptionData : List (Nat × Ty) :=
    [(1, uint32), (2, uint32), (3, uint32), (4, uint32), (5, uint32), (6, double), (7, uint32), (8, uint32), (9, bool)]

/-- `RFData` of `navmon.proto`. -/
def rFData : List (Nat × Ty) :=
    [(1, double), (2, uint32), (3, uint32), (4, uint32), (5, double), (6, double), (7, double), (8, double), (9, double), (10, double), (11, double),
    (12, uint32), (13, uint32), (14, bool), (15, bool), (16, bool), (17, bool), (18, bool)]

/-- `ObserverPosition` of `navmon.proto`. -/
def observerPosition : List (Nat × Ty) :=
    [(1, double), (2, double), (3, double), (4, double), (5, double)]

/-- `SARResponse` of `navmon.proto`. -/
def sARResponse : List (Nat × Ty) :=
    [(1, uint32), (2, uint32), (3, uint32), (4, uint32), (5, bytes), (6, uint32), (7, bytes)]

/-- `DebuggingMessage` of `navmon.proto`. -/
def debuggingMessage : List (Nat × Ty) :=
    [(1, uint32), (2, bytes)]

/-- `ObserverDetails` of `navmon.proto`. -/
def observerDetails : List (Nat × Ty) :=
    [(1, string), (2, string), (3, string), (4, string), (5, string), (6, double), (7, double), (8, double), (9, double), (10, string), (11, string),
    (12, string), (13, uint32)]

/-- `UbloxJammingStats` of `navmon.proto`. -/
def ubloxJammingStats : List (Nat × Ty) :=
    [(1, uint32), (2, uint32), (3, uint32), (4, uint32)]

/-- `SBASMessage` of `navmon.proto`. -/
def sBASMessage : List (Nat × Ty) :=
    [(1, uint32), (2, uint32), (3, bytes)]

/-- `GPSCnav` of `navmon.proto`. -/
def gPSCnav : List (Nat × Ty) :=
    [(1, uint32), (2, uint32), (3, uint32), (4, uint32), (5, bytes), (6, uint32)]

/-- `RTCMMessage` of `navmon.proto`. -/
def rTCMMessage : List (Nat × Ty) :=
    [(5, bytes)]

/-- `GNSSOffset` of `navmon.proto`. -/
def gNSSOffset : List (Nat × Ty) :=
    [(1, uint32), (2, int32), (3, uint32), (4, bool), (5, int32), (6, uint32), (7, uint32), (8, uint32), (9, uint32)]

/-- `TimeOffsetMessage` of `navmon.proto`. -/
def timeOffsetMessage : List (Nat × Ty) :=
    [(1, uint32), (2, message gNSSOffset)]

/-- `NavMonMessage` of `navmon.proto`. -/
def navMonMessage : List (Nat × Ty) :=
    [(1, uint64), (2, int32), (3, uint64), (4, uint64), (5, message galileoInav), (6, message receptionData), (7, message rFData), (8, message
    observerPosition), (9, message gPSInav), (10, message beidouInavD1), (11, message beidouInavD2), (12, message glonassInav), (13, message
    sARResponse), (14, message debuggingMessage), (15, message observerDetails), (16, message ubloxJammingStats), (17, message sBASMessage), (18,
    message gPSCnav), (19, message rTCMMessage), (20, message timeOffsetMessage), (21, message galileoFnav), (22, message galileoCnav)]

/-! ## Meaning -/

/-- A Galmon message: at most 100 messages or groups inside each other. -/
def NavMon (l : List Byte) (es : List Elem) : Prop := Fields 100 l es ∧ Typed navMonMessage 100 es

/-- The contents of the last field with the number. -/
def lastOf (es : List Elem) (num : Nat) : Option Data := ((es.filter fun e => e.num == num).getLast?).map Elem.data

/-- A number of 32 bits. -/
def Data.u32 : Data → Option (BitVec 32)
  | .varint n => some (BitVec.ofNat 32 n)
  | _ => none

/-- A byte string. -/
def Data.str : Data → Option (List Byte)
  | .bytes b => some b
  | _ => none

/-- The navigation data packet made up by the fields: for each number, the last field counts.  A required field that is missing counts as 0 or empty. -/
structure InavOf (es : List Elem) (i : GalileoInav) : Prop where
  gnssWn : i.gnssWn = ((lastOf es 1).bind Data.u32).getD 0
  gnssTow : i.gnssTow = ((lastOf es 2).bind Data.u32).getD 0
  gnssId : i.gnssId = ((lastOf es 3).bind Data.u32).getD 0
  gnssSv : i.gnssSv = ((lastOf es 4).bind Data.u32).getD 0
  contents : i.contents = ((lastOf es 5).bind Data.str).getD []
  sigid : i.sigid = (lastOf es 6).bind Data.u32
  reserved1 : i.reserved1 = (lastOf es 7).bind Data.str
  reserved2 : i.reserved2 = (lastOf es 8).bind Data.str
  sar : i.sar = (lastOf es 9).bind Data.str
  spare : i.spare = (lastOf es 10).bind Data.str
  crc : i.crc = (lastOf es 11).bind Data.str
  ssp : i.ssp = (lastOf es 12).bind Data.u32

/-- The messages in the fields number 5 of a message, in order. -/
inductive GiParts : List Elem → List (List Elem) → Prop
  | nil : GiParts [] []
  | other {e : Elem} {es : List Elem} {ps : List (List Elem)} : e.num ≠ 5 → GiParts es ps → GiParts (e :: es) ps
  | part {b : List Byte} {es part : List Elem} {ps : List (List Elem)} : Fields 99 b part → GiParts es ps →
    GiParts (⟨5, .bytes b⟩ :: es) (part :: ps)

/-- The navigation data of a message: none, or what all the fields number 5 together say. -/
def NavData (es : List Elem) (gi : Option GalileoInav) : Prop :=
  ∃ parts, GiParts es parts ∧
    match gi with
    | none => parts = []
    | some i => parts ≠ [] ∧ InavOf parts.flatten i

end Verif.Wire
