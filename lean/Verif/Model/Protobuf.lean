import Verif.Model.Galmon
import Verif.Model.Text

/-! # The protobuf messages of `galmon/navmon.proto`, as encoded and decoded by `prost` 0.14

`galileo-osnma/build.rs:4-8` generates the code of `galmon::navmon` from `galileo-osnma/src/galmon/navmon.proto` with
`prost-build`.  The generated code is not in the repository; this is the behaviour of `prost` for that file
(protobuf wire format; `Message::encode`, `Message::decode`).  A `double` is its 8 bytes.
This file gives one `Navmon` (`Model/Galmon.lean`); the theorems are about any `Navmon`. -/

namespace Verif.Pb

/-! ## Wire format -/

/-- `prost::encoding::encode_varint`: seven bits per byte, least significant first, the high bit set on all but the last. -/
def varint (n : Nat) : List Byte :=
  if n < 128 then [BitVec.ofNat 8 n] else BitVec.ofNat 8 (n % 128 + 128) :: varint (n / 128)

/-- `prost::encoding::decode_varint`, at byte number `count`: at most ten bytes, the tenth 0 or 1. -/
def unvarintGo (count : Nat) : List Byte → Option (Nat × List Byte)
  | [] => none
  | b :: rest =>
    if b.toNat < 128 then (if count = 9 ∧ 2 ≤ b.toNat then none else some (b.toNat, rest))
    else if count = 9 then none
    else (unvarintGo (count + 1) rest).map (fun x => (x.1 * 128 + (b.toNat - 128), x.2))

/-- `prost::encoding::decode_varint`. -/
def unvarint (l : List Byte) : Option (Nat × List Byte) := unvarintGo 0 l

/-- `prost::encoding::encode_key`: field number and wire type (0 varint, 1 64-bit, 2 length-delimited, 3 and 4 group, 5 32-bit). -/
def key (num wire : Nat) : List Byte := varint (num * 8 + wire)

/-- `prost::encoding::decode_key`. -/
def unkey (l : List Byte) : Option (Nat × Nat × List Byte) :=
  match unvarint l with
  | none => none
  | some (k, rest) =>
    if 2 ^ 32 ≤ k then none else if 5 < k % 8 then none else if k / 8 = 0 then none else some (k / 8, k % 8, rest)

/-- The loop of `prost::encoding::skip_field` for a group; the third argument bounds the recursion (the length is enough). -/
def skipGroup (skip : Nat → Nat → List Byte → Option (List Byte)) (num : Nat) : Nat → List Byte → Option (List Byte)
  | 0, _ => none
  | fuel + 1, l =>
    match unkey l with
    | none => none
    | some (num', wire, rest) =>
      if wire = 4 then (if num' = num then some rest else none)
      else match skip wire num' rest with
        | none => none
        | some rest => skipGroup skip num fuel rest

/-- `prost::encoding::skip_field`, with the number of nested groups still allowed (`DecodeContext`, 100 at the start). -/
def skipField : Nat → Nat → Nat → List Byte → Option (List Byte)
  | 0, _, _, _ => none
  | depth + 1, wire, num, l =>
    match wire with
    | 0 => (unvarint l).map (·.2)
    | 1 => if 8 ≤ l.length then some (l.drop 8) else none
    | 2 =>
      match unvarint l with
      | none => none
      | some (n, rest) => if n ≤ rest.length then some (rest.drop n) else none
    | 3 => skipGroup (skipField depth) num l.length l
    | 5 => if 4 ≤ l.length then some (l.drop 4) else none
    | _ => none

/-! ## Values and codecs -/

/-- Values of fields: numbers (also `bool`, and `int32` as its 32 bits), byte strings (also strings and doubles), a message
or a repeated field, and an optional field that is not present. -/
inductive Val where
  | num (n : Nat)
  | bytes (l : List Byte)
  | list (l : List Val)
  | absent

/-- How values of a type are encoded: the wire type, `Default::default()`, the bytes after the key, `merge` (with the recursion
still allowed) into an existing value, and which values belong to the type. -/
structure Codec where
  wire : Nat
  default : Val
  enc : Val → List Byte
  merge : Nat → Val → List Byte → Option (Val × List Byte)
  Ok : Val → Prop

/-- `prost::encoding::uint32`. -/
def uint32 : Codec where
  wire := 0
  default := .num 0
  enc := fun v => match v with
    | .num n => varint n
    | _ => []
  merge := fun _ _ l => (unvarint l).map (fun x => (.num (x.1 % 2 ^ 32), x.2))
  Ok := fun v => ∃ n, v = .num n ∧ n < 2 ^ 32

/-- `prost::encoding::uint64`. -/
def uint64 : Codec where
  wire := 0
  default := .num 0
  enc := fun v => match v with
    | .num n => varint n
    | _ => []
  merge := fun _ _ l => (unvarint l).map (fun x => (.num x.1, x.2))
  Ok := fun v => ∃ n, v = .num n ∧ n < 2 ^ 64

/-- `prost::encoding::int32`: `value as u64` extends the sign; also for enumerations, whose default is the first value. -/
def int32 (dflt : Nat := 0) : Codec where
  wire := 0
  default := .num dflt
  enc := fun v => match v with
    | .num n => varint (if n < 2 ^ 31 then n else n + (2 ^ 64 - 2 ^ 32))
    | _ => []
  merge := fun _ _ l => (unvarint l).map (fun x => (.num (x.1 % 2 ^ 32), x.2))
  Ok := fun v => ∃ n, v = .num n ∧ n < 2 ^ 32

/-- `prost::encoding::bool`. -/
def bool : Codec where
  wire := 0
  default := .num 0
  enc := fun v => match v with
    | .num n => varint n
    | _ => []
  merge := fun _ _ l => (unvarint l).map (fun x => (.num (if x.1 = 0 then 0 else 1), x.2))
  Ok := fun v => ∃ n, v = .num n ∧ n < 2

/-- `prost::encoding::double`. -/
def double : Codec where
  wire := 1
  default := .bytes (List.replicate 8 0#8)
  enc := fun v => match v with
    | .bytes b => b
    | _ => []
  merge := fun _ _ l => if 8 ≤ l.length then some (.bytes (l.take 8), l.drop 8) else none
  Ok := fun v => ∃ b, v = .bytes b ∧ b.length = 8

/-- `prost::encoding::bytes`. -/
def bytes : Codec where
  wire := 2
  default := .bytes []
  enc := fun v => match v with
    | .bytes b => varint b.length ++ b
    | _ => []
  merge := fun _ _ l =>
    match unvarint l with
    | none => none
    | some (n, rest) => if n ≤ rest.length then some (.bytes (rest.take n), rest.drop n) else none
  Ok := fun v => ∃ b, v = .bytes b

/-- `prost::encoding::string`. -/
def string : Codec where
  wire := 2
  default := .bytes []
  enc := bytes.enc
  merge := fun d v l =>
    match bytes.merge d v l with
    | some (.bytes b, rest) => if (utf8 b).isSome then some (.bytes b, rest) else none
    | _ => none
  Ok := fun v => ∃ b, v = .bytes b ∧ (utf8 b).isSome

/-- Labels of the fields in the proto file. -/
inductive Card where
  | required
  | optional
  | repeated

/-- A field of a message. -/
structure Field where
  card : Card
  num : Nat
  codec : Codec

/-- `Default::default()` of a field. -/
def Field.default (f : Field) : Val :=
  match f.card with
  | .required => f.codec.default
  | .optional => .absent
  | .repeated => .list []

/-- What `encode_raw` writes for a field. -/
def Field.enc (f : Field) (v : Val) : List Byte :=
  match f.card with
  | .required => key f.num f.codec.wire ++ f.codec.enc v
  | .optional =>
    match v with
    | .absent => []
    | v => key f.num f.codec.wire ++ f.codec.enc v
  | .repeated =>
    match v with
    | .list l => l.flatMap (fun v => key f.num f.codec.wire ++ f.codec.enc v)
    | _ => []

/-- The values of a field. -/
def Field.Ok (f : Field) (v : Val) : Prop :=
  match f.card with
  | .required => f.codec.Ok v
  | .optional => v = .absent ∨ v ≠ .absent ∧ f.codec.Ok v
  | .repeated => ∃ l, v = .list l ∧ ∀ x ∈ l, f.codec.Ok x

/-- `merge_field` for a field of the message, after the key. -/
def Field.merge (f : Field) (depth wire : Nat) (v : Val) (l : List Byte) : Option (Val × List Byte) :=
  if wire ≠ f.codec.wire then none
  else match f.card with
    | .required => f.codec.merge depth v l
    | .optional =>
      match v with
      | .absent => f.codec.merge depth f.codec.default l
      | v => f.codec.merge depth v l
    | .repeated =>
      match f.codec.merge depth f.codec.default l, v with
      | some (x, rest), .list xs => some (.list (xs ++ [x]), rest)
      | _, _ => none

/-- `Message::encode_raw`: the fields in order of their number. -/
def encodeFields : List Field → List Val → List Byte
  | f :: fs, v :: vs => f.enc v ++ encodeFields fs vs
  | _, _ => []

/-- `Message::merge_field`: unknown fields are skipped. -/
def mergeField (fs : List Field) (depth num wire : Nat) (vs : List Val) (l : List Byte) : Option (List Val × List Byte) :=
  match fs.findIdx? (fun f => f.num == num) with
  | none => (skipField depth wire num l).map (fun rest => (vs, rest))
  | some i =>
    match fs[i]?, vs[i]? with
    | some f, some v => (f.merge depth wire v l).map (fun x => (vs.set i x.1, x.2))
    | _, _ => none

/-- `Message::merge`: fields until the end of the buffer.  The first argument bounds the recursion (the length is enough). -/
def mergeLoop (fs : List Field) (depth : Nat) : Nat → List Val → List Byte → Option (List Val)
  | _, vs, [] => some vs
  | 0, _, _ :: _ => none
  | fuel + 1, vs, l =>
    match unkey l with
    | none => none
    | some (num, wire, rest) =>
      match mergeField fs depth num wire vs rest with
      | none => none
      | some (vs, rest) => mergeLoop fs depth fuel vs rest

/-- `prost::encoding::message`.  (`merge_loop` reads from the whole buffer and fails if a field goes beyond the length of the message; here
the fields are read from the part of that length, which also fails then.) -/
def message (fs : List Field) : Codec where
  wire := 2
  default := .list (fs.map Field.default)
  enc := fun v => match v with
    | .list vs => varint (encodeFields fs vs).length ++ encodeFields fs vs
    | _ => []
  merge := fun depth v l =>
    match depth, v with
    | depth + 1, .list vs =>
      match unvarint l with
      | none => none
      | some (n, rest) =>
        if n ≤ rest.length then (mergeLoop fs depth n vs (rest.take n)).map (fun vs => (.list vs, rest.drop n)) else none
    | _, _ => none
  Ok := fun v => ∃ vs, v = .list vs ∧ vs.length = fs.length ∧ ∀ x ∈ fs.zip vs, x.1.Ok x.2

/-! ## `navmon.proto` -/

abbrev req (num : Nat) (c : Codec) : Field := ⟨.required, num, c⟩
abbrev opt (num : Nat) (c : Codec) : Field := ⟨.optional, num, c⟩

/-- `GalileoInav` (`navmon.proto:31-45`). -/
def galileoInav : List Field :=
  [req 1 uint32, req 2 uint32, req 3 uint32, req 4 uint32, req 5 bytes, opt 6 uint32, opt 7 bytes, opt 8 bytes, opt 9 bytes,
    opt 10 bytes, opt 11 bytes, opt 12 uint32]

/-- `GalileoFnav`, `GalileoCnav` and `GPSCnav` (`navmon.proto:47-64, 193-201`). -/
def galileoFnav : List Field := [req 1 uint32, req 2 uint32, req 3 uint32, req 4 uint32, req 5 bytes, req 6 uint32]

/-- `GPSInav`, `BeidouInavD1` and `BeidouInavD2` (`navmon.proto:66-93`). -/
def gpsInav : List Field := [req 1 uint32, req 2 uint32, req 3 uint32, req 4 uint32, req 5 bytes, opt 6 uint32]

/-- `GlonassInav` (`navmon.proto:95-101`). -/
def glonassInav : List Field := [req 1 uint32, req 2 uint32, req 3 uint32, req 4 bytes, opt 5 uint32]

/-- `ReceptionData` (`navmon.proto:104-115`). -/
def receptionData : List Field :=
  [req 1 uint32, req 2 uint32, req 3 uint32, req 4 uint32, req 5 uint32, req 6 double, opt 7 uint32, opt 8 uint32, opt 9 bool]

/-- `RFData` (`navmon.proto:117-137`). -/
def rfData : List Field :=
  [req 1 double, req 2 uint32, req 3 uint32, req 4 uint32, req 5 double, req 6 double, req 7 double, req 8 double, req 9 double,
    req 10 double, req 11 double, opt 12 uint32, opt 13 uint32, opt 14 bool, opt 15 bool, opt 16 bool, opt 17 bool, opt 18 bool]

/-- `ObserverPosition` (`navmon.proto:139-145`). -/
def observerPosition : List Field := [req 1 double, req 2 double, req 3 double, req 4 double, opt 5 double]

/-- `SARResponse` (`navmon.proto:147-155`). -/
def sarResponse : List Field := [req 1 uint32, req 2 uint32, req 3 uint32, req 4 uint32, req 5 bytes, req 6 uint32, req 7 bytes]

/-- `DebuggingMessage` (`navmon.proto:157-160`). -/
def debuggingMessage : List Field := [req 1 uint32, req 2 bytes]

/-- `ObserverDetails` (`navmon.proto:162-176`). -/
def observerDetails : List Field :=
  [req 1 string, req 2 string, req 3 string, req 4 string, req 5 string, opt 6 double, opt 7 double, opt 8 double, opt 9 double,
    opt 10 string, opt 11 string, opt 12 string, opt 13 uint32]

/-- `UbloxJammingStats` (`navmon.proto:178-184`). -/
def ubloxJammingStats : List Field := [req 1 uint32, req 2 uint32, req 3 uint32, req 4 uint32]

/-- `SBASMessage` (`navmon.proto:186-190`). -/
def sbasMessage : List Field := [req 1 uint32, req 2 uint32, req 3 bytes]

/-- `RTCMMessage` (`navmon.proto:204-206`). -/
def rtcmMessage : List Field := [req 5 bytes]

/-- `GNSSOffset` (`navmon.proto:208-221`). -/
def gnssOffset : List Field :=
  [req 1 uint32, req 2 int32, req 3 uint32, req 4 bool, opt 5 int32, req 6 uint32, opt 7 uint32, opt 8 uint32, opt 9 uint32]

/-- `TimeOffsetMessage` (`navmon.proto:224-228`). -/
def timeOffsetMessage : List Field := [req 1 uint32, ⟨.repeated, 2, message gnssOffset⟩]

/-- `NavMonMessage` (`navmon.proto:25-29, 231-248`).  The default of `type` is the first value of the enumeration, 1. -/
def navMonMessage : List Field :=
  [req 1 uint64, req 2 (int32 1), req 3 uint64, req 4 uint64, opt 5 (message galileoInav), opt 6 (message receptionData),
    opt 7 (message rfData), opt 8 (message observerPosition), opt 9 (message gpsInav), opt 10 (message gpsInav),
    opt 11 (message gpsInav), opt 12 (message glonassInav), opt 13 (message sarResponse), opt 14 (message debuggingMessage),
    opt 15 (message observerDetails), opt 16 (message ubloxJammingStats), opt 17 (message sbasMessage), opt 18 (message galileoFnav),
    opt 19 (message rtcmMessage), opt 20 (message timeOffsetMessage), opt 21 (message galileoFnav), opt 22 (message galileoFnav)]

/-- A value of the Rust type `NavMonMessage`. -/
abbrev Msg : Type := { vs : List Val // vs.length = navMonMessage.length ∧ ∀ x ∈ navMonMessage.zip vs, x.1.Ok x.2 }

/-- An optional `bytes` or `uint32` field. -/
def optBytes : Option (List Byte) → Val
  | some b => .bytes b
  | none => .absent

def optNum : Option (BitVec 32) → Val
  | some n => .num n.toNat
  | none => .absent

/-- The fields of the Rust type `GalileoInav`. -/
def ofInavVals (i : GalileoInav) : List Val :=
  [.num i.gnssWn.toNat, .num i.gnssTow.toNat, .num i.gnssId.toNat, .num i.gnssSv.toNat, .bytes i.contents, optNum i.sigid,
    optBytes i.reserved1, optBytes i.reserved2, optBytes i.sar, optBytes i.spare, optBytes i.crc, optNum i.ssp]

def unBytes : Val → Option (List Byte)
  | .bytes b => some b
  | _ => none

def unNum : Val → Option (BitVec 32)
  | .num n => some (BitVec.ofNat 32 n)
  | _ => none

/-- The `GalileoInav` of a value of the field `gi`. -/
def toInav : Val → Option GalileoInav
  | .list [wn, tow, id, sv, contents, sigid, r1, r2, sar, spare, crc, ssp] =>
    some ⟨(unNum wn).getD 0, (unNum tow).getD 0, (unNum id).getD 0, (unNum sv).getD 0, (unBytes contents).getD [], unNum sigid,
      unBytes r1, unBytes r2, unBytes sar, unBytes spare, unBytes crc, unNum ssp⟩
  | _ => none

/-- The message of `osnma-test-vectors-to-galmon.rs:96-107`. -/
def ofInavMsg (i : GalileoInav) : List Val :=
  [.num 0, .num 3, .num 0, .num 0, .list (ofInavVals i)] ++ List.replicate 17 .absent

end Verif.Pb
