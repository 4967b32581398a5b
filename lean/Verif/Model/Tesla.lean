import Verif.Model.Maclt

/-! # `galileo-osnma/src/tesla.rs` -/

namespace Verif

/-- `tesla::HashFunction` (`tesla.rs:51-56`). -/
inductive HashFunction where
  | Sha256 | Sha3_256
  deriving DecidableEq, Repr

/-- `tesla::MacFunction` (`tesla.rs:64-69`). -/
inductive MacFunction where
  | HmacSha256 | CmacAes
  deriving DecidableEq, Repr

/-- `Chain` (`tesla.rs:35-43`).  The fields are private and `Chain::from_dsm_kroot` is the only
constructor, so the ranges it guarantees are part of the type: a key size of Table 10 (in bytes),
a tag size of Table 11, a 2-bit id, an 8-bit MACLT and a 48-bit alpha. -/
structure Chain where
  id : Nat
  hashFunction : HashFunction
  macFunction : MacFunction
  keySizeBytes : Nat
  tagSizeBits : Nat
  maclt : Nat
  alpha : Nat
  hid : id < 4
  hks : keySizeBytes ∈ [12, 13, 14, 15, 16, 20, 24, 28, 32]
  hts : tagSizeBits ∈ [20, 24, 28, 32, 40]
  hmaclt : maclt < 256
  halpha : alpha < 2 ^ 48
  deriving DecidableEq

/-- `ChainError` (`tesla.rs:210-214`). -/
inductive ChainError where
  | ReservedField
  deriving DecidableEq, Repr

/-- `AdkdCheckError` (`tesla.rs:232-241`). -/
inductive AdkdCheckError where
  | MacLTError (e : MacLTError) | WrongAdkd | WrongPrnd
  deriving DecidableEq, Repr

/-- `MacseqCheckError` (`tesla.rs:1017-1022`). -/
inductive MacseqCheckError where
  | MacLTError (e : MacLTError) | WrongMacseq
  deriving DecidableEq, Repr

/-- `ValidationError` (`tesla.rs:462-477`). -/
inductive ValidationError where
  | WrongOneWayFunction | DifferentChain | DoesNotFollow | TooManyDerivations
  deriving DecidableEq, Repr

/-- `KrootValidationError` (`tesla.rs:633-646`). -/
inductive KrootValidationError where
  | WrongDsmKrootChain (e : ChainError) | WrongDsmKrootPadding | WrongEcdsa | WrongEcdsaKeyType
  deriving DecidableEq, Repr

/-- `MackValidationError` (`bitfields.rs:779-792`). -/
inductive MackValidationError where
  | MacseqError (e : MacseqCheckError)
  | WrongAdkd (tagIndex : Nat) (error : AdkdCheckError)
  deriving DecidableEq, Repr

namespace Chain

/-- `Chain::key_size_bits` (`tesla.rs:130-132`). -/
def keySizeBits (c : Chain) : Nat := c.keySizeBytes * 8

/-- Assembles a `Chain` (`tesla.rs:95-103`).  The range checks stand for the Rust types: they
succeed for every DSM-KROOT (`Chain.build_ok` in `Lemmas/Bitfields.lean`), so the `panic` branch is
dead; it is there because the ranges are proof fields of `Chain`. -/
def build (id : Nat) (hf : HashFunction) (mf : MacFunction) (ks ts maclt alpha : Nat) : Res Chain :=
  if h : id < 4 ∧ ks ∈ [12, 13, 14, 15, 16, 20, 24, 28, 32] ∧ ts ∈ [20, 24, 28, 32, 40]
      ∧ maclt < 256 ∧ alpha < 2 ^ 48 then
    .ok ⟨id, hf, mf, ks, ts, maclt, alpha, h.1, h.2.1, h.2.2.1, h.2.2.2.1, h.2.2.2.2⟩
  else .panic "unreachable: chain field out of range"

/-- `Chain::from_dsm_kroot` (`tesla.rs:76-104`).  The assertion `s % 8 == 0` (l.89) is kept. -/
def fromDsmKroot (d : DsmKroot) : Res (Except ChainError Chain) := do
  match ← d.hashFunction with
  | .Reserved => pure (.error .ReservedField)
  | .Sha256 => go .Sha256
  | .Sha3_256 => go .Sha3_256
where
  /-- Rest of the function once the hash function is known (l.82-103). -/
  go (hf : HashFunction) : Res (Except ChainError Chain) := do
    match ← d.macFunction with
    | .Reserved => pure (.error .ReservedField)
    | .HmacSha256 => go2 hf .HmacSha256
    | .CmacAes => go2 hf .CmacAes
  /-- Rest of the function once the MAC function is known (l.87-103). -/
  go2 (hf : HashFunction) (mf : MacFunction) : Res (Except ChainError Chain) := do
    match ← d.keySize with
    | none => pure (.error .ReservedField)
    | some s =>
      Res.assert (s % 8 == 0) "s % 8 == 0"
      match ← d.tagSize with
      | none => pure (.error .ReservedField)
      | some ts =>
        let id ← d.krootChainId
        let maclt ← d.macLookupTable
        let alpha ← d.alpha
        let c ← build id hf mf (s / 8) ts maclt alpha
        pure (.ok c)

/-- Half of the GST minute, `(gst.tow() / 30) % 2` (`tesla.rs:179, 988`). -/
def halfMinute (g : Gst) : Nat := (g.tow / 30) % 2

/-- `Chain::validate_adkd` (`tesla.rs:171-202`). -/
def validateAdkd (c : Chain) (numTag : Nat) (tag : TagAndInfo) (prna : Svn) (gstTag : Gst) :
    Res (Except AdkdCheckError Unit) := do
  match ← Maclt.getEntry c.maclt (halfMinute gstTag) numTag with
  | .error e => pure (.error (.MacLTError e))
  | .ok (.Fixed adkd object) =>
    if tag.adkd ≠ adkd then pure (.error .WrongAdkd)
    else
      match tag.prnd with
      | .GalileoSvid prnd =>
        if object = .SelfAuth ∧ prnd ≠ prna.val then pure (.error .WrongPrnd)
        else if 1 ≤ prnd ∧ prnd ≤ NUM_SVNS then pure (.ok ())
        else pure (.error .WrongPrnd)
      | _ => pure (.error .WrongPrnd)
  | .ok .Flex => pure (.ok ())

end Chain

/-- `Key` (`tesla.rs:450-455`): a 32-byte buffer of which the first `key_size_bytes` are the key,
the chain, and the GST of the subframe in which the key is transmitted.  The type-state parameter
is erased. -/
structure Key where
  data : Bytes 32
  chain : Chain
  gst : Gst
  deriving DecidableEq

namespace Key

/-- The key proper, `&self.data[..self.chain.key_size_bytes]` (`tesla.rs:684, 751, 881`). -/
def bytes (k : Key) : List Byte := k.data.val.take k.chain.keySizeBytes

/-- A 32-byte buffer of zeros with `src` copied to its start
(`let mut data = [0; MAX_KEY_BYTES]; data[..n].copy_from_slice(src)`, `tesla.rs:548-549`). -/
def padData (src : List Byte) : Bytes 32 :=
  ⟨(src ++ List.replicate 32 0#8).take 32, by simp⟩

/-- `Key::store_gst` (`tesla.rs:508-512`): 12 bits of week number and 20 bits of time of week
(the week number is truncated to 12 bits). -/
def storeGst (g : Gst) : List Byte := packBytes (storeBe 12 g.wn ++ storeBe 20 g.tow)

/-- `Key::check_gst` (`tesla.rs:499-501`). -/
def checkGst (g : Gst) : Res Unit := Res.assert g.isSubframe "gst.is_subframe()"

/-- `Key::from_bitslice` (`tesla.rs:525-535`).  `copy_from_bitslice` panics on different lengths. -/
def fromBitslice (bits : List Bool) (gst : Gst) (chain : Chain) : Res Key := do
  checkGst gst
  Res.assert (bits.length == chain.keySizeBytes * 8) "copy_from_bitslice: different lengths"
  pure ⟨padData (packBytes bits), chain, gst⟩

/-- `Key::from_slice` (`tesla.rs:546-556`). -/
def fromSlice (bytes : List Byte) (gst : Gst) (chain : Chain) : Res Key := do
  checkGst gst
  Res.assert (bytes.length == chain.keySizeBytes) "copy_from_slice: different lengths"
  pure ⟨padData bytes, chain, gst⟩

variable (C : Crypto)

/-- `HashDigest` with the hash function of the chain (`tesla.rs:269-305, 702-704`). -/
def hash (c : Chain) (m : List Byte) : List Byte :=
  match c.hashFunction with
  | .Sha256 => C.sha256 m
  | .Sha3_256 => C.sha3_256 m

/-- `Key::one_way_function` (`tesla.rs:681-700`); `alpha.to_be_bytes()[2..]` are the 6 low bytes. -/
def oneWayFunction (k : Key) : Res Key := do
  let prev ← k.gst.addSeconds (-30)
  let h := hash C k.chain (k.bytes ++ storeGst prev ++ beBytes 6 k.chain.alpha)
  pure ⟨padData (h.take k.chain.keySizeBytes), k.chain, prev⟩

/-- `Key::derive` (`tesla.rs:711-717`). -/
def derive : Key → Nat → Res Key
  | k, 0 => .ok k
  | k, n + 1 =>
    match oneWayFunction C k with
    | .ok k' => derive k' n
    | .panic w => .panic w

/-- `Key::validate_key` (`tesla.rs:731-756`). -/
def validateKey (self other : Key) : Res (Except ValidationError Key) := do
  if self.chain ≠ other.chain then pure (.error .DifferentChain)
  else if Gst.cmp self.gst other.gst ≠ .lt then pure (.error .DoesNotFollow)
  else do
    let derivations ← other.gst.subframesDifference self.gst
    Res.assert (decide (derivations ≥ 1)) "derivations >= 1"
    if derivations > 3000 then pure (.error .TooManyDerivations)
    else do
      let derived ← derive C other derivations.toNat
      Res.assert (derived.gst == self.gst) "derived_key.gst_subframe == self.gst_subframe"
      if derived.data.val.take self.chain.keySizeBytes = self.data.val.take self.chain.keySizeBytes
      then pure (.ok other)
      else pure (.error .WrongOneWayFunction)

/-- `Key::from_dsm_kroot` (`tesla.rs:591-624`). -/
def fromDsmKroot (h : NmaHeader) (d : DsmKroot) (pk : PublicKey C) :
    Res (Except KrootValidationError (Key × NmaHeader)) := do
  match ← Chain.fromDsmKroot d with
  | .error e => pure (.error (.WrongDsmKrootChain e))
  | .ok chain =>
    if !(← d.checkPadding C h) then pure (.error .WrongDsmKrootPadding)
    else do
      let f ← d.ecdsaFunction
      let verdict : Option KrootValidationError ← match pk.key, f with
        | .P256 key, .P256Sha256 => do
          if !(← d.checkSignatureP256 C h key) then pure (some .WrongEcdsa) else pure none
        | .P521 key, .P521Sha512 =>
          if C.p521 then do
            if !(← d.checkSignatureP521 C h key) then pure (some .WrongEcdsa) else pure none
          else pure (some .WrongEcdsaKeyType)
        | _, _ => pure (some .WrongEcdsaKeyType)
      match verdict with
      | some e => pure (.error e)
      | none =>
        let wn ← d.krootWn
        let towh ← d.krootTowh
        -- `kroot_wn` is a 12-bit field, so it always fits a `u16`
        let gst ← if hwn : wn < 65536 then Gst.new wn (towh * 3600) hwn else .panic "unreachable"
        checkGst gst
        let gst ← gst.addSeconds (-30)
        let kroot ← d.kroot
        let key ← fromSlice kroot gst chain
        pure (.ok (key, h))

/-- `MacDigest` keyed with this key, finalized on message `m` (`tesla.rs:307-350, 880-883`): 32
bytes.  CMAC-AES-128 accepts only 16-byte keys (`new_from_slice(..).unwrap()`), its 16-byte output
fills the first half of the zeroed 32-byte output (l.343-347). -/
def mac (k : Key) (m : List Byte) : Res (List Byte) :=
  match k.chain.macFunction with
  | .HmacSha256 => .ok (C.hmac k.bytes m)
  | .CmacAes =>
    if k.chain.keySizeBytes = 16 then .ok (C.cmac k.bytes m ++ List.replicate 16 0#8)
    else .panic "MacDigest::new_from_slice(..).unwrap()"

/-- Numeric code of the NMA status (`tesla.rs:907-912`). -/
def statusCode : NmaStatus → Nat
  | .Reserved => 0
  | .Test => 1
  | .Operational => 2
  | .DontUse => 3

/-- Start of the tag buffer, `fill_buffer_header` (`tesla.rs:896-913`): PRNA, GST, CTR and the
two status bits, as bits of a zeroed 75-byte buffer. -/
def bufferHeader (gst : Gst) (prna : Svn) (ctr : Byte) (st : NmaStatus) : List Bool :=
  bitsOf (prna.toByte :: storeGst gst ++ [ctr]) ++ storeBe 2 (statusCode st)

/-- Message of `update_mac_with_navdata` (`tesla.rs:921-934`): header, navigation data, zero bits
up to a whole number of bytes.  The 75-byte buffer only fits 550 bits of navigation data
(`fill_buffer_navdata`, l.915-919, panics otherwise). -/
def navdataMessage (gst : Gst) (prna : Svn) (ctr : Byte) (st : NmaStatus) (navdata : List Bool) :
    Res (List Byte) :=
  if navdata.length ≤ 550 then .ok (packBytes (bufferHeader gst prna ctr st ++ navdata))
  else .panic "slice out of bounds"

/-- Message of `update_mac_with_dummy` (`tesla.rs:936-949`): same with zero bits as data. -/
def dummyMessage (gst : Gst) (prna : Svn) (ctr : Byte) (st : NmaStatus) (len : Nat) :
    Res (List Byte) :=
  if 6 + (2 + len + 7) / 8 ≤ 75 then
    .ok ((packBytes (bufferHeader gst prna ctr st) ++ List.replicate 75 0#8).take
      (6 + (2 + len + 7) / 8))
  else .panic "slice out of bounds"

/-- `Key::check_common` (`tesla.rs:951-956`), after computing the MAC of `m`. -/
def checkCommon (k : Key) (m : List Byte) (tag : List Bool) : Res Bool := do
  let out ← mac C k m
  let computed ← slice (bitsOf out) 0 tag.length
  pure (computed == tag)

/-- `Key::validate_tag` (`tesla.rs:783-797`).  (In the code the MAC is keyed before the message is
built, so with a bad key size and too long data the panic message differs.) -/
def validateTag (k : Key) (tag : List Bool) (tagGst : Gst) (prnd : Byte) (prna : Svn) (ctr : Byte)
    (st : NmaStatus) (navdata : List Bool) : Res Bool := do
  let m ← navdataMessage tagGst prna ctr st navdata
  checkCommon C k (prnd :: m) tag

/-- `Key::validate_tag_dummy` (`tesla.rs:809-823`). -/
def validateTagDummy (k : Key) (tag : List Bool) (tagGst : Gst) (prnd : Byte) (prna : Svn)
    (ctr : Byte) (st : NmaStatus) (len : Nat) : Res Bool := do
  let m ← dummyMessage tagGst prna ctr st len
  checkCommon C k (prnd :: m) tag

/-- `Key::validate_tag0` (`tesla.rs:845-856`). -/
def validateTag0 (k : Key) (tag0 : List Bool) (tagGst : Gst) (prna : Svn) (st : NmaStatus)
    (navdata : List Bool) : Res Bool := do
  let m ← navdataMessage tagGst prna 1#8 st navdata
  checkCommon C k m tag0

/-- `Key::validate_tag0_dummy` (`tesla.rs:867-878`). -/
def validateTag0Dummy (k : Key) (tag0 : List Bool) (tagGst : Gst) (prna : Svn) (st : NmaStatus)
    (len : Nat) : Res Bool := do
  let m ← dummyMessage tagGst prna 1#8 st len
  checkCommon C k m tag0

/-- The tag-info fields of the tags with the given indices, concatenated (loop of
`tesla.rs:990-995`). -/
def flexInfos (mack : Mack) : List Nat → Res (List Byte)
  | [] => .ok []
  | j :: js =>
    match mack.tagAndInfo j with
    | .ok t =>
      match flexInfos mack js with
      | .ok rest => .ok (packBytes t.tagInfo ++ rest)
      | .panic w => .panic w
    | .panic w => .panic w

/-- `Key::validate_macseq` (`tesla.rs:974-1009`).  `mac_digest` (l.980) panics first on a bad CMAC
key size; here `mac` does so after the look-up (only the order of panics/errors differs: the code
panics even if the look-up would be an error, so the key-size check is repeated first). -/
def validateMacseq (k : Key) (mack : Mack) (prna : Svn) (gstMack : Gst) :
    Res (Except MacseqCheckError Unit) := do
  let _ ← mac C k []
  match ← Maclt.getFlxIndices k.chain.maclt (Chain.halfMinute gstMack) with
  | .error e => pure (.error (.MacLTError e))
  | .ok idxs =>
    let infos ← flexInfos mack idxs
    let out ← mac C k (prna.toByte :: storeGst gstMack ++ infos)
    let macseq ← mack.macseq
    if (bitsOf out).take 12 = storeBe 12 macseq then pure (.ok ())
    else pure (.error .WrongMacseq)

end Key

namespace Mack

/-- The loop of `Mack::validate` over the tags (`bitfields.rs:878-886`). -/
def validateTags (c : Chain) (m : Mack) (prna : Svn) (gstMack : Gst) :
    List Nat → Res (Except MackValidationError Unit)
  | [] => .ok (.ok ())
  | j :: js =>
    match m.tagAndInfo j with
    | .panic w => .panic w
    | .ok tag =>
      match c.validateAdkd j tag prna gstMack with
      | .panic w => .panic w
      | .ok (.error e) => .ok (.error (.WrongAdkd j e))
      | .ok (.ok ()) => validateTags c m prna gstMack js

/-- `Mack::validate` (`bitfields.rs:870-893`). -/
def validate (C : Crypto) (m : Mack) (key : Key) (prna : Svn) (gstMack : Gst) :
    Res (Except MackValidationError Mack) := do
  match ← key.validateMacseq C m prna gstMack with
  | .error e => pure (.error (.MacseqError e))
  | .ok () =>
    let n ← m.numTags
    match ← validateTags key.chain m prna gstMack (List.range' 1 (n - 1)) with
    | .error e => pure (.error e)
    | .ok () => pure (.ok m)

end Mack
end Verif
