import Verif.Model.Types

/-! # `galileo-osnma/src/bitfields.rs` (message fields) and `NmaHeader` (`tesla.rs:352-436`) -/

namespace Verif

/-- `NmaStatus` (`bitfields.rs:26-35`). -/
inductive NmaStatus where
  | Reserved | Test | Operational | DontUse
  deriving DecidableEq, Repr, Inhabited

/-- `ChainAndPubkeyStatus` (`bitfields.rs:43-60`). -/
inductive Cpks where
  | Reserved | Nominal | EndOfChain | ChainRevoked | NewPublicKey | PublicKeyRevoked
  | NewMerkleTree | AlertMessage
  deriving DecidableEq, Repr, Inhabited

/-- `DsmType` (`bitfields.rs:78-89`). -/
inductive DsmType where
  | Kroot | Pkr
  deriving DecidableEq, Repr, Inhabited

/-- `EcdsaFunction` (`bitfields.rs:354-359`). -/
inductive EcdsaFunction where
  | P256Sha256 | P521Sha512
  deriving DecidableEq, Repr, Inhabited

/-- `NewPublicKeyType` (`bitfields.rs:146-153`). -/
inductive NewPublicKeyType where
  | EcdsaKey (f : EcdsaFunction) | OsnmaAlertMessage | Reserved
  deriving DecidableEq, Repr, Inhabited

/-- `bitfields::HashFunction` (`bitfields.rs:324-331`). -/
inductive BfHashFunction where
  | Sha256 | Sha3_256 | Reserved
  deriving DecidableEq, Repr, Inhabited

/-- `bitfields::MacFunction` (`bitfields.rs:339-346`). -/
inductive BfMacFunction where
  | HmacSha256 | CmacAes | Reserved
  deriving DecidableEq, Repr, Inhabited

/-- `Adkd` (`bitfields.rs:956-965`). -/
inductive Adkd where
  | InavCed | InavTiming | SlowMac | Reserved
  deriving DecidableEq, Repr, Inhabited

/-- `Prnd` (`bitfields.rs:927-937`). -/
inductive Prnd where
  | GalileoSvid (n : Nat) | GalileoConstellation | Reserved
  deriving DecidableEq, Repr, Inhabited

/-- `TryFrom<Prnd> for u8` (`bitfields.rs:939-948`). -/
def Prnd.toU8 : Prnd → Option Nat
  | .GalileoSvid n => some n
  | .GalileoConstellation => some 255
  | .Reserved => none

/-! ## NMA header -/

/-- `NmaHeader` (`tesla.rs:364-367`): one byte (the type-state parameter is erased). -/
structure NmaHeader where
  data : Byte
  deriving DecidableEq, Repr, Inhabited

namespace NmaHeader

/-- `NmaHeader::nma_status` (`tesla.rs:390-398`). -/
def nmaStatus (h : NmaHeader) : NmaStatus :=
  match loadBe ((byteBits h.data).take 2) with
  | 0 => .Reserved
  | 1 => .Test
  | 2 => .Operational
  | _ => .DontUse

/-- `NmaHeader::chain_id` (`tesla.rs:401-403`). -/
def chainId (h : NmaHeader) : Nat := loadBe (((byteBits h.data).drop 2).take 2)

/-- `NmaHeader::chain_and_pubkey_status` (`tesla.rs:406-418`). -/
def cpks (h : NmaHeader) : Cpks :=
  match loadBe (((byteBits h.data).drop 4).take 3) with
  | 0 => .Reserved
  | 1 => .Nominal
  | 2 => .EndOfChain
  | 3 => .ChainRevoked
  | 4 => .NewPublicKey
  | 5 => .PublicKeyRevoked
  | 6 => .NewMerkleTree
  | _ => .AlertMessage

end NmaHeader

/-! ## DSM header -/

/-- `DsmHeader` (`bitfields.rs:68-71`). -/
structure DsmHeader where
  data : Byte
  deriving DecidableEq, Repr, Inhabited

namespace DsmHeader

/-- `DsmHeader::dsm_id` (`bitfields.rs:97-99`). -/
def dsmId (h : DsmHeader) : Nat := loadBe ((byteBits h.data).take 4)

/-- `DsmHeader::dsm_block_id` (`bitfields.rs:102-104`). -/
def dsmBlockId (h : DsmHeader) : Nat := loadBe (((byteBits h.data).drop 4).take 4)

/-- `DsmHeader::dsm_type` (`bitfields.rs:107-113`). -/
def dsmType (h : DsmHeader) : DsmType := if h.dsmId ≥ 12 then .Pkr else .Kroot

end DsmHeader

/-- `&BitSlice::from_slice(data)[i..j].load_be()` on a byte slice of any length: panics if the
slice is too short.  Common part of the accessors of `DsmPkr` and `DsmKroot`. -/
def field (data : List Byte) (i j : Nat) : Res Nat := do
  let b ← slice (bitsOf data) i j
  pure (loadBe b)

/-! ## DSM-PKR -/

/-- `DsmPkr` (`bitfields.rs:130-138`): a byte slice of arbitrary length (public constructor). -/
structure DsmPkr where
  data : List Byte
  deriving DecidableEq

namespace DsmPkr

/-- `number_of_blocks` (`bitfields.rs:167-173`). -/
def numberOfBlocks (d : DsmPkr) : Res (Option Nat) := do
  let v ← field d.data 0 4
  pure (if 7 ≤ v ∧ v ≤ 10 then some (v + 6) else none)

/-- `message_id` (`bitfields.rs:176-178`). -/
def messageId (d : DsmPkr) : Res Nat := field d.data 4 8

/-- `intermediate_tree_node` (`bitfields.rs:190-196`). -/
def intermediateTreeNode (d : DsmPkr) (n : Nat) : Res (List Byte) := do
  Res.assert (n < 4) "node_number < 4"
  slice d.data (1 + n * 32) (1 + (n + 1) * 32)

/-- `new_public_key_type` (`bitfields.rs:199-206`). -/
def newPublicKeyType (d : DsmPkr) : Res NewPublicKeyType := do
  match ← field d.data 1032 1036 with
  | 1 => pure (.EcdsaKey .P256Sha256)
  | 3 => pure (.EcdsaKey .P521Sha512)
  | 4 => pure .OsnmaAlertMessage
  | _ => pure .Reserved

/-- `new_public_key_id` (`bitfields.rs:209-211`). -/
def newPublicKeyId (d : DsmPkr) : Res Nat := field d.data 1036 1040

/-- `key_size` (`bitfields.rs:218-227`).  `n * 13 - 130` cannot underflow (`n ≥ 13`). -/
def keySize (d : DsmPkr) : Res (Option Nat) := do
  match ← d.newPublicKeyType with
  | .EcdsaKey .P256Sha256 => pure (some 33)
  | .EcdsaKey .P521Sha512 => pure (some 67)
  | .OsnmaAlertMessage => do
    let nb ← d.numberOfBlocks
    pure (nb.map (fun n => n * 13 - 130))
  | .Reserved => pure none

/-- `new_public_key` (`bitfields.rs:233-235`). -/
def newPublicKey (d : DsmPkr) : Res (Option (List Byte)) := do
  match ← d.keySize with
  | some s => some <$> slice d.data 130 (130 + s)
  | none => pure none

/-- `padding` (`bitfields.rs:241-247`). -/
def padding (d : DsmPkr) : Res (Option (List Byte)) := do
  match ← d.keySize, ← d.numberOfBlocks with
  | some ks, some nb => some <$> slice d.data (130 + ks) (nb * 104 / 8)
  | _, _ => pure none

/-- `merkle_tree_leaf` (`bitfields.rs:256-258`). -/
def merkleTreeLeaf (d : DsmPkr) : Res (Option (List Byte)) := do
  match ← d.keySize with
  | some s => some <$> slice d.data 129 (130 + s)
  | none => pure none

/-- `check_padding` (`bitfields.rs:267-283`). -/
def checkPadding (C : Crypto) (d : DsmPkr) (root : MerkleTreeNode) : Res Bool := do
  match ← d.padding with
  | none => pure false
  | some padding =>
    if padding.isEmpty then pure true
    else do
      let leaf ← Res.unwrap (← d.merkleTreeLeaf) "merkle_tree_leaf().unwrap()"
      let hash := C.sha256 (root.val ++ leaf)
      let truncated ← slice hash 0 padding.length
      pure (truncated == padding)

end DsmPkr

/-! ## DSM-KROOT -/

/-- `DsmKroot` (`bitfields.rs:308-316`): a byte slice of arbitrary length (public constructor). -/
structure DsmKroot where
  data : List Byte
  deriving DecidableEq

namespace DsmKroot

/-- `number_of_blocks` (`bitfields.rs:373-379`). -/
def numberOfBlocks (d : DsmKroot) : Res (Option Nat) := do
  let v ← field d.data 0 4
  pure (if 1 ≤ v ∧ v ≤ 8 then some (v + 6) else none)

/-- `public_key_id` (`bitfields.rs:382-384`). -/
def publicKeyId (d : DsmKroot) : Res Nat := field d.data 4 8

/-- `kroot_chain_id` (`bitfields.rs:387-389`). -/
def krootChainId (d : DsmKroot) : Res Nat := field d.data 8 10

/-- `hash_function` (`bitfields.rs:392-398`). -/
def hashFunction (d : DsmKroot) : Res BfHashFunction := do
  match ← field d.data 12 14 with
  | 0 => pure .Sha256
  | 2 => pure .Sha3_256
  | _ => pure .Reserved

/-- `mac_function` (`bitfields.rs:401-407`). -/
def macFunction (d : DsmKroot) : Res BfMacFunction := do
  match ← field d.data 14 16 with
  | 0 => pure .HmacSha256
  | 1 => pure .CmacAes
  | _ => pure .Reserved

/-- Table of key sizes in `key_size` (`bitfields.rs:418-429`). -/
def keySizeTable : Nat → Option Nat
  | 0 => some 96
  | 1 => some 104
  | 2 => some 112
  | 3 => some 120
  | 4 => some 128
  | 5 => some 160
  | 6 => some 192
  | 7 => some 224
  | 8 => some 256
  | _ => none

/-- `key_size` (`bitfields.rs:416-434`), in bits.  The `debug_assert!(s % 8 == 0)` (l.430-432)
holds for every table entry (`keySizeTable_mod` in `Lemmas/Bitfields.lean`) and is omitted. -/
def keySize (d : DsmKroot) : Res (Option Nat) := do
  let v ← field d.data 16 20
  pure (keySizeTable v)

/-- Table of tag sizes in `tag_size` (`bitfields.rs:444-451`). -/
def tagSizeTable : Nat → Option Nat
  | 5 => some 20
  | 6 => some 24
  | 7 => some 28
  | 8 => some 32
  | 9 => some 40
  | _ => none

/-- `tag_size` (`bitfields.rs:443-452`), in bits. -/
def tagSize (d : DsmKroot) : Res (Option Nat) := do
  let v ← field d.data 20 24
  pure (tagSizeTable v)

/-- `mac_lookup_table` (`bitfields.rs:455-457`). -/
def macLookupTable (d : DsmKroot) : Res Nat := field d.data 24 32

/-- `kroot_wn` (`bitfields.rs:462-464`). -/
def krootWn (d : DsmKroot) : Res Nat := field d.data 36 48

/-- `kroot_towh` (`bitfields.rs:469-471`). -/
def krootTowh (d : DsmKroot) : Res Nat := field d.data 48 56

/-- `alpha` (`bitfields.rs:476-478`). -/
def alpha (d : DsmKroot) : Res Nat := field d.data 56 104

/-- `kroot` (`bitfields.rs:489-495`). -/
def kroot (d : DsmKroot) : Res (List Byte) := do
  let size ← Res.unwrap (← d.keySize) "attempted to extract kroot of DSM with reserved key size"
  slice d.data 13 (13 + size / 8)

/-- `usize` subtraction (panics on underflow). -/
def usub (a b : Nat) : Res Nat := if b ≤ a then .ok (a - b) else .panic "attempt to subtract with overflow"

/-- `ecdsa_function` (`bitfields.rs:506-528`). -/
def ecdsaFunction (d : DsmKroot) : Res EcdsaFunction := do
  let totalLen := d.data.length
  let krootLen := (← d.kroot).length
  let r ← usub totalLen 13
  let remaining ← usub r krootLen
  let p256Padding := (13 - (krootLen + 64) % 13) % 13
  let p521Padding := (13 - (krootLen + 132) % 13) % 13
  if remaining = 64 + p256Padding then pure .P256Sha256
  else if remaining = 132 + p521Padding then pure .P521Sha512
  else .panic "failed to guess ECDSA function"

/-- `digital_signature` (`bitfields.rs:539-546`). -/
def digitalSignature (d : DsmKroot) : Res (List Byte) := do
  let size := match ← d.ecdsaFunction with
    | .P256Sha256 => 64
    | .P521Sha512 => 132
  let start := 13 + (← d.kroot).length
  slice d.data start (start + size)

/-- `padding` (`bitfields.rs:549-552`). -/
def padding (d : DsmKroot) : Res (List Byte) := do
  let start := 13 + (← d.kroot).length + (← d.digitalSignature).length
  slice d.data start d.data.length

/-- `signature_message` (`bitfields.rs:555-562`) restricted to its valid length (the code returns
a 209-byte buffer and the length; every caller takes the prefix, l.573, l.644).  `13 + kroot.len()`
is at most 45, so the buffer is never exceeded. -/
def signatureMessage (d : DsmKroot) (h : NmaHeader) : Res (List Byte) := do
  let e := 13 + (← d.kroot).length
  let body ← slice d.data 1 e
  pure (h.data :: body)

/-- `check_padding` (`bitfields.rs:571-581`). -/
def checkPadding (C : Crypto) (d : DsmKroot) (h : NmaHeader) : Res Bool := do
  let message ← d.signatureMessage h
  let sig ← d.digitalSignature
  let hash := C.sha256 (message ++ sig)
  let padding ← d.padding
  let truncated ← slice hash 0 padding.length
  pure (truncated == padding)

/-- `check_signature_p256` (`bitfields.rs:594-601`) with the generic `check_signature`
(l.637-648) inlined: the signature bytes must parse (`expect`, l.645-646). -/
def checkSignatureP256 (C : Crypto) (d : DsmKroot) (h : NmaHeader) (pk : C.P256Key) : Res Bool := do
  Res.assert ((← d.ecdsaFunction) == .P256Sha256) "assert_eq ecdsa_function"
  let message ← d.signatureMessage h
  let sig ← d.digitalSignature
  Res.assert (C.p256SigOk sig) "error serializing ECDSA signature"
  pure (C.p256Verify pk message sig)

/-- `check_signature_p521` (`bitfields.rs:615-622`). -/
def checkSignatureP521 (C : Crypto) (d : DsmKroot) (h : NmaHeader) (pk : C.P521Key) : Res Bool := do
  Res.assert ((← d.ecdsaFunction) == .P521Sha512) "assert_eq ecdsa_function"
  let message ← d.signatureMessage h
  let sig ← d.digitalSignature
  Res.assert (C.p521SigOk sig) "error serializing ECDSA signature"
  pure (C.p521Verify pk message sig)

end DsmKroot

/-! ## MACK -/

/-- `TagAndInfo` (`bitfields.rs:916-919`): the bits of a tag followed by its 16-bit tag-info.
It can only be made by `Mack::tag_and_info`, so its length is `tag_size + 16`. -/
structure TagAndInfo where
  data : List Bool
  deriving DecidableEq

namespace TagAndInfo

/-- `tag` (`bitfields.rs:969-971`). -/
def tag (t : TagAndInfo) : List Bool := t.data.take (t.data.length - 16)

/-- `tag_info` (`bitfields.rs:976-978`). -/
def tagInfo (t : TagAndInfo) : List Bool := t.data.drop (t.data.length - 16)

/-- `prnd` (`bitfields.rs:981-988`). -/
def prnd (t : TagAndInfo) : Prnd :=
  let n := loadBe ((t.data.drop (t.data.length - 16)).take 8)
  if 1 ≤ n ∧ n ≤ 36 then .GalileoSvid n
  else if n = 255 then .GalileoConstellation
  else .Reserved

/-- `adkd` (`bitfields.rs:991-999`). -/
def adkd (t : TagAndInfo) : Adkd :=
  match loadBe ((t.data.drop (t.data.length - 8)).take 4) with
  | 0 => .InavCed
  | 4 => .InavTiming
  | 12 => .SlowMac
  | _ => .Reserved

/-- `cop` (`bitfields.rs:1004-1007`). -/
def cop (t : TagAndInfo) : Nat := loadBe (t.data.drop (t.data.length - 4))

end TagAndInfo

/-- `Mack` (`bitfields.rs:688-693`): the 480 bits of the message with the key and tag sizes. -/
structure Mack where
  data : List Bool
  keySize : Nat
  tagSize : Nat
  deriving DecidableEq

namespace Mack

/-- `Mack::new` (`bitfields.rs:702-709`). -/
def new (data : MackMessage) (keySize tagSize : Nat) : Mack := ⟨bitsOf data.val, keySize, tagSize⟩

/-- `tag0` (`bitfields.rs:731-733`). -/
def tag0 (m : Mack) : Res (List Bool) := slice m.data 0 m.tagSize

/-- `macseq` (`bitfields.rs:740-743`). -/
def macseq (m : Mack) : Res Nat := do
  let b ← slice m.data m.tagSize (m.tagSize + 12)
  pure (loadBe b)

/-- `cop` (`bitfields.rs:750-755`). -/
def cop (m : Mack) : Res Nat := do
  let b ← slice m.data (m.tagSize + 12) (m.tagSize + 12 + 4)
  pure (loadBe b)

/-- `num_tags` (`bitfields.rs:760-762`). -/
def numTags (m : Mack) : Res Nat := do
  let r ← DsmKroot.usub 480 m.keySize
  pure (r / (m.tagSize + 16))

/-- `key` (`bitfields.rs:768-771`). -/
def key (m : Mack) : Res (List Bool) := do
  let start := (m.tagSize + 16) * (← m.numTags)
  slice m.data start (start + m.keySize)

/-- `tag_and_info` (`bitfields.rs:840-847`). -/
def tagAndInfo (m : Mack) (n : Nat) : Res TagAndInfo := do
  let nt ← m.numTags
  Res.assert (decide (0 < n ∧ n < nt)) "0 < n && n < self.num_tags()"
  let size := m.tagSize + 16
  let b ← slice m.data (size * n) (size * (n + 1))
  pure ⟨b⟩

end Mack
end Verif
