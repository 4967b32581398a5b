import Verif.Spec.TeslaSpec

/-! # Specification: DSM-KROOT, DSM-PKR and the headers (ICD Figures 3, 4, 5, 7 and Tables 2-13) -/

namespace Verif

/-- Value of the `n`-bit field that starts at bit `i` of a byte string (most significant bit first). -/
def bitField (data : List Byte) (i n : Nat) : Nat := loadBe (((bitsOf data).drop i).take n)

/-- The `n` bytes that start at byte `i`. -/
def byteField (data : List Byte) (i n : Nat) : List Byte := (data.drop i).take n

/-! ## DSM-KROOT -/

/-- Field values of a DSM-KROOT (ICD Figure 7). -/
structure KrootFields where
  nb : Nat
  pkid : Nat
  cidkr : Nat
  rsvd1 : Nat
  hf : Nat
  mf : Nat
  ks : Nat
  ts : Nat
  maclt : Nat
  rsvd2 : Nat
  wn : Nat
  towh : Nat
  alpha : Nat
  kroot : List Byte
  signature : List Byte
  padding : List Byte

/-- The layout of ICD Figure 7. -/
def KrootFields.bits (f : KrootFields) : List Bool :=
  storeBe 4 f.nb ++ storeBe 4 f.pkid ++ storeBe 2 f.cidkr ++ storeBe 2 f.rsvd1 ++ storeBe 2 f.hf
    ++ storeBe 2 f.mf ++ storeBe 4 f.ks ++ storeBe 4 f.ts ++ storeBe 8 f.maclt ++ storeBe 4 f.rsvd2
    ++ storeBe 12 f.wn ++ storeBe 8 f.towh ++ storeBe 48 f.alpha
    ++ bitsOf f.kroot ++ bitsOf f.signature ++ bitsOf f.padding

/-- Every field fits its width. -/
structure KrootFields.InRange (f : KrootFields) : Prop where
  nb : f.nb < 16
  pkid : f.pkid < 16
  cidkr : f.cidkr < 4
  hf : f.hf < 4
  mf : f.mf < 4
  ks : f.ks < 16
  ts : f.ts < 16
  maclt : f.maclt < 256
  wn : f.wn < 4096
  towh : f.towh < 256
  alpha : f.alpha < 2 ^ 48

/-- Key size in bytes for a value of the KS field (ICD Table 10). -/
def icdKeyBytes (ks : Nat) : Option Nat := [12, 13, 14, 15, 16, 20, 24, 28, 32][ks]?

/-- Tag size in bits for a value of the TS field (ICD Table 11: values 5 to 9). -/
def icdTagBits (ts : Nat) : Option Nat := if 5 ≤ ts then [20, 24, 28, 32, 40][ts - 5]? else none

/-- Signature size in bytes (ICD Table 15). -/
def icdSigBytes : EcdsaFunction → Nat
  | .P256Sha256 => 64
  | .P521Sha512 => 132

/-- Meaning of the HF field (ICD Table 8). -/
def HfMeans (n : Nat) : BfHashFunction → Prop
  | .Sha256 => n = 0
  | .Sha3_256 => n = 2
  | .Reserved => n ≠ 0 ∧ n ≠ 2

/-- Meaning of the MF field (ICD Table 9). -/
def MfMeans (n : Nat) : BfMacFunction → Prop
  | .HmacSha256 => n = 0
  | .CmacAes => n = 1
  | .Reserved => n ≠ 0 ∧ n ≠ 1

/-- The message that is signed: NMA header, then the DSM from its second byte through the KROOT. -/
def signedMessage (h : NmaHeader) (data : List Byte) (keyBytes : Nat) : List Byte :=
  h.data :: byteField data 1 (12 + keyBytes)

/-- A signature verifies under a public key.  (Without the feature `p521` there are no P-521 keys.) -/
def SignatureVerifies (C : Crypto) : VerifyingKey C → EcdsaFunction → List Byte → List Byte → Prop
  | .P256 k, .P256Sha256, m, sig => C.p256SigOk sig = true ∧ C.p256Verify k m sig = true
  | .P521 k, .P521Sha512, m, sig => C.p521 = true ∧ C.p521SigOk sig = true ∧ C.p521Verify k m sig = true
  | _, _, _, _ => False

/-- A DSM-KROOT with its NMA header is correctly signed by a public key (ICD 3.2.3, 6.3): no reserved
value in the chain fields, whole 13-byte blocks, padding equal to the truncated hash of signed message
and signature, signature valid.  `f` is the curve, `n` the key size in bytes. -/
structure SignedKroot (C : Crypto) (pk : VerifyingKey C) (h : NmaHeader) (data : List Byte)
    (f : EcdsaFunction) (n : Nat) : Prop where
  hf : bitField data 12 2 = 0 ∨ bitField data 12 2 = 2
  mf : bitField data 14 2 = 0 ∨ bitField data 14 2 = 1
  ks : icdKeyBytes (bitField data 16 4) = some n
  ts : (icdTagBits (bitField data 20 4)).isSome = true
  fits : 13 + n + icdSigBytes f ≤ data.length
  blocks : data.length % 13 = 0
  minimal : data.length < 13 + n + icdSigBytes f + 13
  padding : data.drop (13 + n + icdSigBytes f) =
    (C.sha256 (signedMessage h data n ++ byteField data (13 + n) (icdSigBytes f))).take
      (data.length - (13 + n + icdSigBytes f))
  sig : SignatureVerifies C pk f (signedMessage h data n) (byteField data (13 + n) (icdSigBytes f))

/-- A key is the one announced by a DSM-KROOT: root key bytes, chain parameters, and time
WNK/TOWHK minus 30 seconds. -/
structure AnnouncedKey (data : List Byte) (k : Key) : Prop where
  bytes : k.bytes = byteField data 13 k.chain.keySizeBytes
  id : k.chain.id = bitField data 8 2
  hf : (k.chain.hashFunction = .Sha256 ↔ bitField data 12 2 = 0)
  mf : (k.chain.macFunction = .HmacSha256 ↔ bitField data 14 2 = 0)
  ks : icdKeyBytes (bitField data 16 4) = some k.chain.keySizeBytes
  ts : icdTagBits (bitField data 20 4) = some k.chain.tagSizeBits
  maclt : k.chain.maclt = bitField data 24 8
  alpha : k.chain.alpha = bitField data 56 48
  time : k.gst.abs = (bitField data 36 12 : Int) * 604800 + (bitField data 48 8 : Int) * 3600 - 30

/-! ## DSM-PKR -/

/-- Field values of a DSM-PKR (ICD Figure 5).  `key` is the new public key, or the filler of an alert
message. -/
structure PkrFields where
  nb : Nat
  mid : Nat
  node0 : List Byte
  node1 : List Byte
  node2 : List Byte
  node3 : List Byte
  npkt : Nat
  npkid : Nat
  key : List Byte
  padding : List Byte

/-- The layout of ICD Figure 5. -/
def PkrFields.bytes (f : PkrFields) : List Byte :=
  packBytes (storeBe 4 f.nb ++ storeBe 4 f.mid) ++ f.node0 ++ f.node1 ++ f.node2 ++ f.node3
    ++ packBytes (storeBe 4 f.npkt ++ storeBe 4 f.npkid) ++ f.key ++ f.padding

/-- The fields fit their widths and nodes are 32 bytes. -/
structure PkrFields.InRange (f : PkrFields) : Prop where
  nb : f.nb < 16
  mid : f.mid < 16
  node0 : f.node0.length = 32
  node1 : f.node1.length = 32
  node2 : f.node2.length = 32
  node3 : f.node3.length = 32
  npkt : f.npkt < 16
  npkid : f.npkid < 16

/-- Meaning of the NPKT field (ICD Table 5). -/
def NpktMeans (n : Nat) : NewPublicKeyType → Prop
  | .EcdsaKey .P256Sha256 => n = 1
  | .EcdsaKey .P521Sha512 => n = 3
  | .OsnmaAlertMessage => n = 4
  | .Reserved => n ≠ 1 ∧ n ≠ 3 ∧ n ≠ 4

/-- Size in bytes of the new public key field: compressed points of 33 and 67 bytes, and for alert
messages everything after the first 130 bytes of the whole blocks (NB 7 to 10 are 13 to 16 blocks). -/
def icdPkrKeyBytes (npkt nb : Nat) : Option Nat :=
  if npkt = 1 then some 33
  else if npkt = 3 then some 67
  else if npkt = 4 ∧ 7 ≤ nb ∧ nb ≤ 10 then some ((nb + 6) * 13 - 130)
  else none

/-- The leaf of the Merkle tree: NPKT, NPKID and the key. -/
def PkrFields.leaf (f : PkrFields) : List Byte :=
  packBytes (storeBe 4 f.npkt ++ storeBe 4 f.npkid) ++ f.key

/-! ## NMA header and DSM header (ICD Figures 3 and 4) -/

/-- Meaning of the NMAS field (ICD Table 1). -/
def NmasMeans (n : Nat) : NmaStatus → Prop
  | .Reserved => n = 0
  | .Test => n = 1
  | .Operational => n = 2
  | .DontUse => n = 3

/-- Meaning of the CPKS field (ICD Table 2). -/
def CpksMeans (n : Nat) : Cpks → Prop
  | .Reserved => n = 0
  | .Nominal => n = 1
  | .EndOfChain => n = 2
  | .ChainRevoked => n = 3
  | .NewPublicKey => n = 4
  | .PublicKeyRevoked => n = 5
  | .NewMerkleTree => n = 6
  | .AlertMessage => n = 7

/-! ## Merkle tree (ICD 6.2) -/

/-- The node at height `h` and index `i` of the tree over the given leaves. -/
def merkleNode (C : Crypto) (leaves : Nat → List Byte) : Nat → Nat → List Byte
  | 0, i => C.sha256 (leaves i)
  | h + 1, i => C.sha256 (merkleNode C leaves h (2 * i) ++ merkleNode C leaves h (2 * i + 1))

/-- Index of the sibling of node `i`. -/
def siblingIndex (i : Nat) : Nat := if i % 2 = 0 then i + 1 else i - 1

/-- Sibling at height `h` on the path from leaf `i` to the root. -/
def merkleSibling (C : Crypto) (leaves : Nat → List Byte) (i h : Nat) : List Byte :=
  merkleNode C leaves h (siblingIndex (i / 2 ^ h))

/-- Root of the tree of 16 leaves. -/
def merkleRoot (C : Crypto) (leaves : Nat → List Byte) : List Byte := merkleNode C leaves 4 0

/-- Root recomputed from a node, its index, and the siblings from bottom to top. -/
def merklePathRoot (C : Crypto) : Nat → List Byte → List (List Byte) → List Byte
  | _, node, [] => node
  | i, node, s :: ss =>
    merklePathRoot C (i / 2) (C.sha256 (if i % 2 = 0 then node ++ s else s ++ node)) ss

/-- A leaf has a proof in a DSM-PKR: the path given by its message ID and its four tree nodes leads
from the leaf to the root. -/
def MerkleProof (C : Crypto) (root : List Byte) (data leaf : List Byte) : Prop :=
  merklePathRoot C (bitField data 4 4) (C.sha256 leaf)
    [byteField data 1 32, byteField data 33 32, byteField data 65 32, byteField data 97 32] = root

/-- A DSM-PKR proves a public key against the root of the Merkle tree. -/
structure MerkleProvedKey (C : Crypto) (root : List Byte) (data : List Byte) (pk : PublicKey C) : Prop where
  pkid : pk.pkid = bitField data 1036 4
  key : (bitField data 1032 4 = 1 ∧ 163 ≤ data.length ∧ MerkleProof C root data (byteField data 129 34) ∧
      ∃ k, C.p256FromSec1 (byteField data 130 33) = some k ∧ pk.key = .P256 k) ∨
    (bitField data 1032 4 = 3 ∧ 197 ≤ data.length ∧ MerkleProof C root data (byteField data 129 68) ∧
      C.p521 = true ∧ ∃ k, C.p521FromSec1 (byteField data 130 67) = some k ∧ pk.key = .P521 k)

/-- The leaf contained in a DSM-PKR: NPKT, NPKID and the key. -/
def PkrLeaf (data leaf : List Byte) : Prop :=
  ∃ s, icdPkrKeyBytes (bitField data 1032 4) (bitField data 0 4) = some s ∧ 130 + s ≤ data.length ∧
    leaf = byteField data 129 (1 + s)

/-- The byte strings hashed, from bottom to top, when the root is recomputed from a node. -/
def merklePathInputs (C : Crypto) : Nat → List Byte → List (List Byte) → List (List Byte)
  | _, _, [] => []
  | i, node, s :: ss =>
    let m := if i % 2 = 0 then node ++ s else s ++ node
    m :: merklePathInputs C (i / 2) (C.sha256 m) ss

/-- The five byte strings hashed to check a leaf of a DSM-PKR: the leaf, then the four pairs of nodes. -/
def merkleInputs (C : Crypto) (data leaf : List Byte) : List (List Byte) :=
  leaf :: merklePathInputs C (bitField data 4 4) (C.sha256 leaf)
    [byteField data 1 32, byteField data 33 32, byteField data 65 32, byteField data 97 32]

/-- At the same height of two recomputations, different byte strings have the same SHA-256. -/
def InputsCollide (C : Crypto) (l₁ l₂ : List (List Byte)) : Prop :=
  ∃ (j : Nat) (m₁ m₂ : List Byte), l₁[j]? = some m₁ ∧ l₂[j]? = some m₂ ∧ m₁ ≠ m₂ ∧ C.sha256 m₁ = C.sha256 m₂

end Verif
