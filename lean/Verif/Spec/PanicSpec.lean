import Verif.Model.Log
import Verif.Spec.KrootSpec
import Verif.Spec.MacltSpec
import Verif.Spec.TagSpec

/-! # Specification: which received messages the library can process without panicking (C39)

Everything here is about the received bytes, the stored public keys and the cryptographic primitives. -/

namespace Verif

/-- The signed time of a DSM-KROOT is a valid GST at least 30 s after the origin. -/
def Key.KrootTimeOk (data : List Byte) : Prop :=
  bitField data 48 8 ≤ 167 ∧ ¬ (bitField data 36 12 = 0 ∧ bitField data 48 8 = 0)

/-- A signature of the curve of the public key can be decoded (for ECDSA P-256 this excludes scalars that
are zero or at least the group order).  Nothing is required if the curves differ. -/
def SignatureDecodes (C : Crypto) : VerifyingKey C → EcdsaFunction → List Byte → Prop
  | .P256 _, .P256Sha256, sig => C.p256SigOk sig = true
  | .P521 _, .P521Sha512, sig => C.p521 = true → C.p521SigOk sig = true
  | _, _, _ => True

/-- A DSM-KROOT that names a stored public key `pk` can be processed: if none of its chain fields is
reserved, its size is that of a P-256 or P-521 signed message with the announced key size; if moreover
the padding is right, its signature decodes; and if moreover it verifies, the time is valid. -/
def HarmlessKroot (C : Crypto) (pk : VerifyingKey C) (h : NmaHeader) (data : List Byte) : Prop :=
  (bitField data 12 2 = 0 ∨ bitField data 12 2 = 2) → (bitField data 14 2 = 0 ∨ bitField data 14 2 = 1) →
  (icdTagBits (bitField data 20 4)).isSome = true → ∀ n, icdKeyBytes (bitField data 16 4) = some n →
  ∃ f, 13 + n + icdSigBytes f ≤ data.length ∧ data.length < 13 + n + icdSigBytes f + 13 ∧ data.length % 13 = 0 ∧
    (data.drop (13 + n + icdSigBytes f) =
        (C.sha256 (signedMessage h data n ++ byteField data (13 + n) (icdSigBytes f))).take
          (data.length - (13 + n + icdSigBytes f)) →
      SignatureDecodes C pk f (byteField data (13 + n) (icdSigBytes f)) ∧
      (SignatureVerifies C pk f (signedMessage h data n) (byteField data (13 + n) (icdSigBytes f)) →
        Key.KrootTimeOk data))

/-- A DSM-PKR can be processed when a Merkle tree root is loaded: a P-521 key fits in the message, and a
key that is proved to be a leaf of the tree is a point of its curve. -/
def HarmlessPkr (C : Crypto) (root : List Byte) (data : List Byte) : Prop :=
  (bitField data 1032 4 = 1 → MerkleProof C root data (byteField data 129 34) →
      (C.p256FromSec1 (byteField data 130 33)).isSome = true) ∧
  (bitField data 1032 4 = 3 → 197 ≤ data.length ∧
      (MerkleProof C root data (byteField data 129 68) → C.p521 = true →
        (C.p521FromSec1 (byteField data 130 67)).isSome = true))

/-- The parameters of two TESLA chains are sensible: CMAC only with 16-byte keys, and no MAC look-up
table of the first has more tags than fit in a MACK of the second. -/
def SensibleChains (c₁ c₂ : Chain) : Prop :=
  (c₁.macFunction = .CmacAes → c₁.keySizeBytes = 16) ∧
  ∀ half slots, icdSlots c₁.maclt half = some slots →
    ∀ j ∈ flexSlots slots, j < (480 - 8 * c₂.keySizeBytes) / (c₂.tagSizeBits + 16)

/-- A completed DSM can be processed by a receiver with these public keys (current and next) and this
Merkle tree root. -/
def HarmlessDsm {C : Crypto} (current next : Option (PublicKey C)) (root : Option MerkleTreeNode) (h : NmaHeader)
    (x : Dsm) : Prop :=
  match x.dsmType with
  | .Kroot => ∀ pk, current = some pk ∨ next = some pk → pk.pkid = bitField x.data 4 4 → HarmlessKroot C pk.key h x.data
  | .Pkr => ∀ r, root = some r → HarmlessPkr C r.val x.data

/-- A call of `feed_osnma` completes the DSM `x` in a subframe with NMA header `h`: the page completes the
HKROOT and MACK messages of the subframe (see C04), and the DSM block in the HKROOT message completes
the DSM (see C07). -/
def CompletesDsm {C : Crypto} (o : Osnma C) (data : OsnmaDataMessage) (svn : Svn) (gst : Gst) (h : NmaHeader) (x : Dsm) :
    Prop :=
  (∃ b ∈ data.val, b ≠ 0#8) ∧ ∃ sf hk m g b1 block c, o.subframe.feed data svn gst = .ok (sf, some (hk, m, g)) ∧
    hk.val = h.data :: b1 :: block.val ∧ o.data.dsm.feed ⟨b1⟩ block = .ok (c, some x)

/-- All the chains of the verified KROOTs of a log are sensible, alone and in pairs. -/
def SensibleLog {C : Crypto} (log : List (KeyEvent C)) : Prop :=
  ∀ h data pk k g h' data' pk' k' g', KeyEvent.kroot h data pk k g ∈ log → KeyEvent.kroot h' data' pk' k' g' ∈ log →
    SensibleChains k.chain k'.chain

end Verif
