import Verif.Spec.KrootSpec
import Verif.Spec.MacltSpec

/-! # Specification: what "validated" must mean

For a program that trusts the public keys in `trusted` and the Merkle tree roots in `roots`.  Only byte
layouts, hashes and signatures are used here. -/

namespace Verif
variable {C : Crypto}

/-- A public key is trusted, or proved by a DSM-PKR against a trusted root. -/
def PkAnchored (trusted : PublicKey C → Prop) (roots : MerkleTreeNode → Prop) (pk : PublicKey C) : Prop :=
  trusted pk ∨ ∃ root data, roots root ∧ MerkleProvedKey C root.val data pk

/-- `kr` is the root key announced by some DSM-KROOT that, together with some NMA header, is signed by an
anchored public key. -/
def RootAnchored (trusted : PublicKey C → Prop) (roots : MerkleTreeNode → Prop) (kr : Key) : Prop :=
  ∃ pk h data f n, PkAnchored trusted roots pk ∧ SignedKroot C pk.key h data f n ∧ AnnouncedKey data kr

/-- A key is on the chain of a root key: the one-way function leads from it to the root key (a later key),
or from the root key to it (an earlier one). -/
def OnChain (C : Crypto) (kr k : Key) : Prop :=
  kr.chain = k.chain ∧ ∃ n, Derives C k.chain n (k.gst, k.bytes) (kr.gst, kr.bytes) ∨
    Derives C k.chain n (kr.gst, kr.bytes) (k.gst, k.bytes)

/-- A key and a root key of one chain lead, through the one-way function, to a common key `y`.  If the
key is later than the root key then `b = 0` unless the program went back in the chain first. -/
def Meets (C : Crypto) (kr k : Key) : Prop :=
  kr.chain = k.chain ∧ ∃ a b y, Derives C k.chain a (k.gst, k.bytes) y ∧ Derives C k.chain b (kr.gst, kr.bytes) y

/-- Two different keys of the subframe `g` are exhibited that the one-way function takes to the same key:
the given one, or the root key, was replaced by another preimage. -/
def ChainForged (C : Crypto) (kr k : Key) : Prop :=
  ∃ n g a₁ a₂, (∃ i, Derives C k.chain i (k.gst, k.bytes) (g, a₁)) ∧ (∃ i, Derives C k.chain i (kr.gst, kr.bytes) (g, a₂)) ∧
    DerivationsCollide C k.chain n g a₁ a₂

end Verif
