import Verif.Spec.Authentic
import Verif.Spec.Broadcast
import Verif.Spec.Disclosure

/-! # Specification: the operator of the system, and what it means that its cryptography is broken

What the operator and the satellites did with their secrets: the public keys, the Merkle tree, the TESLA chains, the DSM-KROOTs that were
signed, and the tags that were made.  Then the ways in which received data can show that somebody else did something that needs these
secrets.  In each of them the evidence is in the received data and in the acceptance messages of the run. -/

namespace Verif
variable {C : Crypto}

/-- What a tag is made of: its position in the MACK, the satellite that the data is about, the satellite that sends the tag, the subframe, the
status, and the navigation data. -/
structure TagInput where
  ctr : Nat
  prnd : Nat
  prna : Svn
  gst : Gst
  st : NmaStatus
  bits : List Bool

/-- The byte string of which the MAC is taken. -/
def TagInput.message (x : TagInput) : List Byte := tagMessage x.ctr x.prnd x.prna x.gst x.st x.bits

/-- The operator of the system. -/
structure Operator (C : Crypto) where
  /-- The public keys whose private keys it has. -/
  owns : PublicKey C → Prop
  /-- The 16 leaves of its Merkle tree. -/
  leaves : Nat → List Byte
  /-- The last key of each of its TESLA chains, chosen at random; the others are computed from it. -/
  seeds : Key → Prop
  /-- The DSM-KROOTs it signed: public key, NMA header, DSM-KROOT, and the root key that is announced. -/
  issued : VerifyingKey C → NmaHeader → List Byte → Key → Prop
  /-- The tags the satellites made with the key, of a given subframe, of the chain with a given last key. -/
  tagged : Key → Gst → TagInput → Prop

/-- A leaf of the tree that has a public key: type and id, then the encoded point. -/
def LeafKey (C : Crypto) (leaf : List Byte) (pk : PublicKey C) : Prop :=
  bitField leaf 4 4 = pk.pkid ∧
  ((bitField leaf 0 4 = 1 ∧ leaf.length = 34 ∧ ∃ k, C.p256FromSec1 (leaf.drop 1) = some k ∧ pk.key = .P256 k) ∨
    (bitField leaf 0 4 = 3 ∧ leaf.length = 68 ∧ C.p521 = true ∧ ∃ k, C.p521FromSec1 (leaf.drop 1) = some k ∧ pk.key = .P521 k))

/-- The key of the subframe `g` of the chain with last key `last`. -/
def ChainKey (C : Crypto) (last : Key) (g : Gst) (bytes : List Byte) : Prop :=
  ∃ n, Derives C last.chain n (last.gst, last.bytes) (g, bytes)

/-- The TESLA key is the key of its subframe of the operator's chain with last key `last`. -/
structure Operator.KeyOf (op : Operator C) (last k : Key) : Prop where
  seed : op.seeds last
  chain : k.chain = last.chain
  derived : ChainKey C last k.gst k.bytes

/-- The operator follows the ICD. -/
structure Operator.Sound (op : Operator C) : Prop where
  /-- The keys in the leaves of the tree are its own. -/
  leaf : ∀ i, i < 16 → ∀ pk, LeafKey C (op.leaves i) pk → op.owns pk
  /-- What it signs are the root keys of its chains. -/
  kroot : ∀ vk h data kr, op.issued vk h data kr → 13 + kr.chain.keySizeBytes ≤ data.length ∧ AnnouncedKey data kr ∧ ∃ last, op.KeyOf last kr
  /-- Tags have the data of ADKD 0, 12 or 4; the first tag of a MACK is about the satellite that sends it; and the key is that of one or of
  eleven subframes later. -/
  tag : ∀ last g x, op.tagged last g x → x.ctr < 256 ∧ x.prnd < 256 ∧ (x.bits.length = 549 ∨ x.bits.length = 141) ∧
    (x.ctr = 1 → x.prnd = x.prna.val) ∧ (g.abs = x.gst.abs + 30 ∨ g.abs = x.gst.abs + 330)

/-- The byte strings hashed to compute the root from leaf `i`: the leaf, and the four pairs of nodes above it. -/
def Operator.leafInputs (op : Operator C) (i : Nat) : List (List Byte) :=
  op.leaves i :: merklePathInputs C i (C.sha256 (op.leaves i))
    [merkleSibling C op.leaves i 0, merkleSibling C op.leaves i 1, merkleSibling C op.leaves i 2, merkleSibling C op.leaves i 3]

/-- A forged tag: received with the data it is for, before its key was; it verifies with a key of the operator, but the satellites made no
tag of this byte string with this key. -/
structure Operator.ForgedTag (op : Operator C) (S : Storage) (o0 : Osnma C) (hist : List Call) (kd : NavKind) (svn : Svn) (bits : List Bool)
    (last : Key) (i : Nat) (u : TagUse) : Prop where
  key : op.KeyOf last u.key
  verifies : u.tag.Verifies C u.key u.prna u.gst u.st bits
  inTime : u.InTime S o0 hist kd svn bits i
  /-- If the calls are in chronological order, tag and data were received before the subframe in which the key is sent. -/
  early : CallsInOrder hist → ∃ a b, hist = a ++ b ∧ (∀ c ∈ a, c.gst.subframe.abs < u.key.gst.abs) ∧
    (∃ msg, ReceivedMack a u.prna u.gst u.st msg ∧ u.tag ∈ mackTags msg u.key.chain u.prna) ∧ ReceivedData (inavsOf a) kd svn bits
  notMade : ∀ x, op.tagged last u.key.gst x → x.message ≠ tagMessage u.tag.ctr u.tag.prnd u.prna u.gst u.st bits

/-- The acceptance messages of a run show that the signatures, the Merkle tree or the one-way function are broken. -/
inductive Operator.Broken (op : Operator C) (log : List (KeyEvent C)) : Prop
  /-- An accepted DSM-KROOT has a valid signature by a key of the operator on a byte string that the operator did not sign with this key. -/
  | signature (h : NmaHeader) (data : List Byte) (pk : PublicKey C) (kr : Key) (g : Gst) (f : EcdsaFunction) (n : Nat)
      (accepted : KeyEvent.kroot h data pk kr g ∈ log) (owned : op.owns pk) (signed : SignedKroot C pk.key h data f n)
      (notIssued : ∀ h' data' kr', op.issued pk.key h' data' kr' →
        signedMessage h' data' kr'.chain.keySizeBytes ≠ signedMessage h data n)
  /-- An accepted DSM-PKR or alert, whose leaf is not the operator's leaf at this position, gives a collision of SHA-256 with the operator's
  tree. -/
  | tree (data leaf : List Byte) (accepted : (∃ pk, KeyEvent.pkr data pk ∈ log) ∨ KeyEvent.alert data ∈ log) (isLeaf : PkrLeaf data leaf)
      (other : leaf ≠ op.leaves (bitField data 4 4)) (collide : InputsCollide C (merkleInputs C data leaf) (op.leafInputs (bitField data 4 4)))
  /-- An accepted TESLA key is not that of the operator's chain, but leads to the same keys: the two derivations meet in a collision of the
  one-way function. -/
  | collision (k last : Key) (n : Nat) (bytes : List Byte) (accepted : KeyEvent.tesla k ∈ log) (seed : op.seeds last) (chain : k.chain = last.chain)
      (own : ChainKey C last k.gst bytes) (collide : DerivationsCollide C last.chain n k.gst k.bytes bytes)
  /-- The same for an accepted TESLA key after the end of the chain: it leads to another key than the last one of the chain, and the derivations
  of these two meet. -/
  | beyond (k last : Key) (m n : Nat) (bytes : List Byte) (accepted : KeyEvent.tesla k ∈ log) (seed : op.seeds last) (chain : k.chain = last.chain)
      (leads : Derives C last.chain m (k.gst, k.bytes) (last.gst, bytes)) (collide : DerivationsCollide C last.chain n last.gst bytes last.bytes)
  /-- An accepted TESLA key, after the end of the chain, leads to the last key of the chain: the one-way function has been inverted. -/
  | inversion (k last : Key) (m : Nat) (accepted : KeyEvent.tesla k ∈ log) (seed : op.seeds last) (chain : k.chain = last.chain) (pos : 1 ≤ m)
      (leads : Derives C last.chain m (k.gst, k.bytes) (last.gst, last.bytes))

/-- What the receiver was given at construction is the operator's. -/
structure Operator.Trusted (op : Operator C) (root0 : Option MerkleTreeNode) (pk0 : Option (PublicKey C)) : Prop where
  key : ∀ pk, pk0 = some pk → op.owns pk
  root : ∀ r, root0 = some r → r.val = merkleRoot C op.leaves

end Verif
