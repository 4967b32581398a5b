import Verif.Spec.Broadcast

/-! # Specification: a genuine broadcast of a public key, and what was heard of it

What a constellation transmits while a DSM-PKR is sent.  Nothing here refers to the library. -/

namespace Verif
variable {C : Crypto}

/-- A broadcast of a public key: the DSM-PKR, and the HKROOT message of each satellite in each subframe.  (The MACK messages may be anything.) -/
structure KeyBroadcast (C : Crypto) where
  /-- The public key. -/
  pk : PublicKey C
  dsmId : Nat
  pkr : List Byte
  hkroot : Svn → Gst → HkrootMessage

/-- The HKROOT message carries block `i` of the DSM-PKR, after any NMA header. -/
def KeyBroadcast.Carries (a : KeyBroadcast C) (v : Svn) (g : Gst) (i : Nat) : Prop :=
  (a.hkroot v g).val.drop 1 = BitVec.ofNat 8 (16 * a.dsmId + i) :: byteField a.pkr (13 * i) 13

/-- The transmitter follows the ICD; the key is a leaf of the Merkle tree with this root. -/
structure KeyBroadcast.Sound (a : KeyBroadcast C) (root : MerkleTreeNode) : Prop where
  /-- The identifiers 12 to 15 are those of DSM-PKRs; the size is the announced one. -/
  id : 12 ≤ a.dsmId ∧ a.dsmId < 16
  size : a.pkr.length = 13 * (bitField a.pkr 0 4 + 6)
  nb : bitField a.pkr 0 4 ≤ 10
  /-- It has the key, and the nodes that lead from it to the root. -/
  proved : MerkleProvedKey C root.val a.pkr a.pk
  /-- Each HKROOT message has a block of the DSM-PKR. -/
  blocks : ∀ v g, ∃ i, 13 * i < a.pkr.length ∧ a.Carries v g i

/-- All the OSNMA pages that were fed are pages of the broadcast: the byte of the HKROOT message of their satellite, subframe and position.
(Any number of them may be missing.) -/
def KeyHeard (a : KeyBroadcast C) (hist : List Call) : Prop :=
  ∀ p ∈ pagesOf hist, p.hkroot = ((a.hkroot p.svn p.sub).val.drop p.word).take 1

/-- All the blocks of the DSM-PKR were received in whole subframes. -/
def WholeKeyHeard (a : KeyBroadcast C) (hist : List Call) : Prop :=
  ∀ i, 13 * i < a.pkr.length → ∃ v g, HeardWhole hist v g ∧ a.Carries v g i

/-- The broadcast of the key is heard in the calls `after`, which come after the calls `before`, which may have been anything. -/
structure KeyFollows (a : KeyBroadcast C) (before after : List Call) : Prop where
  /-- The OSNMA pages in `after` are pages of the broadcast, in order, in later subframes than those in `before`. -/
  heard : KeyHeard a after
  later : ∀ p ∈ pagesOf before, ∀ q ∈ pagesOf after, p.sub.abs < q.sub.abs
  /-- The DSM id is not that of the last HKROOT message received in `before`. -/
  newId : ∀ rs r, ReceivedIn (pagesOf before) rs → rs.getLast? = some r → r.dsmCall.header.dsmId ≠ a.dsmId

/-- The key is newer than the keys held, or there is none. -/
def Newer (pk : PublicKey C) (held : Option (PublicKey C) × Option (PublicKey C)) : Prop :=
  (∀ k, held.1 = some k → k.pkid < pk.pkid) ∧ ∀ k, held.2 = some k → k.pkid < pk.pkid

end Verif
