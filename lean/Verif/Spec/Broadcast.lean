import Verif.Spec.KeyMachine
import Verif.Spec.Complete
import Verif.Spec.PanicSpec
import Verif.Spec.GalmonSpec

/-! # Specification: a genuine OSNMA broadcast, and what was heard of it

What a constellation transmits while one DSM-KROOT is valid.  Nothing here refers to the library. -/

namespace Verif
variable {C : Crypto}

/-- A broadcast: the DSM-KROOT with its NMA header, the TESLA key disclosed in each subframe, and the HKROOT and MACK messages
of each satellite in each subframe. -/
structure Broadcast (C : Crypto) where
  /-- The public key that corresponds to the signature. -/
  pk : PublicKey C
  header : NmaHeader
  dsmId : Nat
  kroot : List Byte
  /-- The root key that the DSM-KROOT announces. -/
  root : Key
  /-- The key disclosed in the subframe that starts at this time. -/
  key : Gst → Key
  /-- The last subframe. -/
  last : Gst
  hkroot : Svn → Gst → HkrootMessage
  mack : Svn → Gst → MackMessage

namespace Broadcast

/-- The subframes of the broadcast: after the root key, until the last one. -/
def On (b : Broadcast C) (g : Gst) : Prop := g.Aligned ∧ b.root.gst.abs < g.abs ∧ g.abs ≤ b.last.abs

/-- The transmitter follows the ICD. -/
structure Sound (b : Broadcast C) : Prop where
  /-- Authentication may be used, and there is no alert. -/
  status : b.header.nmaStatus = .Test ∨ b.header.nmaStatus = .Operational
  calm : b.header.cpks ≠ .AlertMessage
  /-- The DSM-KROOT names the public key and is signed with it; its size is the announced one. -/
  id : b.dsmId < 12
  named : b.pk.pkid = bitField b.kroot 4 4
  signed : ∃ f n, SignedKroot C b.pk.key b.header b.kroot f n
  size : b.kroot.length = 13 * (bitField b.kroot 0 4 + 6)
  /-- It announces the root key, of the chain in force, at an hour of the week, with parameters that fit together. -/
  announced : AnnouncedKey b.kroot b.root
  pad : b.root.ZeroPadded
  chain : b.header.chainId = b.root.chain.id
  hour : bitField b.kroot 48 8 ≤ 167
  sensible : SensibleChains b.root.chain b.root.chain
  /-- Each HKROOT message has the NMA header, a DSM header and a block of the DSM-KROOT. -/
  blocks : ∀ v g, b.On g → ∃ i, 13 * i < b.kroot.length ∧
    (b.hkroot v g).val = b.header.data :: BitVec.ofNat 8 (16 * b.dsmId + i) :: byteField b.kroot (13 * i) 13
  /-- The keys are of this chain; the one-way function leads from each to the one before, and from the first to the root key. -/
  keys : ∀ g, b.On g → (b.key g).gst = g ∧ (b.key g).chain = b.root.chain ∧ (b.key g).ZeroPadded
  first : ∀ g, b.On g → g.abs = b.root.gst.abs + 30 → Derives C b.root.chain 1 (g, (b.key g).bytes) (b.root.gst, b.root.bytes)
  derive : ∀ g g', b.On g → b.On g' → g'.abs = g.abs + 30 → Derives C b.root.chain 1 (g', (b.key g').bytes) (g, (b.key g).bytes)
  /-- All satellites disclose it. -/
  sent : ∀ v g, b.On g → packBytes (mackKeyField (b.mack v g) b.root.chain) = (b.key g).bytes
  /-- The root key is at most 3000 subframes (25 hours) old. -/
  window : b.last.abs ≤ b.root.gst.abs + 90000

end Broadcast

/-- All the OSNMA pages that were fed are pages of the broadcast: the byte of the HKROOT message and the four bytes of the MACK
message of their satellite, subframe and position.  (Any number of them may be missing.) -/
def Heard (b : Broadcast C) (hist : List Call) : Prop :=
  ∀ p ∈ pagesOf hist, b.On p.sub ∧ p.hkroot = ((b.hkroot p.svn p.sub).val.drop p.word).take 1 ∧
    p.mack = ((b.mack p.svn p.sub).val.drop (4 * p.word)).take 4

/-- The satellite was heard during the whole subframe: its 15 pages were fed in order (perhaps with repetitions). -/
def HeardWhole (hist : List Call) (v : Svn) (g : Gst) : Prop :=
  (List.range 15).Sublist ((pagesIn hist v g).map Page.word)

/-- The calls were made in chronological order of subframes. -/
def CallsInOrder (hist : List Call) : Prop := hist.Pairwise (fun c c' => c.gst.subframe.abs ≤ c'.gst.subframe.abs)

/-- All the blocks of the DSM-KROOT were received, in whole subframes up to the one at `til`. -/
def KrootHeard (b : Broadcast C) (hist : List Call) (til : Gst) : Prop :=
  ∀ i, 13 * i < b.kroot.length → ∃ v g, g.abs ≤ til.abs ∧ HeardWhole hist v g ∧ (b.hkroot v g).val.drop 1 =
    BitVec.ofNat 8 (16 * b.dsmId + i) :: byteField b.kroot (13 * i) 13

/-- The tag `u` of the broadcast is a tag of the data `bits` of satellite `v`; it was heard in the calls `after`, and the data in time in
the calls `hist`. -/
structure TagSent (b : Broadcast C) (S : Storage) (slow : Bool) (hist after : List Call) (kd : NavKind) (v : Svn) (bits : List Bool)
    (u : TagUse) : Prop where
  /-- A tag of the MACK message of a satellite, with the status and the key of the broadcast, and the MACK message is right. -/
  on : b.On u.gst
  onKey : b.On u.key.gst
  key : u.key = b.key u.key.gst
  status : u.st = b.header.nmaStatus
  sent : u.tag ∈ mackTags (b.mack u.prna u.gst) b.root.chain u.prna
  right : ∀ g, g.abs = u.gst.abs + 30 → MackRight C (b.key g) b.root.chain (b.mack u.prna u.gst) u.prna u.gst
  /-- It is for this satellite and the data, with the key of one subframe (Slow MAC: eleven subframes) later. -/
  prnd : u.tag.prnd = v.val
  rightKey : u.RightKey slow kd
  verifies : u.tag.Verifies C u.key u.prna u.gst u.st bits
  /-- The MACK message was heard. -/
  heard : HeardWhole after u.prna u.gst
  /-- The data is what was received up to the end of the subframe before the tag's, not more than COP subframes before it; some
  word was received in that subframe; the storage is deep enough (see `TagUse.Genuine`). -/
  data : kd.expected (wordsUpTo hist (u.gst.abs - 30)) v = bits
  recent : ∀ f ∈ kd.fields, ∃ c ∈ inavsOf hist, c.svn = v ∧ kd.carries c f = true ∧
    c.gst.subframe.abs ≤ u.gst.abs - 30 ∧ u.gst.abs - 30 * u.tag.cop ≤ c.gst.subframe.abs
  alive : ∃ c ∈ inavsOf hist, c.gst.subframe.abs = u.gst.abs - 30
  depthNav : u.key.gst.abs - u.gst.abs + 30 < 30 * S.navDepth
  depthMack : u.key.gst.abs - u.gst.abs < 30 * S.mackDepth

/-- And its TESLA key was heard, and the DSM-KROOT before that, in the calls `after`. -/
structure TagHeard (b : Broadcast C) (S : Storage) (slow : Bool) (hist after : List Call) (kd : NavKind) (v : Svn) (bits : List Bool)
    (u : TagUse) : Prop extends TagSent b S slow hist after kd v bits u where
  disclosed : ∃ w, HeardWhole after w u.key.gst
  kroot : KrootHeard b after u.key.gst

/-- The broadcast is heard in the calls `after`, which come after the calls `before`, which may have been anything and in which the
messages `log₁` were reported. -/
structure Follows (b : Broadcast C) (pk0 : Option (PublicKey C)) (before : List Call) (log₁ : List (KeyEvent C)) (after : List Call) : Prop where
  /-- The OSNMA pages in `after` are pages of the broadcast, in later subframes than those in `before`. -/
  heard : Heard b after
  later : ∀ p ∈ pagesOf before, ∀ q ∈ pagesOf after, p.sub.abs < q.sub.abs
  /-- The receiver holds the public key. -/
  held : (keysHeld pk0 log₁).1 = some b.pk ∨ (keysHeld pk0 log₁).2 = some b.pk
  /-- The DSM id is not that of the last HKROOT message received in `before`. -/
  newId : ∀ rs r, ReceivedIn (pagesOf before) rs → rs.getLast? = some r → r.dsmCall.header.dsmId ≠ b.dsmId
  /-- If the receiver already holds a key of the chain, then the keys of the broadcast lead to it in at most 3000 steps. -/
  leads : ∀ q ∈ pagesOf after, ∀ k, (teslaHeld log₁).1 = some k ∨ (teslaHeld log₁).2 = some k → k.chain.id = b.root.chain.id →
    k.chain = b.root.chain ∧ ∃ n, 1 ≤ n ∧ n ≤ 3000 ∧ Derives C b.root.chain n (q.sub, (b.key q.sub).bytes) (k.gst, k.bytes)

end Verif
