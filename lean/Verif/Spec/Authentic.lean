import Verif.Spec.KeyHistory
import Verif.Spec.Pages
import Verif.Spec.TagUse
import Verif.Spec.NavSpec
import Verif.Spec.MacltSpec

/-! # Specification: what "authenticated" means, end to end

Trust anchors (the public key and the Merkle tree root given at construction), received data (the
calls of the history), cryptographic checks written as layouts (`Spec/TagSpec`, `Spec/MacltSpec`,
`Spec/TeslaSpec`, `Spec/KrootSpec`): nothing here refers to the state of the library. -/

namespace Verif
variable {C : Crypto}

/-- The OSNMA pages of a history: the calls of `feed_osnma` with data that is not all zero. -/
def pagesOf (hist : List Call) : List Page :=
  hist.filterMap (fun c => match c with
    | .inav _ _ _ _ => none
    | .osnma d s g => if d.val.all (fun x => x == 0#8) then none else some ⟨d, s, g⟩)

/-- In the history, satellite `prna` sent in the subframe `gst` the MACK message `msg`, with NMA status
`st`: there are, in order, 15 pages of this satellite and subframe, at positions 0 to 14, whose MACK
sections make up `msg`, and whose first HKROOT byte starts with the two bits of the status. -/
def ReceivedMack (hist : List Call) (prna : Svn) (gst : Gst) (st : NmaStatus) (msg : MackMessage) : Prop :=
  ∃ ps : List Page, ps.Sublist (pagesOf hist) ∧ ps.map Page.word = List.range 15 ∧
    (∀ q ∈ ps, q.svn = prna ∧ q.sub = gst) ∧ msg.val = ps.flatMap Page.mack ∧
    bitField (ps.flatMap Page.hkroot) 0 2 = nmasCode st

/-- The TESLA key field of a MACK message, for the sizes of a chain. -/
def mackKeyField (msg : MackMessage) (c : Chain) : List Bool :=
  ((bitsOf msg.val).drop ((480 - 8 * c.keySizeBytes) / (c.tagSizeBits + 16) * (c.tagSizeBits + 16))).take (8 * c.keySizeBytes)

/-- A public key is trusted: given at construction, or proved against the Merkle tree root given at
construction. -/
def TrustAnchored (root0 : Option MerkleTreeNode) (pk0 : Option (PublicKey C)) (pk : PublicKey C) : Prop :=
  pk0 = some pk ∨ ∃ root data, root0 = some root ∧ MerkleProvedKey C root.val data pk

/-- A TESLA key is authentic: the one-way function of its chain leads from it to the root key
announced in a DSM-KROOT that is correctly signed with a trusted public key. -/
def AuthenticKey (root0 : Option MerkleTreeNode) (pk0 : Option (PublicKey C)) (k : Key) : Prop :=
  ∃ (h : NmaHeader) (data : List Byte) (pk : PublicKey C) (kr : Key) (n : Nat) (f : EcdsaFunction) (m : Nat),
    TrustAnchored root0 pk0 pk ∧ pk.pkid = bitField data 4 4 ∧ SignedKroot C pk.key h data f m ∧
    AnnouncedKey data kr ∧ kr.chain = k.chain ∧ Derives C k.chain n (k.gst, k.bytes) (kr.gst, kr.bytes)

/-- A MACK message has the right MACSEQ under a key and conforms to the MAC look-up table of the chain
of that key; `c` gives the sizes of the fields. -/
def MackConforms (C : Crypto) (k : Key) (c : Chain) (msg : MackMessage) (prna : Svn) (g : Gst) : Prop :=
  ∃ slots, icdSlots k.chain.maclt (minuteHalf g) = some slots ∧ MacseqOk C k msg c.tagSizeBits slots prna g ∧
    ∀ j, 1 ≤ j → j < (480 - 8 * c.keySizeBytes) / (c.tagSizeBits + 16) →
      ∃ s, slots[j]? = some s ∧ s.Allows prna (mackTag (bitsOf msg.val) c.tagSizeBits prna j)

/-- The three ways in which a tag is allowed to authenticate data: ADKD 0 (CED) or 4 (timing) with the
key of the next subframe, which a receiver set to Slow MAC only does not use, or ADKD 12 (CED) with
the key of eleven subframes later. -/
def TagUse.RightKey (slow : Bool) (kd : NavKind) (u : TagUse) : Prop :=
  (kd = .ced ∧ u.tag.adkd = 0 ∧ u.key.gst.abs = u.gst.abs + 30 ∧ slow = false) ∨
  (kd = .timing ∧ u.tag.adkd = 4 ∧ u.key.gst.abs = u.gst.abs + 30 ∧ slow = false) ∨
  (kd = .ced ∧ u.tag.adkd = 12 ∧ u.key.gst.abs = u.gst.abs + 330)

/-- The tag `u` proves that the bits are those of satellite `svn`. -/
structure TagUse.Proves (root0 : Option MerkleTreeNode) (pk0 : Option (PublicKey C)) (slow : Bool) (hist : List Call)
    (kd : NavKind) (svn : Svn) (bits : List Bool) (u : TagUse) : Prop where
  /-- The tag is for this satellite, is not a dummy tag, and was sent with a usable status. -/
  prnd : u.tag.prnd = svn.val
  cop : u.tag.cop ≠ 0
  status : u.st = .Test ∨ u.st = .Operational
  /-- It is used with the right key: right ADKD, right delay. -/
  rightKey : u.RightKey slow kd
  /-- It is the truncated MAC of these very bits, the two satellites, the time, the position in the
  MACK and the status. -/
  verifies : u.tag.Verifies C u.key u.prna u.gst u.st bits
  /-- It was received in a MACK, which has a right MACSEQ and conforms to the look-up table under the
  authentic key of the subframe after the MACK. -/
  mack : ∃ msg, ReceivedMack hist u.prna u.gst u.st msg ∧ u.tag ∈ mackTags msg u.key.chain u.prna ∧
    ∃ (vk later : Key) (n : Nat), MackConforms C vk u.key.chain msg u.prna u.gst ∧ vk.gst.abs = u.gst.abs + 30 ∧
      AuthenticKey root0 pk0 later ∧ vk.chain = later.chain ∧
      Derives C later.chain n (later.gst, later.bytes) (vk.gst, vk.bytes)
  /-- The key is authentic and was received in a MACK of its own subframe. -/
  key : AuthenticKey root0 pk0 u.key
  sent : ∃ prna st msg, ReceivedMack hist prna u.key.gst st msg ∧ u.key.bytes = packBytes (mackKeyField msg u.key.chain)

/-- How many times a key was accepted. -/
def timesAccepted (log : List (KeyEvent C)) (k : Key) : Nat :=
  log.countP (fun e => match e with
    | .tesla k' => k' == k
    | _ => false)

/-- Data is authentic: at least 40 bits of tags that prove it, where each tag counts once each time its
key is accepted (a TESLA key can be accepted a second time only if the KROOT of its chain is verified
anew after the chain was revoked or displaced). `authbits` is their total length, at most 65535. -/
structure Authentic (root0 : Option MerkleTreeNode) (pk0 : Option (PublicKey C)) (slow : Bool) (hist : List Call)
    (log : List (KeyEvent C)) (kd : NavKind) (svn : Svn) (bits : List Bool) (authbits : Nat) (us : List TagUse) : Prop where
  enough : 40 ≤ authbits
  total : authbits = min 65535 (us.map (fun u => u.tag.tag.length)).sum
  prove : ∀ u ∈ us, u.Proves root0 pk0 slow hist kd svn bits
  once : ∀ u, us.count u ≤ timesAccepted log u.key

end Verif
