import Verif.Model.Osnma

/-! # The cryptographic work of a call

The functions of `Model/Tesla.lean`, `Model/Merkle.lean`, `Model/NavMessage.lean` and `Model/Osnma.lean` that use a cryptographic primitive, written again so
that each evaluation of a primitive is noted, with its input.  Everything that uses no primitive is the function of those files (`W.lift`). -/

namespace Verif

/-- One evaluation of a cryptographic primitive (the fields of `Crypto`, `Model/Types.lean`), with its input. -/
inductive Op (C : Crypto) where
  | sha256 (m : List Byte)
  | sha3 (m : List Byte)
  | hmac (key m : List Byte)
  | cmac (key m : List Byte)
  | decode256 (key : List Byte)
  | decode521 (key : List Byte)
  | verify256 (key : C.P256Key) (m sig : List Byte)
  | verify521 (key : C.P521Key) (m sig : List Byte)

/-- A computation: the primitives that it evaluates, in order (also if it panics in the end), and how it ends. -/
structure W (C : Crypto) (α : Type) where
  ops : List (Op C)
  res : Res α

namespace W

variable {C : Crypto}

/-- A computation that evaluates no primitive. -/
def lift {α : Type} (x : Res α) : W C α := ⟨[], x⟩

/-- Sequencing. -/
def bind {α β : Type} (x : W C α) (f : α → W C β) : W C β :=
  match x.res with
  | .ok a => ⟨x.ops ++ (f a).ops, (f a).res⟩
  | .panic w => ⟨x.ops, .panic w⟩

instance : Monad (W C) where
  pure a := lift (.ok a)
  bind := W.bind

instance {α : Type} : Coe (Res α) (W C α) := ⟨lift⟩

/-- A loop (as `loopM` of `Prelude/Res.lean`). -/
def loop {σ α : Type} (f : σ → α → W C σ) : List α → σ → W C σ
  | [], s => pure s
  | a :: l, s => do
    let s ← f s a
    loop f l s

/-! The primitives (crates `sha2`, `sha3`, `hmac`, `cmac`, `p256`, `p521`). -/

/-- `Sha256::finalize` (`bitfields.rs:280, 577`, `merkle_tree.rs:96, 103`, `tesla.rs:301`). -/
def sha256 (m : List Byte) : W C (List Byte) := ⟨[.sha256 m], .ok (C.sha256 m)⟩
/-- `Sha3_256::finalize` (`tesla.rs:302`). -/
def sha3 (m : List Byte) : W C (List Byte) := ⟨[.sha3 m], .ok (C.sha3_256 m)⟩
/-- `Hmac::finalize` (`tesla.rs:342`). -/
def hmac (k m : List Byte) : W C (List Byte) := ⟨[.hmac k m], .ok (C.hmac k m)⟩
/-- `Cmac::finalize` (`tesla.rs:346`). -/
def cmac (k m : List Byte) : W C (List Byte) := ⟨[.cmac k m], .ok (C.cmac k m)⟩
/-- `VerifyingKey::from_sec1_bytes` (`merkle_tree.rs:112`). -/
def decode256 (b : List Byte) : W C (Option C.P256Key) := ⟨[.decode256 b], .ok (C.p256FromSec1 b)⟩
/-- `VerifyingKey::from_sec1_bytes` (`merkle_tree.rs:119`). -/
def decode521 (b : List Byte) : W C (Option C.P521Key) := ⟨[.decode521 b], .ok (C.p521FromSec1 b)⟩
/-- `verify` (`bitfields.rs:647`). -/
def verify256 (k : C.P256Key) (m s : List Byte) : W C Bool := ⟨[.verify256 k m s], .ok (C.p256Verify k m s)⟩
/-- `verify` (`bitfields.rs:647`). -/
def verify521 (k : C.P521Key) (m s : List Byte) : W C Bool := ⟨[.verify521 k m s], .ok (C.p521Verify k m s)⟩

/-! ## `tesla.rs` -/

/-- `HashDigest` (`tesla.rs:269-305, 702-704`). -/
def hash (c : Chain) (m : List Byte) : W C (List Byte) :=
  match c.hashFunction with
  | .Sha256 => sha256 m
  | .Sha3_256 => sha3 m

/-- `Key::one_way_function` (`tesla.rs:681-700`). -/
def oneWayFunction (k : Key) : W C Key := do
  let prev ← lift (k.gst.addSeconds (-30))
  let h ← hash k.chain (k.bytes ++ Key.storeGst prev ++ beBytes 6 k.chain.alpha)
  pure ⟨Key.padData (h.take k.chain.keySizeBytes), k.chain, prev⟩

/-- `Key::derive` (`tesla.rs:711-717`). -/
def derive : Key → Nat → W C Key
  | k, 0 => pure k
  | k, n + 1 => do
    let k' ← oneWayFunction k
    derive k' n

/-- `Key::validate_key` (`tesla.rs:731-756`). -/
def validateKey (self other : Key) : W C (Except ValidationError Key) := do
  if self.chain ≠ other.chain then pure (.error .DifferentChain)
  else if Gst.cmp self.gst other.gst ≠ .lt then pure (.error .DoesNotFollow)
  else do
    let derivations ← lift (other.gst.subframesDifference self.gst)
    lift (Res.assert (decide (derivations ≥ 1)) "derivations >= 1")
    if derivations > 3000 then pure (.error .TooManyDerivations)
    else do
      let derived ← derive other derivations.toNat
      lift (Res.assert (derived.gst == self.gst) "derived_key.gst_subframe == self.gst_subframe")
      if derived.data.val.take self.chain.keySizeBytes = self.data.val.take self.chain.keySizeBytes
      then pure (.ok other)
      else pure (.error .WrongOneWayFunction)

/-- `DsmKroot::check_padding` (`bitfields.rs:571-581`). -/
def checkPadding (d : DsmKroot) (h : NmaHeader) : W C Bool := do
  let message ← lift (d.signatureMessage h)
  let sig ← lift d.digitalSignature
  let hash ← sha256 (message ++ sig)
  let padding ← lift d.padding
  let truncated ← lift (slice hash 0 padding.length)
  pure (truncated == padding)

/-- `DsmKroot::check_signature_p256` (`bitfields.rs:594-601, 637-648`). -/
def checkSignatureP256 (d : DsmKroot) (h : NmaHeader) (pk : C.P256Key) : W C Bool := do
  lift (do Res.assert ((← d.ecdsaFunction) == .P256Sha256) "assert_eq ecdsa_function")
  let message ← lift (d.signatureMessage h)
  let sig ← lift d.digitalSignature
  lift (Res.assert (C.p256SigOk sig) "error serializing ECDSA signature")
  verify256 pk message sig

/-- `DsmKroot::check_signature_p521` (`bitfields.rs:615-622, 637-648`). -/
def checkSignatureP521 (d : DsmKroot) (h : NmaHeader) (pk : C.P521Key) : W C Bool := do
  lift (do Res.assert ((← d.ecdsaFunction) == .P521Sha512) "assert_eq ecdsa_function")
  let message ← lift (d.signatureMessage h)
  let sig ← lift d.digitalSignature
  lift (Res.assert (C.p521SigOk sig) "error serializing ECDSA signature")
  verify521 pk message sig

/-- The check of the signature in `Key::from_dsm_kroot` (`tesla.rs:601-614`). -/
def krootVerdict (h : NmaHeader) (d : DsmKroot) (pk : PublicKey C) (f : EcdsaFunction) :
    W C (Option KrootValidationError) :=
  match pk.key, f with
  | .P256 key, .P256Sha256 => do
    if !(← checkSignatureP256 d h key) then pure (some .WrongEcdsa) else pure none
  | .P521 key, .P521Sha512 =>
    if C.p521 then do
      if !(← checkSignatureP521 d h key) then pure (some .WrongEcdsa) else pure none
    else pure (some .WrongEcdsaKeyType)
  | _, _ => pure (some .WrongEcdsaKeyType)

/-- The key of a verified DSM-KROOT (`tesla.rs:615-623`). -/
def krootResult (h : NmaHeader) (d : DsmKroot) (chain : Chain) : Res (Except KrootValidationError (Key × NmaHeader)) := do
  let wn ← d.krootWn
  let towh ← d.krootTowh
  let gst ← if hwn : wn < 65536 then Gst.new wn (towh * 3600) hwn else .panic "unreachable"
  Key.checkGst gst
  let gst ← gst.addSeconds (-30)
  let kroot ← d.kroot
  let key ← Key.fromSlice kroot gst chain
  pure (.ok (key, h))

/-- `Key::from_dsm_kroot` (`tesla.rs:591-624`). -/
def fromDsmKroot (h : NmaHeader) (d : DsmKroot) (pk : PublicKey C) :
    W C (Except KrootValidationError (Key × NmaHeader)) := do
  match ← lift (Chain.fromDsmKroot d) with
  | .error e => pure (.error (.WrongDsmKrootChain e))
  | .ok chain =>
    if !(← checkPadding d h) then pure (.error .WrongDsmKrootPadding)
    else do
      let f ← lift d.ecdsaFunction
      match ← krootVerdict h d pk f with
      | some e => pure (.error e)
      | none => lift (krootResult h d chain)

/-- `MacDigest` (`tesla.rs:307-350, 880-883`). -/
def mac (k : Key) (m : List Byte) : W C (List Byte) :=
  match k.chain.macFunction with
  | .HmacSha256 => hmac k.bytes m
  | .CmacAes =>
    if k.chain.keySizeBytes = 16 then do
      let out ← cmac k.bytes m
      pure (out ++ List.replicate 16 0#8)
    else lift (.panic "MacDigest::new_from_slice(..).unwrap()")

/-- `Key::check_common` (`tesla.rs:951-956`). -/
def checkCommon (k : Key) (m : List Byte) (tag : List Bool) : W C Bool := do
  let out ← mac k m
  let computed ← lift (slice (bitsOf out) 0 tag.length)
  pure (computed == tag)

/-- `Key::validate_tag` (`tesla.rs:783-797`). -/
def validateTag (k : Key) (tag : List Bool) (tagGst : Gst) (prnd : Byte) (prna : Svn) (ctr : Byte)
    (st : NmaStatus) (navdata : List Bool) : W C Bool := do
  let m ← lift (Key.navdataMessage tagGst prna ctr st navdata)
  checkCommon k (prnd :: m) tag

/-- `Key::validate_tag_dummy` (`tesla.rs:809-823`). -/
def validateTagDummy (k : Key) (tag : List Bool) (tagGst : Gst) (prnd : Byte) (prna : Svn)
    (ctr : Byte) (st : NmaStatus) (len : Nat) : W C Bool := do
  let m ← lift (Key.dummyMessage tagGst prna ctr st len)
  checkCommon k (prnd :: m) tag

/-- `Key::validate_tag0` (`tesla.rs:845-856`). -/
def validateTag0 (k : Key) (tag0 : List Bool) (tagGst : Gst) (prna : Svn) (st : NmaStatus)
    (navdata : List Bool) : W C Bool := do
  let m ← lift (Key.navdataMessage tagGst prna 1#8 st navdata)
  checkCommon k m tag0

/-- `Key::validate_tag0_dummy` (`tesla.rs:867-878`). -/
def validateTag0Dummy (k : Key) (tag0 : List Bool) (tagGst : Gst) (prna : Svn) (st : NmaStatus)
    (len : Nat) : W C Bool := do
  let m ← lift (Key.dummyMessage tagGst prna 1#8 st len)
  checkCommon k m tag0

/-- `Key::validate_macseq` (`tesla.rs:974-1009`).  The digest is made first (l.980), which only sets the key; the one MAC is finished after the look-up. -/
def validateMacseq (k : Key) (mack : Mack) (prna : Svn) (gstMack : Gst) :
    W C (Except MacseqCheckError Unit) := do
  let _ ← lift (Key.mac C k [])
  match ← lift (Maclt.getFlxIndices k.chain.maclt (Chain.halfMinute gstMack)) with
  | .error e => pure (.error (.MacLTError e))
  | .ok idxs =>
    let infos ← lift (Key.flexInfos mack idxs)
    let out ← mac k (prna.toByte :: Key.storeGst gstMack ++ infos)
    let macseq ← lift mack.macseq
    if (bitsOf out).take 12 = storeBe 12 macseq then pure (.ok ())
    else pure (.error .WrongMacseq)

/-- `Mack::validate` (`bitfields.rs:870-893`). -/
def validateMack (m : Mack) (key : Key) (prna : Svn) (gstMack : Gst) :
    W C (Except MackValidationError Mack) := do
  match ← validateMacseq key m prna gstMack with
  | .error e => pure (.error (.MacseqError e))
  | .ok () =>
    let n ← lift m.numTags
    match ← lift (Mack.validateTags key.chain m prna gstMack (List.range' 1 (n - 1))) with
    | .error e => pure (.error e)
    | .ok () => pure (.ok m)

/-! ## `merkle_tree.rs` -/

/-- `MerkleTree::calc_node` (`merkle_tree.rs:99-104`). -/
def calcNode (left right : List Byte) : W C (List Byte) := sha256 (left ++ right)

/-- The loop of `MerkleTree::validate` (`merkle_tree.rs:76-85`). -/
def climb (d : DsmPkr) : Nat → Nat → Nat → List Byte → W C (List Byte)
  | 0, _, _, node => pure node
  | n + 1, j, id, node => do
    let itn ← lift (d.intermediateTreeNode j)
    let node' ← if id % 2 = 0 then calcNode node itn else calcNode itn node
    climb d n (j + 1) (id / 2) node'

/-- `MerkleTree::validate` (`merkle_tree.rs:69-91`). -/
def validateLeaf (root : MerkleTreeNode) (d : DsmPkr) : W C (Except PkrError Unit) := do
  match ← lift d.merkleTreeLeaf with
  | none => pure (.error .ReservedField)
  | some leaf =>
    let id ← lift d.messageId
    let node ← sha256 leaf
    let node ← climb d 4 0 id node
    if node = root.val then pure (.ok ()) else pure (.error .Invalid)

/-- `MerkleTree::pubkey_from_pkr` (`merkle_tree.rs:106-132`). -/
def pubkeyFromPkr (d : DsmPkr) : W C (Except PkrError (PublicKey C)) := do
  let key ← lift (do Res.unwrap (← d.newPublicKey) "new_public_key().unwrap()")
  match ← lift d.newPublicKeyType with
  | .EcdsaKey .P256Sha256 => do
    let k ← decode256 key
    let k ← lift (Res.unwrap k "from_sec1_bytes(key).unwrap()")
    let pkid ← lift d.newPublicKeyId
    pure (.ok ⟨.P256 k, pkid⟩)
  | .EcdsaKey .P521Sha512 =>
    if C.p521 then do
      let k ← decode521 key
      let k ← lift (Res.unwrap k "from_sec1_bytes(key).unwrap()")
      let pkid ← lift d.newPublicKeyId
      pure (.ok ⟨.P521 k, pkid⟩)
    else pure (.error .P521NotSupported)
  | _ => lift (.panic "unreachable")

/-- `MerkleTree::validate_pkr` (`merkle_tree.rs:40-46`). -/
def validatePkr (root : MerkleTreeNode) (d : DsmPkr) : W C (Except PkrError (PublicKey C)) := do
  match ← lift d.newPublicKeyType with
  | .EcdsaKey _ =>
    match ← validateLeaf root d with
    | .error e => pure (.error e)
    | .ok () => pubkeyFromPkr d
  | _ => pure (.error .NoPublicKey)

/-- `MerkleTree::validate_alert_message` (`merkle_tree.rs:59-67`). -/
def validateAlertMessage (root : MerkleTreeNode) (d : DsmPkr) : W C (Except PkrError Unit) := do
  match ← lift d.newPublicKeyType with
  | .OsnmaAlertMessage => validateLeaf root d
  | _ => pure (.error .NoPublicKey)

/-! ## `navmessage.rs` -/

variable (S : Storage)

/-- `CollectNavMessage::validate_tag` (`navmessage.rs:538-581`). -/
def validateNavTag (key : Key) (tag : List Bool) (gstTag : Gst) (prnd : Nat) (prna : Svn)
    (tagIdx : Nat) (st : NmaStatus) (nbits : Nat) (navdata : NavItem) (arr : List NavItem) :
    W C (List NavItem) := do
  lift (Res.assert (decide (tagIdx + 1 ≤ 255)) "(tag_idx + 1).try_into().unwrap()")
  let ret ←
    if tagIdx = 0 then validateTag0 key tag gstTag prna st (navdata.messageBits nbits)
    else
      validateTag key tag gstTag (BitVec.ofNat 8 prnd) prna (BitVec.ofNat 8 (tagIdx + 1)) st
        (navdata.messageBits nbits)
  if ret && CollectNavMessage.statusCounts st then
    pure (arr.map (fun x =>
      if navdata.svn = x.svn ∧ navdata.messageBits nbits = x.messageBits nbits then
        x.addAuthbits tag.length
      else x))
  else pure arr

/-- `CollectNavMessage::validate_dummy_tag` (`navmessage.rs:584-612`). -/
def validateDummyTag (key : Key) (tag : List Bool) (gstTag : Gst) (prnd : Nat) (prna : Svn)
    (tagIdx : Nat) (st : NmaStatus) (len : Nat) : W C Bool := do
  lift (Res.assert (decide (tagIdx + 1 ≤ 255)) "(tag_idx + 1).try_into().unwrap()")
  if tagIdx = 0 then validateTag0Dummy key tag gstTag prna st len
  else
    validateTagDummy key tag gstTag (BitVec.ofNat 8 prnd) prna (BitVec.ofNat 8 (tagIdx + 1)) st
      len

/-- One CED tag (`navmessage.rs:329-357`, `381-409`, `506-533`). -/
def processCedTag (n : CollectNavMessage) (key : Key) (tag : List Bool) (cop : Nat) (gstMack : Gst)
    (gstNav : Gst) (prndSvn : Svn) (prna : Svn) (j : Nat) (st : NmaStatus) :
    W C CollectNavMessage := do
  if cop = 0 then do
    let _ ← validateDummyTag key tag gstMack prndSvn.val prna j st CED_BITS
    pure n
  else do
    match ← lift (CollectNavMessage.findItem S n n.ced prndSvn gstNav) with
    | some navdata =>
      if min 255 (navdata.maxAge + 1) ≤ cop then do
        let ced ← validateNavTag key tag gstMack prndSvn.val prna j st CED_BITS navdata n.ced
        pure { n with ced := ced }
      else pure n
    | none => pure n

/-- One ADKD 4 tag (`navmessage.rs:415-450`). -/
def processTimingTag (n : CollectNavMessage) (key : Key) (tag : List Bool) (cop : Nat)
    (gstMack : Gst) (gstNav : Gst) (prndSvn : Svn) (prna : Svn) (j : Nat) (st : NmaStatus) :
    W C CollectNavMessage := do
  if cop = 0 then do
    let _ ← validateDummyTag key tag gstMack prndSvn.val prna j st TIMING_BITS
    pure n
  else do
    match ← lift (CollectNavMessage.findItem S n n.timing prndSvn gstNav) with
    | some navdata =>
      if min 255 (navdata.maxAge + 1) ≤ cop then do
        let timing ← validateNavTag key tag gstMack prndSvn.val prna j st TIMING_BITS navdata n.timing
        pure { n with timing := timing }
      else pure n
    | none => pure n

/-- Body of the tag loop of `process_mack` (`navmessage.rs:361-459`). -/
def processTagJ (key : Key) (mack : Mack) (prna : Svn) (gstMack gstNav : Gst) (st : NmaStatus)
    (n : CollectNavMessage) (j : Nat) : W C CollectNavMessage := do
  let tag ← lift (mack.tagAndInfo j)
  match tag.prnd.toU8 with
  | none => pure n
  | some prnd =>
    match tag.adkd with
    | .InavCed =>
      match Svn.tryFrom prnd with
      | some s => processCedTag S n key tag.tag tag.cop gstMack gstNav s prna j st
      | none => pure n
    | .InavTiming =>
      match Svn.tryFrom prnd with
      | some s => processTimingTag S n key tag.tag tag.cop gstMack gstNav s prna j st
      | none => pure n
    | .SlowMac => pure n
    | .Reserved => pure n

/-- `CollectNavMessage::process_mack` (`navmessage.rs:319-460`). -/
def processMack (n : CollectNavMessage) (mack : Mack) (key : Key) (prna : Svn) (gstMack : Gst)
    (st : NmaStatus) : W C CollectNavMessage := do
  let gstNav ← lift (gstMack.addSeconds (-30))
  let cop ← lift mack.cop
  let tag0 ← lift mack.tag0
  let n ← processCedTag S n key tag0 cop gstMack gstNav prna prna 0 st
  let nt ← lift mack.numTags
  loop (processTagJ S key mack prna gstMack gstNav st) (List.range' 1 (nt - 1)) n

/-- Body of the loop of `process_mack_slowmac` (`navmessage.rs:487-534`). -/
def processSlowTagJ (key : Key) (mack : Mack) (prna : Svn) (gstMack gstNav : Gst) (st : NmaStatus)
    (n : CollectNavMessage) (j : Nat) : W C CollectNavMessage := do
  let tag ← lift (mack.tagAndInfo j)
  if tag.adkd ≠ .SlowMac then pure n
  else
    match tag.prnd.toU8 with
    | none => pure n
    | some prnd =>
      match Svn.tryFrom prnd with
      | some s => processCedTag S n key tag.tag tag.cop gstMack gstNav s prna j st
      | none => pure n

/-- `CollectNavMessage::process_mack_slowmac` (`navmessage.rs:478-535`). -/
def processMackSlowmac (n : CollectNavMessage) (mack : Mack) (key : Key) (prna : Svn)
    (gstMack : Gst) (st : NmaStatus) : W C CollectNavMessage := do
  let gstNav ← lift (gstMack.addSeconds (-30))
  let nt ← lift mack.numTags
  loop (processSlowTagJ S key mack prna gstMack gstNav st) (List.range' 1 (nt - 1)) n

/-! ## `osnma.rs` -/

/-- `OsnmaData::process_dsm_kroot` (`osnma.rs:266-286`). -/
def processDsmKroot (d : OsnmaData C) (k : DsmKroot) (h : NmaHeader) (gst : Gst) :
    W C (OsnmaData C) := do
  let pkid ← lift k.publicKeyId
  match ← lift (d.pubkey.applicable pkid) with
  | none => pure d
  | some pubkey =>
    match ← fromDsmKroot h k pubkey with
    | .error _ => pure d
    | .ok (key, h) =>
      let pk ← lift (d.pubkey.makeCurrent pkid)
      let d := { d with pubkey := pk, key := d.key.storeKroot key h gst }
      pure (d.processNmaHeader h pkid)

/-- `OsnmaData::process_dsm_pkr_npk` (`osnma.rs:372-384`). -/
def processDsmPkrNpk (d : OsnmaData C) (p : DsmPkr) : W C (OsnmaData C) := do
  match d.merkleTree with
  | none => pure d
  | some root =>
    match ← validatePkr root p with
    | .ok k => do
      let pk ← lift (d.pubkey.storeNew k)
      pure { d with pubkey := pk }
    | .error _ => pure d

/-- `OsnmaData::process_dsm_pkr_alert_message` (`osnma.rs:386-398`). -/
def processDsmPkrAlert (d : OsnmaData C) (p : DsmPkr) : W C (OsnmaData C) := do
  match d.merkleTree with
  | none => pure d
  | some root =>
    match ← validateAlertMessage root p with
    | .ok () => pure d.alertMessageReceived
    | .error _ => pure d

/-- `OsnmaData::process_dsm_pkr` (`osnma.rs:362-370`). -/
def processDsmPkr (d : OsnmaData C) (p : DsmPkr) : W C (OsnmaData C) := do
  match ← lift p.newPublicKeyType with
  | .EcdsaKey _ => processDsmPkrNpk d p
  | .OsnmaAlertMessage => processDsmPkrAlert d p
  | .Reserved => pure d

/-- `OsnmaData::process_dsm` (`osnma.rs:259-264`). -/
def processDsm (d : OsnmaData C) (dsm : Dsm) (h : NmaHeader) (gst : Gst) : W C (OsnmaData C) :=
  match dsm.dsmType with
  | .Kroot => processDsmKroot d ⟨dsm.data⟩ h gst
  | .Pkr => processDsmPkr d ⟨dsm.data⟩

/-- `OsnmaData::validate_mack` (`osnma.rs:496-509`). -/
def checkMack (mack : Mack) (key : Key) (prna : Svn) (gst : Gst) : W C (Option Mack) := do
  match ← validateMack mack key prna gst with
  | .error _ => pure none
  | .ok m => pure (some m)

/-- The fast-MAC part of the loop body of `process_tags` (`osnma.rs:456-468`). -/
def processFast (d : OsnmaData C) (key : Key) (gstMack : Gst) (svn : Svn) :
    W C (OsnmaData C) := do
  if d.onlySlowmac then pure d
  else
    match ← lift (d.mack.get S svn gstMack) with
    | none => pure d
    | some (m, st) =>
      let mack := Mack.new m key.chain.keySizeBits key.chain.tagSizeBits
      match ← checkMack mack key svn gstMack with
      | none => pure d
      | some mack =>
        let nav ← processMack S d.navmessage mack key svn gstMack st
        pure { d with navmessage := nav }

/-- The Slow MAC part of the loop body of `process_tags` (`osnma.rs:470-492`). -/
def processSlow (d : OsnmaData C) (key : Key) (slowKey : Option Key) (gstSlow : Gst) (svn : Svn) :
    W C (OsnmaData C) := do
  match slowKey with
  | none => pure d
  | some slowKey =>
    match ← lift (d.mack.get S svn gstSlow) with
    | none => pure d
    | some (m, st) =>
      let mack := Mack.new m key.chain.keySizeBits key.chain.tagSizeBits
      match ← checkMack mack slowKey svn gstSlow with
      | none => pure d
      | some mack =>
        let nav ← processMackSlowmac S d.navmessage mack key svn gstSlow st
        pure { d with navmessage := nav }

/-- The key for the MACSEQ of the Slow MAC MACK (`osnma.rs:445-454`). -/
def slowmacKey (d : OsnmaData C) (key : Key) : W C (Option Key) := do
  let gstK ← lift (key.gst.addSeconds (-300))
  match d.key.keyPastChain gstK with
  | none => pure none
  | some k =>
    let derivations ← lift (k.gst.subframesDifference gstK)
    if derivations ≥ 0 then do
      let r ← derive k derivations.toNat
      pure (some r)
    else pure none

/-- `OsnmaData::process_tags` (`osnma.rs:440-494`). -/
def processTags (d : OsnmaData C) (key : Key) : W C (OsnmaData C) := do
  let gstMack ← lift (key.gst.addSeconds (-30))
  let gstSlow ← lift (gstMack.addSeconds (-300))
  let slowKey ← slowmacKey d key
  loop (fun d svn => do
    let d ← processFast S d key gstMack svn
    processSlow S d key slowKey gstSlow svn) Svn.iter d

/-- `OsnmaData::validate_key` (`osnma.rs:400-438`). -/
def acceptKey (d : OsnmaData C) (m : MackMessage) (gst : Gst) : W C (OsnmaData C) := do
  match d.key.currentKey with
  | none => pure d
  | some cur =>
    let mack := Mack.new m cur.chain.keySizeBits cur.chain.tagSizeBits
    let kb ← lift mack.key
    let newKey ← lift (Key.fromBitslice kb gst cur.chain)
    match Gst.cmp cur.gst newKey.gst with
    | .eq => pure d
    | .gt => pure d
    | .lt =>
      match ← validateKey cur newKey with
      | .ok valid =>
        let ks ← lift (d.key.storeKey valid)
        processTags S { d with key := ks } valid
      | .error _ => pure d

/-- `OsnmaDsm::process_subframe` (`osnma.rs:238-255`). -/
def processSubframe (o : OsnmaDsm C) (hkroot : HkrootMessage) (mack : MackMessage) (svn : Svn)
    (gst : Gst) : W C (OsnmaDsm C) := do
  let b0 ← lift (index hkroot.val 0)
  let h : NmaHeader := ⟨b0⟩
  let ms ← lift (o.data.mack.store S mack svn gst h.nmaStatus)
  let data := { o.data with mack := ms }
  let b1 ← lift (index hkroot.val 1)
  let block ← lift (CollectSubframe.toBytes 13 (hkroot.val.drop 2))
  let (dsm, out) ← lift (o.dsm.feed ⟨b1⟩ block)
  let data ← match out with
    | some x => processDsm data x h gst
    | none => pure data
  let data ← acceptKey S data mack gst
  pure ⟨dsm, data⟩

/-- `Osnma::feed_osnma` (`osnma.rs:205-213`). -/
def feedOsnma (o : Osnma C) (osnma : OsnmaDataMessage) (svn : Svn) (gst : Gst) :
    W C (Osnma C) := do
  if osnma.val.all (fun x => x == 0#8) then pure o
  else do
    let (sf, out) ← lift (o.subframe.feed osnma svn gst)
    match out with
    | some (hk, m, g) =>
      let data ← processSubframe S o.data hk m svn g
      pure ⟨sf, data⟩
    | none => pure { o with subframe := sf }

/-- `Osnma::feed_inav` (`osnma.rs:192-194`): no cryptography. -/
def feedInav (o : Osnma C) (word : InavWord) (svn : Svn) (gst : Gst) (band : InavBand) : W C (Osnma C) :=
  lift (o.feedInav S word svn gst band)

end W
end Verif
