import Verif.Model.Merkle
import Verif.Model.Subframe
import Verif.Model.Dsm
import Verif.Model.MackStorage
import Verif.Model.NavMessage

/-! # `galileo-osnma/src/osnma.rs` -/

namespace Verif

/-! ## Public key store -/

/-- `PubkeyStore` (`osnma.rs:99-102`). -/
structure PubkeyStore (C : Crypto) where
  current : Option (PublicKey C)
  next : Option (PublicKey C)

namespace PubkeyStore
variable {C : Crypto}

/-- `PubkeyStore::empty` (`osnma.rs:513-518`). -/
def empty : PubkeyStore C := ⟨none, none⟩

/-- `PubkeyStore::from_current_pubkey` (`osnma.rs:520-525`). -/
def fromCurrent (k : PublicKey C) : PubkeyStore C := ⟨some k, none⟩

/-- `PubkeyStore::check_consistency` (`osnma.rs:527-530`). -/
def checkConsistency (p : PubkeyStore C) : Res Unit :=
  Res.assert (p.next.isNone || p.current.isSome) "self.next.is_none() || self.current.is_some()"

/-- `PubkeyStore::applicable_pubkey` (`osnma.rs:532-551`). -/
def applicable (p : PubkeyStore C) (pkid : Nat) : Res (Option (PublicKey C)) := do
  p.checkConsistency
  match p.current, p.next with
  | some k, n =>
    if k.pkid = pkid then pure (some k)
    else match n with
      | some k' => if k'.pkid = pkid then pure (some k') else pure none
      | none => pure none
  | none, some k' => if k'.pkid = pkid then pure (some k') else pure none
  | none, none => pure none

/-- `PubkeyStore::make_pkid_current` (`osnma.rs:553-569`). -/
def makeCurrent (p : PubkeyStore C) (pkid : Nat) : Res (PubkeyStore C) := do
  p.checkConsistency
  if p.current.map (·.pkid) = some pkid then pure p
  else if p.next.map (·.pkid) = some pkid then do
    let cur ← Res.unwrap p.current "self.current.as_ref().unwrap()"
    Res.assert (decide (cur.pkid < pkid)) "current.public_key_id() < pkid"
    pure ⟨p.next, none⟩
  else .panic "inconsistent PubkeyStore state"

/-- `PubkeyStore::store_new_pubkey` (`osnma.rs:571-611`). -/
def storeNew (p : PubkeyStore C) (k : PublicKey C) : Res (PubkeyStore C) := do
  p.checkConsistency
  match p.current with
  | some cur =>
    if k.pkid < cur.pkid then pure p
    else if k.pkid = cur.pkid then pure p
    else
      match p.next with
      | some nx => if k.pkid > nx.pkid then pure { p with next := some k } else pure p
      | none => pure { p with next := some k }
  | none => pure { p with current := some k }

/-- `PubkeyStore::revoke` (`osnma.rs:613-631`), with the second branch as written in the code
(it clears `current`, not `next`). -/
def revoke (p : PubkeyStore C) (newPkid : Nat) : PubkeyStore C :=
  let p := if p.current.any (fun k => k.pkid < newPkid) then { p with current := none } else p
  if p.next.any (fun k => k.pkid < newPkid) then { p with current := none } else p

end PubkeyStore

/-! ## TESLA key store -/

/-- `ChainInForce` (`osnma.rs:114-119`). -/
structure ChainInForce where
  cid : Nat
  startApplicability : Option Gst
  deriving DecidableEq

/-- `KeyStore` (`osnma.rs:108-111`); the two-element array as two fields. -/
structure KeyStore where
  key0 : Option Key
  key1 : Option Key
  chainInForce : Option ChainInForce
  deriving DecidableEq

namespace KeyStore

/-- `KeyStore::empty` (`osnma.rs:635-640`). -/
def empty : KeyStore := ⟨none, none, none⟩

/-- Whether a slot holds a key of chain `id`. -/
def holds (k : Option Key) (id : Nat) : Bool := k.any (fun k => k.chain.id == id)

/-- `KeyStore::store_kroot` (`osnma.rs:642-681`). -/
def storeKroot (ks : KeyStore) (key : Key) (h : NmaHeader) (gst : Gst) : KeyStore :=
  let kid := key.chain.id
  let cid := h.chainId
  let ks' :=
    if holds ks.key0 kid then ks
    else if holds ks.key1 kid then ks
    else
      match ks.key0, ks.key1 with
      | none, _ => { ks with key0 := some key }
      | some _, none => { ks with key1 := some key }
      | some k0, some _ =>
        if k0.chain.id = cid then { ks with key1 := some key } else { ks with key0 := some key }
  { ks' with
    chainInForce := some ⟨cid, ks.chainInForce.bind (fun cif => if cif.cid ≠ cid then some gst else none)⟩ }

/-- `KeyStore::store_key` (`osnma.rs:683-695`). -/
def storeKey (ks : KeyStore) (key : Key) : Res KeyStore :=
  let id := key.chain.id
  if holds ks.key0 id then .ok { ks with key0 := some key }
  else if holds ks.key1 id then .ok { ks with key1 := some key }
  else .panic "unreachable"

/-- The stored keys in order (`self.keys.iter().flatten()`). -/
def keys (ks : KeyStore) : List Key := ks.key0.toList ++ ks.key1.toList

/-- `KeyStore::current_key` (`osnma.rs:697-704`). -/
def currentKey (ks : KeyStore) : Option Key :=
  ks.chainInForce.bind (fun cif => ks.keys.find? (fun k => k.chain.id == cif.cid))

/-- `KeyStore::key_past_chain` (`osnma.rs:709-723`). -/
def keyPastChain (ks : KeyStore) (gst : Gst) : Option Key :=
  ks.chainInForce.bind (fun cif =>
    match cif.startApplicability with
    | some gst0 =>
      if Gst.cmp gst0 gst = .gt then ks.keys.find? (fun k => k.chain.id != cif.cid)
      else ks.currentKey
    | none => ks.currentKey)

/-- `KeyStore::revoke` (`osnma.rs:725-734`). -/
def revoke (ks : KeyStore) (cid : Nat) : KeyStore :=
  { ks with
    key0 := if holds ks.key0 cid then none else ks.key0
    key1 := if holds ks.key1 cid then none else ks.key1 }

end KeyStore

/-! ## Black box -/

/-- `OsnmaData` (`osnma.rs:89-96`). -/
structure OsnmaData (C : Crypto) where
  navmessage : CollectNavMessage
  mack : MackStorage
  merkleTree : Option MerkleTreeNode
  pubkey : PubkeyStore C
  key : KeyStore
  onlySlowmac : Bool

/-- `OsnmaDsm` (`osnma.rs:83-86`). -/
structure OsnmaDsm (C : Crypto) where
  dsm : CollectDsm
  data : OsnmaData C

/-- `Osnma` (`osnma.rs:74-77`). -/
structure Osnma (C : Crypto) where
  subframe : CollectSubframe
  data : OsnmaDsm C

namespace OsnmaData

variable {C : Crypto} (S : Storage)

/-- `OsnmaData::alert_message_received` (`osnma.rs:355-360`). -/
def alertMessageReceived (d : OsnmaData C) : OsnmaData C :=
  { d with merkleTree := none, pubkey := .empty, key := .empty }

/-- `OsnmaData::process_nma_header` (`osnma.rs:288-353`). -/
def processNmaHeader (d : OsnmaData C) (h : NmaHeader) (pkid : Nat) : OsnmaData C :=
  let d :=
    match h.nmaStatus with
    | .DontUse =>
      match h.cpks with
      | .ChainRevoked => { d with key := d.key.revoke h.chainId }
      | .PublicKeyRevoked =>
        { d with pubkey := d.pubkey.revoke pkid, key := d.key.revoke h.chainId }
      | _ => d
    | _ => d
  match h.cpks with
  | .AlertMessage => d.alertMessageReceived
  | _ => d

/-- `OsnmaData::process_dsm_kroot` (`osnma.rs:266-286`). -/
def processDsmKroot (d : OsnmaData C) (k : DsmKroot) (h : NmaHeader) (gst : Gst) :
    Res (OsnmaData C) := do
  let pkid ← k.publicKeyId
  match ← d.pubkey.applicable pkid with
  | none => pure d
  | some pubkey =>
    match ← Key.fromDsmKroot C h k pubkey with
    | .error _ => pure d
    | .ok (key, h) =>
      let pk ← d.pubkey.makeCurrent pkid
      let d := { d with pubkey := pk, key := d.key.storeKroot key h gst }
      pure (d.processNmaHeader h pkid)

/-- `OsnmaData::process_dsm_pkr_npk` (`osnma.rs:372-384`). -/
def processDsmPkrNpk (d : OsnmaData C) (p : DsmPkr) : Res (OsnmaData C) := do
  match d.merkleTree with
  | none => pure d
  | some root =>
    match ← Merkle.validatePkr C root p with
    | .ok k => do
      let pk ← d.pubkey.storeNew k
      pure { d with pubkey := pk }
    | .error _ => pure d

/-- `OsnmaData::process_dsm_pkr_alert_message` (`osnma.rs:386-398`). -/
def processDsmPkrAlert (d : OsnmaData C) (p : DsmPkr) : Res (OsnmaData C) := do
  match d.merkleTree with
  | none => pure d
  | some root =>
    match ← Merkle.validateAlertMessage C root p with
    | .ok () => pure d.alertMessageReceived
    | .error _ => pure d

/-- `OsnmaData::process_dsm_pkr` (`osnma.rs:362-370`). -/
def processDsmPkr (d : OsnmaData C) (p : DsmPkr) : Res (OsnmaData C) := do
  match ← p.newPublicKeyType with
  | .EcdsaKey _ => d.processDsmPkrNpk p
  | .OsnmaAlertMessage => d.processDsmPkrAlert p
  | .Reserved => pure d

/-- `OsnmaData::process_dsm` (`osnma.rs:259-264`). -/
def processDsm (d : OsnmaData C) (dsm : Dsm) (h : NmaHeader) (gst : Gst) : Res (OsnmaData C) :=
  match dsm.dsmType with
  | .Kroot => d.processDsmKroot ⟨dsm.data⟩ h gst
  | .Pkr => d.processDsmPkr ⟨dsm.data⟩

/-- `OsnmaData::validate_mack` (`osnma.rs:496-509`). -/
def validateMack (mack : Mack) (key : Key) (prna : Svn) (gst : Gst) : Res (Option Mack) := do
  match ← mack.validate C key prna gst with
  | .error _ => pure none
  | .ok m => pure (some m)

/-- The fast-MAC part of the loop body of `process_tags` (`osnma.rs:456-468`). -/
def processFast (d : OsnmaData C) (key : Key) (gstMack : Gst) (svn : Svn) :
    Res (OsnmaData C) := do
  if d.onlySlowmac then pure d
  else
    match ← d.mack.get S svn gstMack with
    | none => pure d
    | some (m, st) =>
      let mack := Mack.new m key.chain.keySizeBits key.chain.tagSizeBits
      match ← validateMack (C := C) mack key svn gstMack with
      | none => pure d
      | some mack =>
        let nav ← d.navmessage.processMack S C mack key svn gstMack st
        pure { d with navmessage := nav }

/-- The Slow MAC part of the loop body of `process_tags` (`osnma.rs:470-492`). -/
def processSlow (d : OsnmaData C) (key : Key) (slowKey : Option Key) (gstSlow : Gst) (svn : Svn) :
    Res (OsnmaData C) := do
  match slowKey with
  | none => pure d
  | some slowKey =>
    match ← d.mack.get S svn gstSlow with
    | none => pure d
    | some (m, st) =>
      let mack := Mack.new m key.chain.keySizeBits key.chain.tagSizeBits
      match ← validateMack (C := C) mack slowKey svn gstSlow with
      | none => pure d
      | some mack =>
        let nav ← d.navmessage.processMackSlowmac S C mack key svn gstSlow st
        pure { d with navmessage := nav }

/-- The key that was used for the MACSEQ of the Slow MAC MACK (`osnma.rs:445-454`). -/
def slowmacKey (d : OsnmaData C) (key : Key) : Res (Option Key) := do
  let gstK ← key.gst.addSeconds (-300)
  match d.key.keyPastChain gstK with
  | none => pure none
  | some k =>
    let derivations ← k.gst.subframesDifference gstK
    if derivations ≥ 0 then do
      let r ← k.derive C derivations.toNat
      pure (some r)
    else pure none

/-- `OsnmaData::process_tags` (`osnma.rs:440-494`). -/
def processTags (d : OsnmaData C) (key : Key) : Res (OsnmaData C) := do
  let gstMack ← key.gst.addSeconds (-30)
  let gstSlow ← gstMack.addSeconds (-300)
  let slowKey ← d.slowmacKey key
  loopM (fun d svn => do
    let d ← processFast S d key gstMack svn
    processSlow S d key slowKey gstSlow svn) Svn.iter d

/-- `OsnmaData::validate_key` (`osnma.rs:400-438`). -/
def validateKey (d : OsnmaData C) (m : MackMessage) (gst : Gst) : Res (OsnmaData C) := do
  match d.key.currentKey with
  | none => pure d
  | some cur =>
    let mack := Mack.new m cur.chain.keySizeBits cur.chain.tagSizeBits
    let kb ← mack.key
    let newKey ← Key.fromBitslice kb gst cur.chain
    match Gst.cmp cur.gst newKey.gst with
    | .eq => pure d
    | .gt => pure d
    | .lt =>
      match ← cur.validateKey C newKey with
      | .ok valid =>
        let ks ← d.key.storeKey valid
        processTags S { d with key := ks } valid
      | .error _ => pure d

end OsnmaData

namespace OsnmaDsm

variable {C : Crypto} (S : Storage)

/-- `OsnmaDsm::process_subframe` (`osnma.rs:238-255`). -/
def processSubframe (o : OsnmaDsm C) (hkroot : HkrootMessage) (mack : MackMessage) (svn : Svn)
    (gst : Gst) : Res (OsnmaDsm C) := do
  let b0 ← index hkroot.val 0
  let h : NmaHeader := ⟨b0⟩
  let ms ← o.data.mack.store S mack svn gst h.nmaStatus
  let data := { o.data with mack := ms }
  let b1 ← index hkroot.val 1
  let block ← CollectSubframe.toBytes 13 (hkroot.val.drop 2)
  let (dsm, out) ← o.dsm.feed ⟨b1⟩ block
  let data ← match out with
    | some x => data.processDsm x h gst
    | none => pure data
  let data ← data.validateKey S mack gst
  pure ⟨dsm, data⟩

end OsnmaDsm

namespace Osnma

variable {C : Crypto} (S : Storage)

/-- `Osnma::new` (`osnma.rs:122-142`). -/
def new (root : Option MerkleTreeNode) (pubkey : Option (PublicKey C)) (onlySlowmac : Bool) :
    Osnma C where
  subframe := .new
  data := {
    dsm := .new
    data := {
      navmessage := .new S
      mack := .new S
      merkleTree := root
      pubkey := match pubkey with
        | some k => .fromCurrent k
        | none => .empty
      key := .empty
      onlySlowmac := onlySlowmac } }

/-- `Osnma::from_merkle_tree` (`osnma.rs:155-161`). -/
def fromMerkleTree (root : MerkleTreeNode) (pubkey : Option (PublicKey C)) (onlySlowmac : Bool) :
    Osnma C := new S (some root) pubkey onlySlowmac

/-- `Osnma::from_pubkey` (`osnma.rs:177-179`). -/
def fromPubkey (pubkey : PublicKey C) (onlySlowmac : Bool) : Osnma C :=
  new S none (some pubkey) onlySlowmac

/-- `Osnma::feed_inav` (`osnma.rs:192-194`). -/
def feedInav (o : Osnma C) (word : InavWord) (svn : Svn) (gst : Gst) (band : InavBand) :
    Res (Osnma C) := do
  let nav ← o.data.data.navmessage.feed S word svn gst band
  pure { o with data := { o.data with data := { o.data.data with navmessage := nav } } }

/-- `Osnma::feed_osnma` (`osnma.rs:205-213`). -/
def feedOsnma (o : Osnma C) (osnma : OsnmaDataMessage) (svn : Svn) (gst : Gst) :
    Res (Osnma C) := do
  if osnma.val.all (fun x => x == 0#8) then pure o
  else do
    let (sf, out) ← o.subframe.feed osnma svn gst
    match out with
    | some (hk, m, g) =>
      let data ← o.data.processSubframe S hk m svn g
      pure ⟨sf, data⟩
    | none => pure { o with subframe := sf }

/-- `Osnma::get_ced_and_status` (`osnma.rs:222-224`). -/
def getCedAndStatus (o : Osnma C) (svn : Svn) : Res (Option NavMessageData) :=
  o.data.data.navmessage.getCedAndStatus S svn

/-- `Osnma::get_timing_parameters` (`osnma.rs:232-234`). -/
def getTimingParameters (o : Osnma C) (svn : Svn) : Res (Option NavMessageData) :=
  o.data.data.navmessage.getTimingParameters S svn

end Osnma
end Verif
