import Verif.Model.Osnma

/-! # Formatting for the log

The library logs with the crate `log`; the arguments of a log statement are evaluated and formatted only if the level is enabled.  Here are the `Debug`
implementations, as the list of the fields that they give to the formatter (that the values of the fields can then be written as text is trusted), and the
black box with all levels enabled: the same functions as in `Model/NavMessage.lean` and `Model/Osnma.lean`, with the log statements whose arguments can panic:
those with a DSM-PKR or a MACK message, and `log_word` and `log_age`.  The arguments of the others are plain values, already computed or (`DsmHeader`,
`NmaHeader`, `TagAndInfo`) made by accessors that cannot panic. -/

namespace Verif

/-- The value of a field in `Debug` output. -/
inductive Shown where
  | num (n : Nat)
  | optNum (n : Option Nat)
  | bytes (b : List Byte)
  | optBytes (b : Option (List Byte))
  | bits (b : List Bool)
  | keyType (t : NewPublicKeyType)
  | hashFunction (f : BfHashFunction)
  | macFunction (f : BfMacFunction)
  | tagAndInfo (tag : List Bool) (prnd : Prnd) (adkd : Adkd)
  | nmaStatus (s : NmaStatus)
  | cpks (s : Cpks)

/-- `DsmHeader` (`bitfields.rs:116-123`). -/
def DsmHeader.debug (h : DsmHeader) : List (String × Shown) := [("dsm_id", .num h.dsmId), ("dsm_block_id", .num h.dsmBlockId)]

/-- `NmaHeader` (`tesla.rs:428-436`). -/
def NmaHeader.debug (h : NmaHeader) : List (String × Shown) :=
  [("nma_status", .nmaStatus h.nmaStatus), ("chain_id", .num h.chainId), ("chain_and_pubkey_status", .cpks h.cpks)]

/-- `DsmPkr` (`bitfields.rs:286-301`). -/
def DsmPkr.debug (d : DsmPkr) : Res (List (String × Shown)) := do
  let nb ← d.numberOfBlocks
  let mid ← d.messageId
  let n0 ← d.intermediateTreeNode 0
  let n1 ← d.intermediateTreeNode 1
  let n2 ← d.intermediateTreeNode 2
  let n3 ← d.intermediateTreeNode 3
  let t ← d.newPublicKeyType
  let pkid ← d.newPublicKeyId
  let key ← d.newPublicKey
  let pad ← d.padding
  pure [("number_of_blocks", .optNum nb), ("message_id", .num mid), ("intermediate_tree_node_0", .bytes n0), ("intermediate_tree_node_1", .bytes n1),
    ("intermediate_tree_node_2", .bytes n2), ("intermediate_tree_node_3", .bytes n3), ("new_public_key_type", .keyType t), ("new_public_key_id", .num pkid),
    ("new_public_key", .optBytes key), ("padding", .optBytes pad)]

/-- `DsmKroot` (`bitfields.rs:651-671`). -/
def DsmKroot.debug (d : DsmKroot) : Res (List (String × Shown)) := do
  let nb ← d.numberOfBlocks
  let pkid ← d.publicKeyId
  let cid ← d.krootChainId
  let hf ← d.hashFunction
  let mf ← d.macFunction
  let ks ← d.keySize
  let ts ← d.tagSize
  let lt ← d.macLookupTable
  let wn ← d.krootWn
  let towh ← d.krootTowh
  let alpha ← d.alpha
  let kroot ← d.kroot
  let sig ← d.digitalSignature
  let pad ← d.padding
  pure [("number_of_blocks", .optNum nb), ("public_key_id", .num pkid), ("kroot_chain_id", .num cid), ("hash_function", .hashFunction hf),
    ("mac_function", .macFunction mf), ("key_size", .optNum ks), ("tag_size", .optNum ts), ("mac_loopkup_table", .num lt), ("kroot_wn", .num wn),
    ("kroot_towh", .num towh), ("alpha", .num alpha), ("kroot", .bytes kroot), ("digital_signature", .bytes sig), ("padding", .bytes pad)]

/-- `TagAndInfo` (`bitfields.rs:1010-1018`). -/
def TagAndInfo.shown (t : TagAndInfo) : Shown := .tagAndInfo t.tag t.prnd t.adkd

/-- `Mack` (`bitfields.rs:896-909`), without the marker `_validated`. -/
def Mack.debug (m : Mack) : Res (List (String × Shown)) := do
  let tag0 ← m.tag0
  let macseq ← m.macseq
  let nt ← m.numTags
  let tags ← loopM (fun acc j => do
    let t ← m.tagAndInfo j
    pure (acc ++ [("tag", t.shown)])) (List.range' 1 (nt - 1)) []
  let key ← m.key
  pure ([("tag0", .bits tag0), ("macseq", .num macseq)] ++ tags ++ [("key", .bits key)])

/-- `Display` of an `Svn` (`svn.rs:82-86`): `E` and the number with at least two digits. -/
def Svn.display (s : Svn) : List Char := 'E' :: (Nat.toDigits 10 (s.val / 10) ++ Nat.toDigits 10 (s.val % 10))

namespace NavItem

/-- `log_word` (`navmessage.rs:717-723`). -/
def logWord (x : NavItem) : Res Unit := do
  let _ ← Res.unwrap x.svn "self.svn.unwrap()"
  pure ()

/-- `log_age` (`navmessage.rs:725-731`). -/
def logAge (x : NavItem) : Res Unit := do
  let _ ← Res.unwrap x.svn "self.svn.unwrap()"
  pure ()

/-- `CedAndStatus::feed` (`navmessage.rs:774-798`) with the log enabled. -/
def feedCedLogged (x : NavItem) (word : InavWord) (svn : Svn) : Res NavItem := do
  let x := x.assign svn
  if 1 ≤ wordType word ∧ wordType word ≤ 5 then x.logWord
  let x :=
    match wordType word with
    | 1 => x.copyWord 0 120 (wbits word 6 126) 0
    | 2 => x.copyWord 120 240 (wbits word 6 126) 1
    | 3 => x.copyWord 240 362 (wbits word 6 128) 2
    | 4 => x.copyWord 362 482 (wbits word 6 126) 3
    | 5 => x.copyWord 482 549 (wbits word 6 73) 4
    | _ => x
  x.logAge
  pure x

/-- `TimingParameters::feed` (`navmessage.rs:802-826`) with the log enabled. -/
def feedTimingLogged (x : NavItem) (word : InavWord) (svn : Svn) (band : InavBand) : Res NavItem := do
  let x := x.assign svn
  let x ← match wordType word, band with
    | 6, .E1B => do
      x.logWord
      pure (x.copyWord 0 99 (wbits word 6 105) 0)
    | 10, .E1B => do
      x.logWord
      pure (x.copyWord 99 141 (wbits word 86 128) 1)
    | _, _ => pure x
  x.logAge
  pure x

end NavItem

namespace CollectNavMessage
variable (S : Storage)

/-- Select a location and update it (`navmessage.rs:97-111` and `116-130`) with the log enabled; `max_age` of the location cannot panic (the array of ages
is not empty). -/
def updateSelectedLogged (arr : List NavItem) (wp : Nat) (svn : Svn) (f : NavItem → Res NavItem) : Res (List NavItem) := do
  let s ← slot S arr wp
  let (i, _) ← Res.unwrap (argmaxLast (s.map (NavItem.placeKey svn))) "max_by_key().unwrap()"
  let x ← index s i
  let y ← f x
  let s ← setIndex s i y
  writeSlice arr (wp * S.numSats) s

/-- `CollectNavMessage::adjust_write_pointer` (`navmessage.rs:133-185`) with the log enabled: the contents of the new slot are listed (l.156-181). -/
def adjustWritePointerLogged (n : CollectNavMessage) (gst : Gst) : Res CollectNavMessage := do
  let g ← index n.gsts n.writePointer
  let n ← match g with
    | some g =>
      if g ≠ gst then do
        let newPointer := (n.writePointer + 1) % S.navDepth
        let ced ← copySlot S n.ced n.writePointer newPointer
        let timing ← copySlot S n.timing n.writePointer newPointer
        let ced ← ageSlot S ced newPointer
        let timing ← ageSlot S timing newPointer
        let _ ← slot S ced newPointer
        let _ ← slot S timing newPointer
        pure { n with ced := ced, timing := timing, writePointer := newPointer }
      else pure n
    | none => pure n
  let gsts ← setIndex n.gsts n.writePointer (some gst)
  pure { n with gsts := gsts }

/-- `CollectNavMessage::feed` (`navmessage.rs:89-131`) with the log enabled. -/
def feedLogged (n : CollectNavMessage) (word : InavWord) (svn : Svn) (gst : Gst) (band : InavBand) : Res CollectNavMessage := do
  let gst := gst.subframe
  let n ← adjustWritePointerLogged S n gst
  let ced ← updateSelectedLogged S n.ced n.writePointer svn (fun x => x.feedCedLogged word svn)
  let timing ← updateSelectedLogged S n.timing n.writePointer svn (fun x => x.feedTimingLogged word svn band)
  pure { n with ced := ced, timing := timing }

end CollectNavMessage

namespace OsnmaData
variable {C : Crypto} (S : Storage)

/-- `OsnmaData::process_dsm_pkr_npk` (`osnma.rs:372-384`) with the log enabled (l.380). -/
def processDsmPkrNpkLogged (d : OsnmaData C) (p : DsmPkr) : Res (OsnmaData C) := do
  match d.merkleTree with
  | none => pure d
  | some root =>
    match ← Merkle.validatePkr C root p with
    | .ok k => do
      let _ ← p.debug
      let pk ← d.pubkey.storeNew k
      pure { d with pubkey := pk }
    | .error _ => pure d

/-- `OsnmaData::process_dsm_pkr_alert_message` (`osnma.rs:386-398`) with the log enabled (l.394). -/
def processDsmPkrAlertLogged (d : OsnmaData C) (p : DsmPkr) : Res (OsnmaData C) := do
  match d.merkleTree with
  | none => pure d
  | some root =>
    match ← Merkle.validateAlertMessage C root p with
    | .ok () => do
      let _ ← p.debug
      pure d.alertMessageReceived
    | .error _ => pure d

/-- `OsnmaData::process_dsm_pkr` (`osnma.rs:362-370`) with the log enabled (l.368). -/
def processDsmPkrLogged (d : OsnmaData C) (p : DsmPkr) : Res (OsnmaData C) := do
  match ← p.newPublicKeyType with
  | .EcdsaKey _ => d.processDsmPkrNpkLogged p
  | .OsnmaAlertMessage => d.processDsmPkrAlertLogged p
  | .Reserved => do
    let _ ← p.debug
    pure d

/-- `OsnmaData::process_dsm` (`osnma.rs:259-264`) with the log enabled. -/
def processDsmLogged (d : OsnmaData C) (dsm : Dsm) (h : NmaHeader) (gst : Gst) : Res (OsnmaData C) :=
  match dsm.dsmType with
  | .Kroot => d.processDsmKroot ⟨dsm.data⟩ h gst
  | .Pkr => d.processDsmPkrLogged ⟨dsm.data⟩

/-- `OsnmaData::validate_mack` (`osnma.rs:496-509`) with the log enabled (l.504). -/
def validateMackLogged (mack : Mack) (key : Key) (prna : Svn) (gst : Gst) : Res (Option Mack) := do
  match ← mack.validate C key prna gst with
  | .error _ => do
    let _ ← mack.debug
    pure none
  | .ok m => pure (some m)

/-- The fast-MAC part of the loop body of `process_tags` (`osnma.rs:456-468`) with the log enabled. -/
def processFastLogged (d : OsnmaData C) (key : Key) (gstMack : Gst) (svn : Svn) : Res (OsnmaData C) := do
  if d.onlySlowmac then pure d
  else
    match ← d.mack.get S svn gstMack with
    | none => pure d
    | some (m, st) =>
      let mack := Mack.new m key.chain.keySizeBits key.chain.tagSizeBits
      match ← validateMackLogged (C := C) mack key svn gstMack with
      | none => pure d
      | some mack =>
        let nav ← d.navmessage.processMack S C mack key svn gstMack st
        pure { d with navmessage := nav }

/-- The Slow MAC part of the loop body of `process_tags` (`osnma.rs:470-492`) with the log enabled. -/
def processSlowLogged (d : OsnmaData C) (key : Key) (slowKey : Option Key) (gstSlow : Gst) (svn : Svn) : Res (OsnmaData C) := do
  match slowKey with
  | none => pure d
  | some slowKey =>
    match ← d.mack.get S svn gstSlow with
    | none => pure d
    | some (m, st) =>
      let mack := Mack.new m key.chain.keySizeBits key.chain.tagSizeBits
      match ← validateMackLogged (C := C) mack slowKey svn gstSlow with
      | none => pure d
      | some mack =>
        let nav ← d.navmessage.processMackSlowmac S C mack key svn gstSlow st
        pure { d with navmessage := nav }

/-- `OsnmaData::process_tags` (`osnma.rs:440-494`) with the log enabled. -/
def processTagsLogged (d : OsnmaData C) (key : Key) : Res (OsnmaData C) := do
  let gstMack ← key.gst.addSeconds (-30)
  let gstSlow ← gstMack.addSeconds (-300)
  let slowKey ← d.slowmacKey key
  loopM (fun d svn => do
    let d ← processFastLogged S d key gstMack svn
    processSlowLogged S d key slowKey gstSlow svn) Svn.iter d

/-- `OsnmaData::validate_key` (`osnma.rs:400-438`) with the log enabled. -/
def validateKeyLogged (d : OsnmaData C) (m : MackMessage) (gst : Gst) : Res (OsnmaData C) := do
  match d.key.currentKey with
  | none => pure d
  | some cur =>
    let mack := Mack.new m cur.chain.keySizeBits cur.chain.tagSizeBits
    let kb ← mack.key
    let newKey ← Key.fromBitslice kb gst cur.chain
    match Gst.cmp cur.gst newKey.gst with
    | .eq => pure d
    | .gt => pure d
    | .lt =>
      match ← cur.validateKey C newKey with
      | .ok valid =>
        let ks ← d.key.storeKey valid
        processTagsLogged S { d with key := ks } valid
      | .error _ => pure d

end OsnmaData

/-- `OsnmaDsm::process_subframe` (`osnma.rs:238-255`) with the log enabled. -/
def OsnmaDsm.processSubframeLogged {C : Crypto} (S : Storage) (o : OsnmaDsm C) (hkroot : HkrootMessage) (mack : MackMessage) (svn : Svn) (gst : Gst) :
    Res (OsnmaDsm C) := do
  let b0 ← index hkroot.val 0
  let h : NmaHeader := ⟨b0⟩
  let ms ← o.data.mack.store S mack svn gst h.nmaStatus
  let data := { o.data with mack := ms }
  let b1 ← index hkroot.val 1
  let block ← CollectSubframe.toBytes 13 (hkroot.val.drop 2)
  let (dsm, out) ← o.dsm.feed ⟨b1⟩ block
  let data ← match out with
    | some x => data.processDsmLogged x h gst
    | none => pure data
  let data ← data.validateKeyLogged S mack gst
  pure ⟨dsm, data⟩

namespace Osnma
variable {C : Crypto} (S : Storage)

/-- `Osnma::feed_inav` (`osnma.rs:192-194`) with the log enabled. -/
def feedInavLogged (o : Osnma C) (word : InavWord) (svn : Svn) (gst : Gst) (band : InavBand) : Res (Osnma C) := do
  let nav ← o.data.data.navmessage.feedLogged S word svn gst band
  pure { o with data := { o.data with data := { o.data.data with navmessage := nav } } }

/-- `Osnma::feed_osnma` (`osnma.rs:205-213`) with the log enabled. -/
def feedOsnmaLogged (o : Osnma C) (osnma : OsnmaDataMessage) (svn : Svn) (gst : Gst) : Res (Osnma C) := do
  if osnma.val.all (fun x => x == 0#8) then pure o
  else do
    let (sf, out) ← o.subframe.feed osnma svn gst
    match out with
    | some (hk, m, g) =>
      let data ← o.data.processSubframeLogged S hk m svn g
      pure ⟨sf, data⟩
    | none => pure { o with subframe := sf }

end Osnma
end Verif
