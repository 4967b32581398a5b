import Verif.Model.History

/-! # The library compiled without overflow checks

The other files model the arithmetic of a build with overflow checks (`cargo build`, `cargo test`), where an operation whose result is out of range panics.
`Cargo.toml:39-42` does not enable the checks for `--release` nor for the profile `embedded` (l.44-48): there `+`, `-` and `*` wrap, while `assert!`,
`unwrap` and slice bounds panic as before.  Here are the functions whose arithmetic can leave the range of its type, with wrapping, and their callers.
The remaining arithmetic of the library stays in range (`Gst::subframes_difference`: `C02_difference_returns`; the sizes in `bitfields.rs` and the slot
indices: C03-C13, C38 and C39), so that those functions are the same in both builds; `debug_assert!` (`bitfields.rs:431`: the key size is a multiple of 8)
always holds. -/

namespace Verif

/-- A value of `i32` arithmetic that wraps. -/
def wrapI32 (x : Int) : Int := (x + 2147483648) % 4294967296 - 2147483648

namespace Gst

/-- A `Gst` from a week number that wraps to 16 bits and a time of week, still to be range checked (`gst.rs:80`, `82`). -/
def ofPartsRelease (wn : Int) (tow : Int) : Res Gst :=
  if h : 0 ≤ tow ∧ tow < 604800 then .ok ⟨(wn % 65536).toNat, tow.toNat, by omega, by omega⟩
  else .panic "assert!((0..secs_in_week).contains(&tow))"

/-- `Gst::add_seconds` (`gst.rs:67-85`) without overflow checks: the `u16` week number wraps (l.72, 74, 77); the conversion of a negative number of weeks
panics (l.72). -/
def addSecondsRelease (g : Gst) (seconds : Int) : Res Gst :=
  let weeks := seconds.tdiv 604800
  let secs := seconds - weeks * 604800
  let tow : Int := g.tow + secs
  if 0 ≤ weeks ∧ weeks ≤ 65535 then
    let wn : Int := ((g.wn : Int) + weeks) % 65536
    if tow < 0 then ofPartsRelease (wn - 1) (tow + 604800)
    else if tow ≥ 604800 then ofPartsRelease (wn + 1) (tow - 604800)
    else ofPartsRelease wn tow
  else .panic "u16::try_from(weeks).unwrap()"

/-- `Gst::add_subframes` (`gst.rs:103-105`) without overflow checks. -/
def addSubframesRelease (g : Gst) (n : Int) : Res Gst := g.addSecondsRelease (wrapI32 (n * 30))

end Gst

namespace Key
variable (C : Crypto)

/-- `Key::one_way_function` (`tesla.rs:681-700`) without overflow checks. -/
def oneWayFunctionRelease (k : Key) : Res Key := do
  let prev ← k.gst.addSecondsRelease (-30)
  let h := hash C k.chain (k.bytes ++ storeGst prev ++ beBytes 6 k.chain.alpha)
  pure ⟨padData (h.take k.chain.keySizeBytes), k.chain, prev⟩

/-- `Key::derive` (`tesla.rs:711-717`) without overflow checks. -/
def deriveRelease : Key → Nat → Res Key
  | k, 0 => .ok k
  | k, n + 1 =>
    match oneWayFunctionRelease C k with
    | .ok k' => deriveRelease k' n
    | .panic w => .panic w

/-- `Key::validate_key` (`tesla.rs:731-756`) without overflow checks. -/
def validateKeyRelease (self other : Key) : Res (Except ValidationError Key) := do
  if self.chain ≠ other.chain then pure (.error .DifferentChain)
  else if Gst.cmp self.gst other.gst ≠ .lt then pure (.error .DoesNotFollow)
  else do
    let derivations ← other.gst.subframesDifference self.gst
    Res.assert (decide (derivations ≥ 1)) "derivations >= 1"
    if derivations > 3000 then pure (.error .TooManyDerivations)
    else do
      let derived ← deriveRelease C other derivations.toNat
      Res.assert (derived.gst == self.gst) "derived_key.gst_subframe == self.gst_subframe"
      if derived.data.val.take self.chain.keySizeBytes = self.data.val.take self.chain.keySizeBytes
      then pure (.ok other)
      else pure (.error .WrongOneWayFunction)

/-- `Key::from_dsm_kroot` (`tesla.rs:591-624`) without overflow checks: the subtraction of 30 s (l.616-618) wraps. -/
def fromDsmKrootRelease (h : NmaHeader) (d : DsmKroot) (pk : PublicKey C) : Res (Except KrootValidationError (Key × NmaHeader)) := do
  match ← Chain.fromDsmKroot d with
  | .error e => pure (.error (.WrongDsmKrootChain e))
  | .ok chain =>
    if !(← d.checkPadding C h) then pure (.error .WrongDsmKrootPadding)
    else do
      let f ← d.ecdsaFunction
      let verdict : Option KrootValidationError ← match pk.key, f with
        | .P256 key, .P256Sha256 => do
          if !(← d.checkSignatureP256 C h key) then pure (some .WrongEcdsa) else pure none
        | .P521 key, .P521Sha512 =>
          if C.p521 then do
            if !(← d.checkSignatureP521 C h key) then pure (some .WrongEcdsa) else pure none
          else pure (some .WrongEcdsaKeyType)
        | _, _ => pure (some .WrongEcdsaKeyType)
      match verdict with
      | some e => pure (.error e)
      | none =>
        let wn ← d.krootWn
        let towh ← d.krootTowh
        let gst ← if hwn : wn < 65536 then Gst.new wn (towh * 3600) hwn else .panic "unreachable"
        checkGst gst
        let gst ← gst.addSecondsRelease (-30)
        let kroot ← d.kroot
        let key ← fromSlice kroot gst chain
        pure (.ok (key, h))

end Key

namespace CollectNavMessage
variable (S : Storage)

/-- The search of the getters (`navmessage.rs:219-236`, `247-264`) without overflow checks. -/
def searchRelease (arr : List NavItem) (gsts : List (Option Gst)) (nbits : Nat) (svn : Svn) : List Nat → Res (Option NavMessageData)
  | [] => .ok none
  | i :: is =>
    match slot S arr i with
    | .panic w => .panic w
    | .ok s =>
      match s.find? (fun x => x.svn == some svn && decide (x.authbits ≥ MIN_AUTHBITS)) with
      | none => searchRelease arr gsts nbits svn is
      | some item => do
        let g ← Res.unwrap (← index gsts i) "self.gsts[gst_idx].unwrap()"
        let gst ← g.addSubframesRelease (-(item.minAge : Int))
        pure (some ⟨item.messageBits nbits, item.authbits, gst⟩)

variable (C : Crypto)

/-- `CollectNavMessage::process_mack` (`navmessage.rs:319-460`) without overflow checks. -/
def processMackRelease (n : CollectNavMessage) (mack : Mack) (key : Key) (prna : Svn) (gstMack : Gst) (st : NmaStatus) : Res CollectNavMessage := do
  let gstNav ← gstMack.addSecondsRelease (-30)
  let cop ← mack.cop
  let tag0 ← mack.tag0
  let n ← processCedTag S C n key tag0 cop gstMack gstNav prna prna 0 st
  let nt ← mack.numTags
  loopM (processTagJ S C key mack prna gstMack gstNav st) (List.range' 1 (nt - 1)) n

/-- `CollectNavMessage::process_mack_slowmac` (`navmessage.rs:478-535`) without overflow checks. -/
def processMackSlowmacRelease (n : CollectNavMessage) (mack : Mack) (key : Key) (prna : Svn) (gstMack : Gst) (st : NmaStatus) :
    Res CollectNavMessage := do
  let gstNav ← gstMack.addSecondsRelease (-30)
  let nt ← mack.numTags
  loopM (processSlowTagJ S C key mack prna gstMack gstNav st) (List.range' 1 (nt - 1)) n

end CollectNavMessage

namespace OsnmaData
variable {C : Crypto} (S : Storage)

/-- `OsnmaData::process_dsm_kroot` (`osnma.rs:266-286`) without overflow checks. -/
def processDsmKrootRelease (d : OsnmaData C) (k : DsmKroot) (h : NmaHeader) (gst : Gst) : Res (OsnmaData C) := do
  let pkid ← k.publicKeyId
  match ← d.pubkey.applicable pkid with
  | none => pure d
  | some pubkey =>
    match ← Key.fromDsmKrootRelease C h k pubkey with
    | .error _ => pure d
    | .ok (key, h) =>
      let pk ← d.pubkey.makeCurrent pkid
      let d := { d with pubkey := pk, key := d.key.storeKroot key h gst }
      pure (d.processNmaHeader h pkid)

/-- `OsnmaData::process_dsm` (`osnma.rs:259-264`) without overflow checks. -/
def processDsmRelease (d : OsnmaData C) (dsm : Dsm) (h : NmaHeader) (gst : Gst) : Res (OsnmaData C) :=
  match dsm.dsmType with
  | .Kroot => d.processDsmKrootRelease ⟨dsm.data⟩ h gst
  | .Pkr => d.processDsmPkr ⟨dsm.data⟩

/-- The fast-MAC part of the loop body of `process_tags` (`osnma.rs:456-468`) without overflow checks. -/
def processFastRelease (d : OsnmaData C) (key : Key) (gstMack : Gst) (svn : Svn) : Res (OsnmaData C) := do
  if d.onlySlowmac then pure d
  else
    match ← d.mack.get S svn gstMack with
    | none => pure d
    | some (m, st) =>
      let mack := Mack.new m key.chain.keySizeBits key.chain.tagSizeBits
      match ← validateMack (C := C) mack key svn gstMack with
      | none => pure d
      | some mack =>
        let nav ← d.navmessage.processMackRelease S C mack key svn gstMack st
        pure { d with navmessage := nav }

/-- The Slow MAC part of the loop body of `process_tags` (`osnma.rs:470-492`) without overflow checks. -/
def processSlowRelease (d : OsnmaData C) (key : Key) (slowKey : Option Key) (gstSlow : Gst) (svn : Svn) : Res (OsnmaData C) := do
  match slowKey with
  | none => pure d
  | some slowKey =>
    match ← d.mack.get S svn gstSlow with
    | none => pure d
    | some (m, st) =>
      let mack := Mack.new m key.chain.keySizeBits key.chain.tagSizeBits
      match ← validateMack (C := C) mack slowKey svn gstSlow with
      | none => pure d
      | some mack =>
        let nav ← d.navmessage.processMackSlowmacRelease S C mack key svn gstSlow st
        pure { d with navmessage := nav }

/-- The key of the MACSEQ of the Slow MAC MACK (`osnma.rs:445-454`) without overflow checks. -/
def slowmacKeyRelease (d : OsnmaData C) (key : Key) : Res (Option Key) := do
  let gstK ← key.gst.addSecondsRelease (-300)
  match d.key.keyPastChain gstK with
  | none => pure none
  | some k =>
    let derivations ← k.gst.subframesDifference gstK
    if derivations ≥ 0 then do
      let r ← k.deriveRelease C derivations.toNat
      pure (some r)
    else pure none

/-- `OsnmaData::process_tags` (`osnma.rs:440-494`) without overflow checks. -/
def processTagsRelease (d : OsnmaData C) (key : Key) : Res (OsnmaData C) := do
  let gstMack ← key.gst.addSecondsRelease (-30)
  let gstSlow ← gstMack.addSecondsRelease (-300)
  let slowKey ← d.slowmacKeyRelease key
  loopM (fun d svn => do
    let d ← processFastRelease S d key gstMack svn
    processSlowRelease S d key slowKey gstSlow svn) Svn.iter d

/-- `OsnmaData::validate_key` (`osnma.rs:400-438`) without overflow checks. -/
def validateKeyRelease (d : OsnmaData C) (m : MackMessage) (gst : Gst) : Res (OsnmaData C) := do
  match d.key.currentKey with
  | none => pure d
  | some cur =>
    let mack := Mack.new m cur.chain.keySizeBits cur.chain.tagSizeBits
    let kb ← mack.key
    let newKey ← Key.fromBitslice kb gst cur.chain
    match Gst.cmp cur.gst newKey.gst with
    | .eq => pure d
    | .gt => pure d
    | .lt =>
      match ← cur.validateKeyRelease C newKey with
      | .ok valid =>
        let ks ← d.key.storeKey valid
        processTagsRelease S { d with key := ks } valid
      | .error _ => pure d

end OsnmaData

/-- `OsnmaDsm::process_subframe` (`osnma.rs:238-255`) without overflow checks. -/
def OsnmaDsm.processSubframeRelease {C : Crypto} (S : Storage) (o : OsnmaDsm C) (hkroot : HkrootMessage) (mack : MackMessage) (svn : Svn) (gst : Gst) :
    Res (OsnmaDsm C) := do
  let b0 ← index hkroot.val 0
  let h : NmaHeader := ⟨b0⟩
  let ms ← o.data.mack.store S mack svn gst h.nmaStatus
  let data := { o.data with mack := ms }
  let b1 ← index hkroot.val 1
  let block ← CollectSubframe.toBytes 13 (hkroot.val.drop 2)
  let (dsm, out) ← o.dsm.feed ⟨b1⟩ block
  let data ← match out with
    | some x => data.processDsmRelease x h gst
    | none => pure data
  let data ← data.validateKeyRelease S mack gst
  pure ⟨dsm, data⟩

namespace Osnma
variable {C : Crypto} (S : Storage)

/-- `Osnma::feed_osnma` (`osnma.rs:205-213`) without overflow checks. -/
def feedOsnmaRelease (o : Osnma C) (osnma : OsnmaDataMessage) (svn : Svn) (gst : Gst) : Res (Osnma C) := do
  if osnma.val.all (fun x => x == 0#8) then pure o
  else do
    let (sf, out) ← o.subframe.feed osnma svn gst
    match out with
    | some (hk, m, g) =>
      let data ← o.data.processSubframeRelease S hk m svn g
      pure ⟨sf, data⟩
    | none => pure { o with subframe := sf }

/-- `Osnma::get_ced_and_status` (`osnma.rs:222-224`, `navmessage.rs:217-237`) without overflow checks. -/
def getCedAndStatusRelease (o : Osnma C) (svn : Svn) : Res (Option NavMessageData) :=
  CollectNavMessage.searchRelease S o.data.data.navmessage.ced o.data.data.navmessage.gsts CED_BITS svn
    (CollectNavMessage.searchOrder S o.data.data.navmessage.writePointer)

/-- `Osnma::get_timing_parameters` (`osnma.rs:232-234`, `navmessage.rs:245-265`) without overflow checks. -/
def getTimingParametersRelease (o : Osnma C) (svn : Svn) : Res (Option NavMessageData) :=
  CollectNavMessage.searchRelease S o.data.data.navmessage.timing o.data.data.navmessage.gsts TIMING_BITS svn
    (CollectNavMessage.searchOrder S o.data.data.navmessage.writePointer)

end Osnma

/-- One call, without overflow checks; `feed_inav` (`osnma.rs:192-194`) is the same in both builds. -/
def Call.runRelease {C : Crypto} (S : Storage) (o : Osnma C) : Call → Res (Osnma C)
  | .inav w s g b => o.feedInav S w s g b
  | .osnma d s g => o.feedOsnmaRelease S d s g

/-- The calls in order, without overflow checks. -/
def runRelease {C : Crypto} (S : Storage) (o : Osnma C) (calls : List Call) : Res (Osnma C) := loopM (fun o c => c.runRelease S o) calls o

end Verif
