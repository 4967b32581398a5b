import Verif.Model.Tesla

/-! # `galileo-osnma/src/navmessage.rs` -/

namespace Verif

/-- `MIN_AUTHBITS` (`navmessage.rs:21`). -/
def MIN_AUTHBITS : Nat := 40
/-- `CED_AND_STATUS_BITS` (`navmessage.rs:635`). -/
def CED_BITS : Nat := 549
/-- `TIMING_PARAMETERS_BITS` (`navmessage.rs:649`). -/
def TIMING_BITS : Nat := 141

/-- `CedAndStatus` (`navmessage.rs:641-646`) and `TimingParameters` (l.655-660), which the macro
`impl_common!` (l.669-758) gives the same code.  `data` is the bit view of the byte array (552 bits
for CED, 144 for timing parameters); ages are `u8`, `authbits` is a `u16`. -/
structure NavItem where
  data : List Bool
  age : List Nat
  svn : Option Svn
  authbits : Nat
  deriving DecidableEq

namespace NavItem

/-- `$s::new` (`navmessage.rs:672-679`) for given sizes. -/
def new (nbits nwords : Nat) : NavItem :=
  ⟨List.replicate nbits false, List.replicate nwords 255, none, 0⟩

/-- `CedAndStatus::default()`. -/
def newCed : NavItem := new 552 5
/-- `TimingParameters::default()`. -/
def newTiming : NavItem := new 144 2

/-- `$s::reset` (`navmessage.rs:681-685`). -/
def reset (x : NavItem) : NavItem :=
  { x with age := x.age.map (fun _ => 255), authbits := 0, svn := none }

/-- `$s::max_age` (`navmessage.rs:695-697`); the array is never empty. -/
def maxAge (x : NavItem) : Nat := x.age.foldl max 0

/-- `$s::min_age` (`navmessage.rs:699-701`); the array is never empty and ages are at most 255. -/
def minAge (x : NavItem) : Nat := x.age.foldl min 255

/-- `$s::copy_word` (`navmessage.rs:703-715`); the ranges used are constants within the data. -/
def copyWord (x : NavItem) (lo hi : Nat) (source : List Bool) (idx : Nat) : NavItem :=
  let x := { x with age := x.age.set idx 0 }
  if (x.data.drop lo).take (hi - lo) ≠ source then
    { x with data := x.data.take lo ++ source ++ x.data.drop hi, authbits := 0 }
  else x

/-- `AuthBits::message_bits` (`navmessage.rs:739-741`). -/
def messageBits (nbits : Nat) (x : NavItem) : List Bool := x.data.take nbits

/-- `AuthBits::add_authbits` (`navmessage.rs:743-745`); `u16` saturating addition. -/
def addAuthbits (x : NavItem) (len : Nat) : NavItem :=
  { x with authbits := min 65535 (x.authbits + len) }

/-- `AuthBits::reset_authbits` (`navmessage.rs:747-749`). -/
def resetAuthbits (x : NavItem) : NavItem := { x with authbits := 0 }

/-- Assignment of the item to a satellite, first lines of both `feed` functions
(`navmessage.rs:775-782`, `803-810`). -/
def assign (x : NavItem) (svn : Svn) : NavItem :=
  match x.svn with
  | some s => if s = svn then x else { x.reset with svn := some svn }
  | none => { x with svn := some svn }

/-- Bits `lo..hi` of a word. -/
def wbits (word : InavWord) (lo hi : Nat) : List Bool := ((bitsOf word.val).drop lo).take (hi - lo)

/-- `word[..6].load_be::<u8>()` (`navmessage.rs:785, 813`). -/
def wordType (word : InavWord) : Nat := loadBe (wbits word 0 6)

/-- `CedAndStatus::feed` (`navmessage.rs:774-798`). -/
def feedCed (x : NavItem) (word : InavWord) (svn : Svn) : NavItem :=
  let x := x.assign svn
  match wordType word with
  | 1 => x.copyWord 0 120 (wbits word 6 126) 0
  | 2 => x.copyWord 120 240 (wbits word 6 126) 1
  | 3 => x.copyWord 240 362 (wbits word 6 128) 2
  | 4 => x.copyWord 362 482 (wbits word 6 126) 3
  | 5 => x.copyWord 482 549 (wbits word 6 73) 4
  | _ => x

/-- `TimingParameters::feed` (`navmessage.rs:802-826`). -/
def feedTiming (x : NavItem) (word : InavWord) (svn : Svn) (band : InavBand) : NavItem :=
  let x := x.assign svn
  match wordType word, band with
  | 6, .E1B => x.copyWord 0 99 (wbits word 6 105) 0
  | 10, .E1B => x.copyWord 99 141 (wbits word 86 128) 1
  | _, _ => x

/-- Key of the selection of the location for a satellite (`navmessage.rs:100-104`, `119-123`). -/
def placeKey (svn : Svn) (x : NavItem) : Nat :=
  match x.svn with
  | some s => if s = svn then 257 else x.maxAge
  | none => 256

/-- One step of ageing (`navmessage.rs:199-201`, `204-206`), `u8` saturating. -/
def older (x : NavItem) : NavItem := { x with age := x.age.map (fun a => min 255 (a + 1)) }

end NavItem

/-- `Iterator::max_by_key`: position (and key) of the *last* maximal element. -/
def argmaxLast : List Nat → Option (Nat × Nat)
  | [] => none
  | k :: ks =>
    match argmaxLast ks with
    | none => some (0, k)
    | some (i, m) => if m < k then some (0, k) else some (i + 1, m)

/-- `NavMessageData` (`navmessage.rs:41-45`). -/
structure NavMessageData where
  data : List Bool
  authbits : Nat
  gst : Gst
  deriving DecidableEq

/-- `CollectNavMessage` (`navmessage.rs:28-33`). -/
structure CollectNavMessage where
  ced : List NavItem
  timing : List NavItem
  gsts : List (Option Gst)
  writePointer : Nat
  deriving DecidableEq

namespace CollectNavMessage

variable (S : Storage)

/-- `CollectNavMessage::new` (`navmessage.rs:72-79`). -/
def new : CollectNavMessage where
  ced := List.replicate S.navDepthSats NavItem.newCed
  timing := List.replicate S.navDepthSats NavItem.newTiming
  gsts := List.replicate S.navDepth none
  writePointer := 0

/-- The items of the slot `i`: `arr[i * NUM_SATS..(i + 1) * NUM_SATS]`
(`navmessage.rs:187-195` and elsewhere). -/
def slot (arr : List NavItem) (i : Nat) : Res (List NavItem) :=
  slice arr (i * S.numSats) ((i + 1) * S.numSats)

/-- `copy_within(src_slot, dest_slot)` (`navmessage.rs:146-153`). -/
def copySlot (arr : List NavItem) (src dst : Nat) : Res (List NavItem) := do
  let s ← slot S arr src
  writeSlice arr (dst * S.numSats) s

/-- Ageing of the items of one slot (`navmessage.rs:197-208`). -/
def ageSlot (arr : List NavItem) (i : Nat) : Res (List NavItem) := do
  let s ← slot S arr i
  writeSlice arr (i * S.numSats) (s.map NavItem.older)

/-- `CollectNavMessage::adjust_write_pointer` (`navmessage.rs:133-185`). -/
def adjustWritePointer (n : CollectNavMessage) (gst : Gst) : Res CollectNavMessage := do
  let g ← index n.gsts n.writePointer
  let n ← match g with
    | some g =>
      if g ≠ gst then do
        let newPointer := (n.writePointer + 1) % S.navDepth
        let ced ← copySlot S n.ced n.writePointer newPointer
        let timing ← copySlot S n.timing n.writePointer newPointer
        let ced ← ageSlot S ced newPointer
        let timing ← ageSlot S timing newPointer
        pure { n with ced := ced, timing := timing, writePointer := newPointer }
      else pure n
    | none => pure n
  let gsts ← setIndex n.gsts n.writePointer (some gst)
  pure { n with gsts := gsts }

/-- Select a location in the current slot for the satellite and update it with `f`
(`navmessage.rs:97-111` and `116-130`). -/
def updateSelected (arr : List NavItem) (wp : Nat) (svn : Svn) (f : NavItem → NavItem) :
    Res (List NavItem) := do
  let s ← slot S arr wp
  let (i, _) ← Res.unwrap (argmaxLast (s.map (NavItem.placeKey svn))) "max_by_key().unwrap()"
  let x ← index s i
  let s ← setIndex s i (f x)
  writeSlice arr (wp * S.numSats) s

/-- `CollectNavMessage::feed` (`navmessage.rs:89-131`). -/
def feed (n : CollectNavMessage) (word : InavWord) (svn : Svn) (gst : Gst) (band : InavBand) :
    Res CollectNavMessage := do
  let gst := gst.subframe
  let n ← adjustWritePointer S n gst
  let ced ← updateSelected S n.ced n.writePointer svn (fun x => x.feedCed word svn)
  let timing ← updateSelected S n.timing n.writePointer svn (fun x => x.feedTiming word svn band)
  pure { n with ced := ced, timing := timing }

/-- The search of the getters over the slots `idxs` (`navmessage.rs:219-236`, `247-264`). -/
def search (arr : List NavItem) (gsts : List (Option Gst)) (nbits : Nat) (svn : Svn) :
    List Nat → Res (Option NavMessageData)
  | [] => .ok none
  | i :: is =>
    match slot S arr i with
    | .panic w => .panic w
    | .ok s =>
      match s.find? (fun x => x.svn == some svn && decide (x.authbits ≥ MIN_AUTHBITS)) with
      | none => search arr gsts nbits svn is
      | some item => do
        let g ← Res.unwrap (← index gsts i) "self.gsts[gst_idx].unwrap()"
        let gst ← g.addSubframes (-(item.minAge : Int))
        pure (some ⟨item.messageBits nbits, item.authbits, gst⟩)

/-- Slot indices in the order in which the getters visit them:
`(depth + write_pointer - j) % depth` for `j` in `0..depth` (`navmessage.rs:219-221`). -/
def searchOrder (wp : Nat) : List Nat :=
  (List.range S.navDepth).map (fun j => (S.navDepth + wp - j) % S.navDepth)

/-- `CollectNavMessage::get_ced_and_status` (`navmessage.rs:217-237`). -/
def getCedAndStatus (n : CollectNavMessage) (svn : Svn) : Res (Option NavMessageData) :=
  search S n.ced n.gsts CED_BITS svn (searchOrder S n.writePointer)

/-- `CollectNavMessage::get_timing_parameters` (`navmessage.rs:245-265`). -/
def getTimingParameters (n : CollectNavMessage) (svn : Svn) : Res (Option NavMessageData) :=
  search S n.timing n.gsts TIMING_BITS svn (searchOrder S n.writePointer)

/-- `CollectNavMessage::find_gst` (`navmessage.rs:295-301`). -/
def findGst (n : CollectNavMessage) (gst : Gst) : Res (Option Nat) := do
  Res.assert gst.isSubframe "gst.is_subframe()"
  pure (n.gsts.findIdx? (fun g => g == some gst))

/-- `find_ced_and_status` (`navmessage.rs:267-272`) and `find_timing_parameters` (l.274-279). -/
def findItem (n : CollectNavMessage) (arr : List NavItem) (svn : Svn) (gst : Gst) :
    Res (Option NavItem) := do
  match ← n.findGst gst with
  | none => pure none
  | some i =>
    let s ← slot S arr i
    pure (s.find? (fun x => x.svn == some svn))

variable (C : Crypto)

/-- Whether the NMA status allows authentication bits to be added (`navmessage.rs:568`). -/
def statusCounts : NmaStatus → Bool
  | .Operational => true
  | .Test => true
  | _ => false

/-- `CollectNavMessage::validate_tag` (`navmessage.rs:538-581`) on an array of items whose message
bits are the first `nbits`.  The returned `bool` is dropped by all callers. -/
def validateTag (key : Key) (tag : List Bool) (gstTag : Gst) (prnd : Nat) (prna : Svn)
    (tagIdx : Nat) (st : NmaStatus) (nbits : Nat) (navdata : NavItem) (arr : List NavItem) :
    Res (List NavItem) := do
  Res.assert (decide (tagIdx + 1 ≤ 255)) "(tag_idx + 1).try_into().unwrap()"
  let ret ←
    if tagIdx = 0 then key.validateTag0 C tag gstTag prna st (navdata.messageBits nbits)
    else
      key.validateTag C tag gstTag (BitVec.ofNat 8 prnd) prna (BitVec.ofNat 8 (tagIdx + 1)) st
        (navdata.messageBits nbits)
  if ret && statusCounts st then
    pure (arr.map (fun x =>
      if navdata.svn = x.svn ∧ navdata.messageBits nbits = x.messageBits nbits then
        x.addAuthbits tag.length
      else x))
  else pure arr

/-- `CollectNavMessage::validate_dummy_tag` (`navmessage.rs:584-612`): only the verdict (which is
logged); no state is changed. -/
def validateDummyTag (key : Key) (tag : List Bool) (gstTag : Gst) (prnd : Nat) (prna : Svn)
    (tagIdx : Nat) (st : NmaStatus) (len : Nat) : Res Bool := do
  Res.assert (decide (tagIdx + 1 ≤ 255)) "(tag_idx + 1).try_into().unwrap()"
  if tagIdx = 0 then key.validateTag0Dummy C tag gstTag prna st len
  else
    key.validateTagDummy C tag gstTag (BitVec.ofNat 8 prnd) prna (BitVec.ofNat 8 (tagIdx + 1)) st
      len

/-- Handling of one CED tag with given COP and PRND: dummy check, or look-up and validation
(`navmessage.rs:329-357` for tag0, `381-409` for ADKD 0, `506-533` for ADKD 12). -/
def processCedTag (n : CollectNavMessage) (key : Key) (tag : List Bool) (cop : Nat) (gstMack : Gst)
    (gstNav : Gst) (prndSvn : Svn) (prna : Svn) (j : Nat) (st : NmaStatus) :
    Res CollectNavMessage := do
  if cop = 0 then do
    let _ ← validateDummyTag C key tag gstMack prndSvn.val prna j st CED_BITS
    pure n
  else do
    match ← findItem S n n.ced prndSvn gstNav with
    | some navdata =>
      if min 255 (navdata.maxAge + 1) ≤ cop then do
        let ced ← validateTag C key tag gstMack prndSvn.val prna j st CED_BITS navdata n.ced
        pure { n with ced := ced }
      else pure n
    | none => pure n

/-- Handling of one ADKD 4 tag (`navmessage.rs:415-450`). -/
def processTimingTag (n : CollectNavMessage) (key : Key) (tag : List Bool) (cop : Nat)
    (gstMack : Gst) (gstNav : Gst) (prndSvn : Svn) (prna : Svn) (j : Nat) (st : NmaStatus) :
    Res CollectNavMessage := do
  if cop = 0 then do
    let _ ← validateDummyTag C key tag gstMack prndSvn.val prna j st TIMING_BITS
    pure n
  else do
    match ← findItem S n n.timing prndSvn gstNav with
    | some navdata =>
      if min 255 (navdata.maxAge + 1) ≤ cop then do
        let timing ← validateTag C key tag gstMack prndSvn.val prna j st TIMING_BITS navdata n.timing
        pure { n with timing := timing }
      else pure n
    | none => pure n

/-- Body of the tag loop of `process_mack` (`navmessage.rs:361-459`). -/
def processTagJ (key : Key) (mack : Mack) (prna : Svn) (gstMack gstNav : Gst) (st : NmaStatus)
    (n : CollectNavMessage) (j : Nat) : Res CollectNavMessage := do
  let tag ← mack.tagAndInfo j
  match tag.prnd.toU8 with
  | none => pure n
  | some prnd =>
    match tag.adkd with
    | .InavCed =>
      match Svn.tryFrom prnd with
      | some s => processCedTag S C n key tag.tag tag.cop gstMack gstNav s prna j st
      | none => pure n
    | .InavTiming =>
      match Svn.tryFrom prnd with
      | some s => processTimingTag S C n key tag.tag tag.cop gstMack gstNav s prna j st
      | none => pure n
    | .SlowMac => pure n
    | .Reserved => pure n

/-- `CollectNavMessage::process_mack` (`navmessage.rs:319-460`). -/
def processMack (n : CollectNavMessage) (mack : Mack) (key : Key) (prna : Svn) (gstMack : Gst)
    (st : NmaStatus) : Res CollectNavMessage := do
  let gstNav ← gstMack.addSeconds (-30)
  let cop ← mack.cop
  let tag0 ← mack.tag0
  let n ← processCedTag S C n key tag0 cop gstMack gstNav prna prna 0 st
  let nt ← mack.numTags
  loopM (processTagJ S C key mack prna gstMack gstNav st) (List.range' 1 (nt - 1)) n

/-- Body of the loop of `process_mack_slowmac` (`navmessage.rs:487-534`). -/
def processSlowTagJ (key : Key) (mack : Mack) (prna : Svn) (gstMack gstNav : Gst) (st : NmaStatus)
    (n : CollectNavMessage) (j : Nat) : Res CollectNavMessage := do
  let tag ← mack.tagAndInfo j
  if tag.adkd ≠ .SlowMac then pure n
  else
    match tag.prnd.toU8 with
    | none => pure n
    | some prnd =>
      match Svn.tryFrom prnd with
      | some s => processCedTag S C n key tag.tag tag.cop gstMack gstNav s prna j st
      | none => pure n

/-- `CollectNavMessage::process_mack_slowmac` (`navmessage.rs:478-535`). -/
def processMackSlowmac (n : CollectNavMessage) (mack : Mack) (key : Key) (prna : Svn)
    (gstMack : Gst) (st : NmaStatus) : Res CollectNavMessage := do
  let gstNav ← gstMack.addSeconds (-30)
  let nt ← mack.numTags
  loopM (processSlowTagJ S C key mack prna gstMack gstNav st) (List.range' 1 (nt - 1)) n

/-- `CollectNavMessage::reset_authbits` (`navmessage.rs:618-625`). -/
def resetAuthbits (n : CollectNavMessage) : CollectNavMessage :=
  { n with ced := n.ced.map NavItem.resetAuthbits, timing := n.timing.map NavItem.resetAuthbits }

end CollectNavMessage
end Verif
