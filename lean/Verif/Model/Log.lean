import Verif.Model.History

/-! # What the library reports with `log::info!` / `log::warn!` (`osnma.rs`)

Properties about public keys, root keys and TESLA keys quantify over the acceptance decisions of the
library.  These decisions are observable: each is reported through the `log` crate.  The functions below
give, for a call in a state, the list of acceptance messages that the call emits, in order.  They only
look at the state; the effects on the state are in `Model/Osnma.lean`. -/

namespace Verif

/-- The four acceptance messages. -/
inductive KeyEvent (C : Crypto) where
  /-- "verified KROOT with public key id" / "current NMA header" (`osnma.rs:278-279`): the DSM-KROOT
  `data`, completed in subframe `gst`, was accepted with public key `pk`, header `h`; it gives `key`. -/
  | kroot (h : NmaHeader) (data : List Byte) (pk : PublicKey C) (key : Key) (gst : Gst)
  /-- "verified public key in DSM-PKR" (`osnma.rs:380`). -/
  | pkr (data : List Byte) (pk : PublicKey C)
  /-- "received valid OSNMA Alert Message in DSM-PKR" (`osnma.rs:394`). -/
  | alert (data : List Byte)
  /-- "new TESLA key … successfully validated by …" (`osnma.rs:426`). -/
  | tesla (key : Key)

namespace OsnmaData
variable {C : Crypto}

/-- Messages of `process_dsm_kroot` (`osnma.rs:266-286`). -/
def krootEvents (d : OsnmaData C) (k : DsmKroot) (h : NmaHeader) (gst : Gst) : List (KeyEvent C) :=
  match k.publicKeyId with
  | .panic _ => []
  | .ok pkid =>
    match d.pubkey.applicable pkid with
    | .ok (some pk) =>
      match Key.fromDsmKroot C h k pk with
      | .ok (.ok (key, h)) => [.kroot h k.data pk key gst]
      | _ => []
    | _ => []

/-- Messages of `process_dsm_pkr` (`osnma.rs:362-398`). -/
def pkrEvents (d : OsnmaData C) (p : DsmPkr) : List (KeyEvent C) :=
  match p.newPublicKeyType, d.merkleTree with
  | .ok (.EcdsaKey _), some root =>
    match Merkle.validatePkr C root p with
    | .ok (.ok k) => [.pkr p.data k]
    | _ => []
  | .ok .OsnmaAlertMessage, some root =>
    match Merkle.validateAlertMessage C root p with
    | .ok (.ok ()) => [.alert p.data]
    | _ => []
  | _, _ => []

/-- Messages of `process_dsm` (`osnma.rs:259-264`). -/
def dsmEvents (d : OsnmaData C) (dsm : Dsm) (h : NmaHeader) (gst : Gst) : List (KeyEvent C) :=
  match dsm.dsmType with
  | .Kroot => d.krootEvents ⟨dsm.data⟩ h gst
  | .Pkr => d.pkrEvents ⟨dsm.data⟩

/-- Messages of `validate_key` (`osnma.rs:400-438`). -/
def teslaEvents (d : OsnmaData C) (m : MackMessage) (gst : Gst) : List (KeyEvent C) :=
  match d.key.currentKey with
  | none => []
  | some cur =>
    match (do
      let kb ← (Mack.new m cur.chain.keySizeBits cur.chain.tagSizeBits).key
      Key.fromBitslice kb gst cur.chain) with
    | .panic _ => []
    | .ok newKey =>
      match Gst.cmp cur.gst newKey.gst with
      | .lt =>
        match cur.validateKey C newKey with
        | .ok (.ok valid) => [.tesla valid]
        | _ => []
      | _ => []

end OsnmaData

/-- Messages of `process_subframe` (`osnma.rs:238-255`). -/
def OsnmaDsm.events {C : Crypto} (S : Storage) (o : OsnmaDsm C) (hkroot : HkrootMessage)
    (mack : MackMessage) (svn : Svn) (gst : Gst) : List (KeyEvent C) :=
  match (do
    let b0 ← index hkroot.val 0
    let ms ← o.data.mack.store S mack svn gst (NmaHeader.mk b0).nmaStatus
    let b1 ← index hkroot.val 1
    let block ← CollectSubframe.toBytes 13 (hkroot.val.drop 2)
    let (_, out) ← o.dsm.feed ⟨b1⟩ block
    pure (b0, ms, out) : Res (Byte × MackStorage × Option Dsm)) with
  | .panic _ => []
  | .ok (_, ms, none) => ({ o.data with mack := ms } : OsnmaData C).teslaEvents mack gst
  | .ok (b0, ms, some x) =>
    let data := { o.data with mack := ms }
    data.dsmEvents x ⟨b0⟩ gst ++
      (match data.processDsm x ⟨b0⟩ gst with
      | .ok data' => data'.teslaEvents mack gst
      | .panic _ => [])

/-- Messages of one call of `feed_inav` / `feed_osnma` (`osnma.rs:192-213`). -/
def Osnma.events {C : Crypto} (S : Storage) (o : Osnma C) : Call → List (KeyEvent C)
  | .inav .. => []
  | .osnma data svn gst =>
    if data.val.all (fun x => x == 0#8) then []
    else
      match o.subframe.feed data svn gst with
      | .ok (_, some (hk, m, g)) => o.data.events S hk m svn g
      | _ => []

/-- A run that does not panic, with everything it logged: `Logs S o0 hist log o` when the calls `hist`
lead from `o0` to `o` and emit the messages `log`. -/
inductive Logs {C : Crypto} (S : Storage) (o0 : Osnma C) : List Call → List (KeyEvent C) → Osnma C → Prop
  | nil : Logs S o0 [] [] o0
  | snoc {hist : List Call} {log : List (KeyEvent C)} {o o' : Osnma C} (c : Call)
      (h : Logs S o0 hist log o) (hc : c.run S o = .ok o') :
      Logs S o0 (hist ++ [c]) (log ++ o.events S c) o'

end Verif
