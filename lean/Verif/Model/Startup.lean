import Verif.Model.Galmon
import Verif.Model.Serial

/-! # Start-up of the programs: from the arguments and files of the user to the black box

Strings are lists of characters.  PEM files (`from_public_key_pem`) and the parsing of the command line (`clap`) are left to the
libraries: reading a file gives a P-256 key or fails. -/

namespace Verif

/-- `Args` of `galmon-osnma` (`galmon-osnma.rs:13-31`). -/
structure Args where
  merkleRoot : Option (List Char)
  pubkey : Option (List Char)
  pubkeyP521 : Option (List Char)
  pkid : Option (Fin 256)
  slowMacOnly : Bool

/-- How `main` fails before reading packets (`galmon-osnma.rs:51-85`). -/
inductive StartError
  | nothingGiven
  | bothKeys
  | idMissing
  | keyMissing
  | badKey
  | badRoot
  deriving DecidableEq

/-- `Option::unwrap`. -/
def unwrapOpt {α : Type} (x : Option α) : Res α :=
  match x with
  | some a => .ok a
  | none => .panic "unwrap"

section
variable {C : Crypto}

/-- `load_pubkey` (`galmon-osnma.rs:33-39`); `pem path` is the key in the file, if it can be read. -/
def loadPubkey (pem : List Char → Option C.P256Key) (path : List Char) (pkid : Nat) : Except StartError (PublicKey C) :=
  match pem path with
  | some k => .ok ⟨.P256 k, pkid⟩
  | none => .error .badKey

/-- `load_pubkey_p521` (`galmon-osnma.rs:41-45`). -/
def loadPubkeyP521 (C : Crypto) (hex : List Char) (pkid : Nat) : Except StartError (PublicKey C) :=
  match hexDecode (hex.map Char.toNat) with
  | none => .error .badKey
  | some b =>
    match C.p521FromSec1 b with
    | some k => .ok ⟨.P521 k, pkid⟩
    | none => .error .badKey

/-- The choice of the public key (`galmon-osnma.rs:73-79`). -/
def choosePubkey (C : Crypto) (pem : List Char → Option C.P256Key) (a : Args) : Res (Except StartError (Option (PublicKey C))) :=
  match a.pubkey with
  | some path => do
    let id ← unwrapOpt a.pkid
    match loadPubkey pem path id.val with
    | .ok k => .ok (.ok (some k))
    | .error e => .ok (.error e)
  | none =>
    match a.pubkeyP521 with
    | some hex => do
      let id ← unwrapOpt a.pkid
      match loadPubkeyP521 C hex id.val with
      | .ok k => .ok (.ok (some k))
      | .error e => .ok (.error e)
    | none => .ok (.ok none)

/-- The black box (`galmon-osnma.rs:81-91`). -/
def constructOsnma (a : Args) (pubkey : Option (PublicKey C)) : Res (Except StartError (Osnma C)) :=
  match a.merkleRoot with
  | some hex =>
    match hexDecode (hex.map Char.toNat) with
    | none => .ok (.error .badRoot)
    | some l =>
      if h : l.length = 32 then .ok (.ok (Osnma.fromMerkleTree FullStorage ⟨l, h⟩ pubkey a.slowMacOnly))
      else .ok (.error .badRoot)
  | none => do
    let k ← unwrapOpt pubkey
    pure (.ok (Osnma.fromPubkey FullStorage k a.slowMacOnly))

/-- `main` of `galmon-osnma` up to the construction of the black box (`galmon-osnma.rs:47-91`). -/
def galmonStart (C : Crypto) (pem : List Char → Option C.P256Key) (a : Args) : Res (Except StartError (Osnma C)) :=
  if a.merkleRoot.isNone && a.pubkey.isNone && a.pubkeyP521.isNone then .ok (.error .nothingGiven)
  else if a.pubkey.isSome && a.pubkeyP521.isSome then .ok (.error .bothKeys)
  else if a.pubkey.isSome && a.pkid.isNone then .ok (.error .idMissing)
  else if a.pubkeyP521.isSome && a.pkid.isNone then .ok (.error .idMissing)
  else if a.pkid.isSome && a.pubkey.isNone && a.pubkeyP521.isNone then .ok (.error .keyMissing)
  else do
    match ← choosePubkey C pem a with
    | .error e => pure (.error e)
    | .ok k => constructOsnma a k

/-- `main` of `galmon-osnma` (`galmon-osnma.rs:47-219`). -/
def galmonProgram (N : Navmon) (checks : Bool) (pem : List Char → Option C.P256Key) (a : Args) (input : Source) :
    Res (Except StartError (GalmonOsnma C × Option IoError)) := do
  match ← galmonStart C pem a with
  | .error e => pure (.error e)
  | .ok o => do
    let r ← galmonOsnmaMain FullStorage N checks o input
    pure (.ok r)

/-! ## Firmware -/

/-- `str::trim` (`osnma-longan-nano/build.rs:12, 31`). -/
def trimText (s : List Nat) : List Nat := ((s.dropWhile isWhitespace).reverse.dropWhile isWhitespace).reverse

/-- The constants that `build.rs` puts into the firmware (`osnma-longan-nano/build.rs:16-26, 36-42`).  Writing them as Rust source and
compiling that is not modelled. -/
structure FirmwareConsts where
  pubkey : List Byte
  pubkeyId : Nat
  root : MerkleTreeNode

/-- `main` of `build.rs` (`osnma-longan-nano/build.rs:6-14, 28-34, 44-59`): the key of `pubkey.pem` in compressed SEC1 encoding
(`to_encoded_point(true)`), and the contents of `pubkey_id.txt` and `merkle_tree_root.txt`.  A panic is a failed build. -/
def firmwareBuild (sec1 : C.P256Key → List Byte) (pem : Option C.P256Key) (idText rootText : List Char) : Res FirmwareConsts := do
  let key ← unwrapOpt pem
  let id ← unwrapOpt (parseUint (2 ^ 8) (trimText (idText.map Char.toNat)))
  let l ← unwrapOpt (hexDecode (trimText (rootText.map Char.toNat)))
  if h : l.length = 32 then pure ⟨sec1 key, id, ⟨l, h⟩⟩ else .panic "try_into().unwrap()"

/-- `OsnmaInterface::new` (`osnma-longan-nano/src/main.rs:82-88`). -/
def firmwareStart (C : Crypto) (k : FirmwareConsts) : Res (Firmware C) := do
  let key ← unwrapOpt (C.p256FromSec1 k.pubkey)
  pure (Firmware.new (Osnma.fromMerkleTree SmallStorage k.root (some ⟨.P256 key, k.pubkeyId⟩) false))

end
end Verif
