import Verif.Model.Tesla

/-! # `galileo-osnma/src/merkle_tree.rs` -/

namespace Verif

/-- `PkrError` (`merkle_tree.rs:137-151`). -/
inductive PkrError where
  | ReservedField | Invalid | NoPublicKey | NotAlert | P521NotSupported
  deriving DecidableEq, Repr

namespace Merkle

variable (C : Crypto)

/-- `MerkleTree::hash_leaf` (`merkle_tree.rs:93-97`). -/
def hashLeaf (leaf : List Byte) : List Byte := C.sha256 leaf

/-- `MerkleTree::calc_node` (`merkle_tree.rs:99-104`). -/
def calcNode (left right : List Byte) : List Byte := C.sha256 (left ++ right)

/-- The loop of `MerkleTree::validate` (`merkle_tree.rs:76-85`), from level `j` with `n` levels
left. -/
def climb (d : DsmPkr) : Nat → Nat → Nat → List Byte → Res (List Byte)
  | 0, _, _, node => .ok node
  | n + 1, j, id, node =>
    match d.intermediateTreeNode j with
    | .panic w => .panic w
    | .ok itn =>
      let node' := if id % 2 = 0 then calcNode C node itn else calcNode C itn node
      climb d n (j + 1) (id / 2) node'

/-- `MerkleTree::validate` (`merkle_tree.rs:69-91`). -/
def validate (root : MerkleTreeNode) (d : DsmPkr) : Res (Except PkrError Unit) := do
  match ← d.merkleTreeLeaf with
  | none => pure (.error .ReservedField)
  | some leaf =>
    let id ← d.messageId
    let node ← climb C d 4 0 id (hashLeaf C leaf)
    if node = root.val then pure (.ok ()) else pure (.error .Invalid)

/-- `MerkleTree::pubkey_from_pkr` (`merkle_tree.rs:106-132`). -/
def pubkeyFromPkr (d : DsmPkr) : Res (Except PkrError (PublicKey C)) := do
  let key ← Res.unwrap (← d.newPublicKey) "new_public_key().unwrap()"
  match ← d.newPublicKeyType with
  | .EcdsaKey .P256Sha256 => do
    let k ← Res.unwrap (C.p256FromSec1 key) "from_sec1_bytes(key).unwrap()"
    let pkid ← d.newPublicKeyId
    pure (.ok ⟨.P256 k, pkid⟩)
  | .EcdsaKey .P521Sha512 =>
    if C.p521 then do
      let k ← Res.unwrap (C.p521FromSec1 key) "from_sec1_bytes(key).unwrap()"
      let pkid ← d.newPublicKeyId
      pure (.ok ⟨.P521 k, pkid⟩)
    else pure (.error .P521NotSupported)
  | _ => .panic "unreachable"

/-- `MerkleTree::validate_pkr` (`merkle_tree.rs:40-46`). -/
def validatePkr (root : MerkleTreeNode) (d : DsmPkr) : Res (Except PkrError (PublicKey C)) := do
  match ← d.newPublicKeyType with
  | .EcdsaKey _ =>
    match ← validate C root d with
    | .error e => pure (.error e)
    | .ok () => pubkeyFromPkr C d
  | _ => pure (.error .NoPublicKey)

/-- `MerkleTree::validate_alert_message` (`merkle_tree.rs:59-67`). -/
def validateAlertMessage (root : MerkleTreeNode) (d : DsmPkr) : Res (Except PkrError Unit) := do
  match ← d.newPublicKeyType with
  | .OsnmaAlertMessage => validate C root d
  | _ => pure (.error .NoPublicKey)

end Merkle
end Verif
