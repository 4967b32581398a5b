import Verif.Model.Merkle
import Verif.Model.NavMessage

/-! # The low-level public API: what safe code can hold

The modules `bitfields`, `dsm`, `merkle_tree`, `navmessage` and `tesla` are public (`lib.rs`), so a program
can do its own processing with them.  The type parameter `Validated`/`NotValidated` of `Key`, `NmaHeader`,
`Mack` and `PublicKey` has private fields behind it: the only values of a `Validated` type that safe code
outside the crate can hold are those that public functions return.  The predicates of this file list, one
rule for each public function, the values that a program can obtain (`Copy` and `Clone` add nothing; the
private `Key::force_valid` and `NmaHeader::force_valid` and struct literals are not available outside the
crate).  The rules are closed under any order and any number of calls. -/

namespace Verif
variable (C : Crypto)

/-- The values of type `PublicKey<Validated>` of a program that calls `force_valid` only on keys in
`trusted` and builds Merkle trees only from roots in `roots`. -/
inductive ApiPk (trusted : PublicKey C → Prop) (roots : MerkleTreeNode → Prop) : PublicKey C → Prop
  /-- `PublicKey::from_p256`, `from_p521` and `force_valid` (`merkle_tree.rs:194-233`). -/
  | forced {pk : PublicKey C} (h : trusted pk) : ApiPk trusted roots pk
  /-- `MerkleTree::new` and `validate_pkr` (`merkle_tree.rs:24-46`). -/
  | proved {root : MerkleTreeNode} {d : DsmPkr} {pk : PublicKey C} (hr : roots root)
      (h : Merkle.validatePkr C root d = .ok (.ok pk)) : ApiPk trusted roots pk

variable (pks : PublicKey C → Prop)

/-- The values of type `Key<Validated>` (`true`) and `Key<NotValidated>` (`false`) of a program whose
validated public keys are in `pks`.  Any `Chain` and any `Gst` can be had. -/
inductive ApiKey : Bool → Key → Prop
  /-- `Key::from_bitslice` (`tesla.rs:525-535`). -/
  | fromBitslice {bits : List Bool} {gst : Gst} {chain : Chain} {k : Key}
      (h : Key.fromBitslice bits gst chain = .ok k) : ApiKey false k
  /-- `Key::from_slice` (`tesla.rs:546-556`). -/
  | fromSlice {bytes : List Byte} {gst : Gst} {chain : Chain} {k : Key}
      (h : Key.fromSlice bytes gst chain = .ok k) : ApiKey false k
  /-- `Key::from_dsm_kroot` (`tesla.rs:591-624`). -/
  | fromDsmKroot {h h' : NmaHeader} {d : DsmKroot} {pk : PublicKey C} {k : Key} (hpk : pks pk)
      (hk : Key.fromDsmKroot C h d pk = .ok (.ok (k, h'))) : ApiKey true k
  /-- `Key::one_way_function` (`tesla.rs:681-700`) keeps the validation status. -/
  | oneWayFunction {v : Bool} {k k' : Key} (hk : ApiKey v k) (h : k.oneWayFunction C = .ok k') : ApiKey v k'
  /-- `Key::derive` (`tesla.rs:711-717`) keeps the validation status. -/
  | derive {v : Bool} {k k' : Key} {n : Nat} (hk : ApiKey v k) (h : k.derive C n = .ok k') : ApiKey v k'
  /-- `Key::validate_key` (`tesla.rs:731-756`). -/
  | validateKey {v : Bool} {k other k' : Key} (hk : ApiKey true k) (ho : ApiKey v other)
      (h : k.validateKey C other = .ok (.ok k')) : ApiKey true k'

/-- The values of type `NmaHeader<Validated>`: only `Key::from_dsm_kroot` returns them (`tesla.rs:620-623`). -/
inductive ApiHeader : NmaHeader → Prop
  | fromDsmKroot {h h' : NmaHeader} {d : DsmKroot} {pk : PublicKey C} {k : Key} (hpk : pks pk)
      (hk : Key.fromDsmKroot C h d pk = .ok (.ok (k, h'))) : ApiHeader h'

/-- The values of type `Mack<Validated>`: only `Mack::validate` returns them (`bitfields.rs:870-893`). -/
inductive ApiMack : Mack → Prop
  | validate {msg : MackMessage} {keySize tagSize : Nat} {m : Mack} {k : Key} {prna : Svn} {gst : Gst}
      (hk : ApiKey C pks true k) (h : (Mack.new msg keySize tagSize).validate C k prna gst = .ok (.ok m)) : ApiMack m

/-- A call of a method of `CollectNavMessage` that changes it (`navmessage.rs:89, 319, 478, 618`).  The MACKs
are made by `Mack::new` with the key and tag sizes of a chain, as its documentation demands
(`bitfields.rs:696-709`); programs that use sizes of no chain are not modelled. -/
inductive NavOp where
  | feed (word : InavWord) (svn : Svn) (gst : Gst) (band : InavBand)
  | processMack (msg : MackMessage) (c : Chain) (key : Key) (prna : Svn) (gst : Gst) (st : NmaStatus)
  | processMackSlowmac (msg : MackMessage) (c : Chain) (key : Key) (prna : Svn) (gst : Gst) (st : NmaStatus)
  | resetAuthbits

/-- The call (`navmessage.rs:89-131, 319-460, 478-535, 618-625`). -/
def NavOp.run (S : Storage) (n : CollectNavMessage) : NavOp → Res CollectNavMessage
  | .feed word svn gst band => n.feed S word svn gst band
  | .processMack msg c key prna gst st => n.processMack S C (.new msg c.keySizeBits c.tagSizeBits) key prna gst st
  | .processMackSlowmac msg c key prna gst st => n.processMackSlowmac S C (.new msg c.keySizeBits c.tagSizeBits) key prna gst st
  | .resetAuthbits => .ok n.resetAuthbits

/-- The types of the arguments: MACKs and keys are `Validated` (`navmessage.rs:321-322, 480-481`). -/
def NavOp.Typed : NavOp → Prop
  | .feed _ _ _ _ => True
  | .processMack msg c key _ _ _ => ApiMack C pks (.new msg c.keySizeBits c.tagSizeBits) ∧ ApiKey C pks true key
  | .processMackSlowmac msg c key _ _ _ => ApiMack C pks (.new msg c.keySizeBits c.tagSizeBits) ∧ ApiKey C pks true key
  | .resetAuthbits => True

/-- `CollectNavMessage::new` (`navmessage.rs:72-79`) followed by calls. -/
def navCalls (S : Storage) (ops : List NavOp) : Res CollectNavMessage :=
  loopM (NavOp.run C S) ops (.new S)

end Verif
