import Verif.Model.Log
import Verif.Spec.KrootSpec

/-! # Specification: what the acceptance messages of a run must look like

Everything here is about the list of acceptance messages (`KeyEvent`) and the trust anchors given at
construction, not about the state of the library. -/

namespace Verif
variable {C : Crypto}

/-- The message reports an alert: a Merkle-verified alert message, or a verified KROOT whose NMA header
announces an alert. -/
def KeyEvent.IsAlert : KeyEvent C → Prop
  | .alert _ => True
  | .kroot h _ _ _ _ => h.cpks = .AlertMessage
  | _ => False

/-- The message reports a verified NMA header that revokes chain `c`. -/
def KeyEvent.Revokes (c : Nat) : KeyEvent C → Prop
  | .kroot h _ _ _ _ => h.nmaStatus = .DontUse ∧ (h.cpks = .ChainRevoked ∨ h.cpks = .PublicKeyRevoked) ∧ h.chainId = c
  | _ => False

/-- The message reports a verified KROOT of chain `c`. -/
def KeyEvent.KrootOf (c : Nat) : KeyEvent C → Prop
  | .kroot _ _ _ key _ => key.chain.id = c
  | _ => False

/-- The message reports something that makes the library forget the TESLA key of chain `c`: a header
that revokes the chain, or a KROOT of another chain that also announces another chain in force, which
may take the place of the key. -/
def KeyEvent.Drops (c : Nat) : KeyEvent C → Prop
  | .kroot h data pk key g => (KeyEvent.kroot h data pk key g).Revokes c ∨ (key.chain.id ≠ c ∧ h.chainId ≠ c)
  | _ => False

/-- The message reports nothing about the keys of chain `c` in force, except possibly fresh KROOTs under
headers that confirm that chain `c` is in force. -/
def KeyEvent.Confirms (c : Nat) : KeyEvent C → Prop
  | .kroot h data pk key g => h.chainId = c ∧ ¬ (KeyEvent.kroot h data pk key g).Revokes c ∧ ¬ (KeyEvent.kroot h data pk key g).IsAlert
  | .pkr _ _ => True
  | _ => False

/-- The NMA header of a verified KROOT. -/
def KeyEvent.header? : KeyEvent C → Option NmaHeader
  | .kroot h _ _ _ _ => some h
  | _ => none

/-- The last verified NMA header. -/
def lastHeader (log : List (KeyEvent C)) : Option NmaHeader := (log.filterMap KeyEvent.header?).getLast?

/-- Chain `c` was revoked and no KROOT of it was verified since. -/
def ChainRevokedIn (log : List (KeyEvent C)) (c : Nat) : Prop :=
  ∃ l₁ ev l₂, log = l₁ ++ ev :: l₂ ∧ ev.Revokes c ∧ ∀ e ∈ l₂, ¬ e.KrootOf c

/-- An alert was reported. -/
def AlertIn (log : List (KeyEvent C)) : Prop := ∃ e ∈ log, e.IsAlert

/-- A public key is trusted: it is the one given at construction, or was proved by a DSM-PKR. -/
def TrustedPk (pk0 : Option (PublicKey C)) (log : List (KeyEvent C)) (pk : PublicKey C) : Prop :=
  pk0 = some pk ∨ ∃ data, KeyEvent.pkr data pk ∈ log

/-- A TESLA key derives, through the one-way function of its chain, to the root key of a verified KROOT. -/
def RootedKey (log : List (KeyEvent C)) (k : Key) : Prop :=
  ∃ h data pk kr g n, KeyEvent.kroot h data pk kr g ∈ log ∧ kr.chain = k.chain ∧
    Derives C k.chain n (k.gst, k.bytes) (kr.gst, kr.bytes)

/-- When a message may follow the messages `before`. -/
def KeyEvent.Justified (root0 : Option MerkleTreeNode) (pk0 : Option (PublicKey C))
    (before : List (KeyEvent C)) : KeyEvent C → Prop
  | .kroot h data pk key _ =>
    TrustedPk pk0 before pk ∧ pk.pkid = bitField data 4 4 ∧ (∃ f n, SignedKroot C pk.key h data f n) ∧
    AnnouncedKey data key ∧
    (∀ h' data' pk' key' g', KeyEvent.kroot h' data' pk' key' g' ∈ before → pk'.pkid ≤ pk.pkid)
  | .pkr data pk => ∃ root, root0 = some root ∧ MerkleProvedKey C root.val data pk
  | .alert data => ∃ root leaf, root0 = some root ∧ bitField data 1032 4 = 4 ∧ PkrLeaf data leaf ∧
      MerkleProof C root.val data leaf
  | .tesla k => k.gst.tow % 30 = 0 ∧ RootedKey before k ∧ (∃ h, lastHeader before = some h ∧ h.chainId = k.chain.id) ∧
      ¬ ChainRevokedIn before k.chain.id

/-- A log in which every message is justified by the ones before it and none follows an alert. -/
def GoodLog (root0 : Option MerkleTreeNode) (pk0 : Option (PublicKey C)) (log : List (KeyEvent C)) : Prop :=
  ∀ before ev after, log = before ++ ev :: after → ¬ AlertIn before ∧ ev.Justified root0 pk0 before

/-! ## The public keys held -/

/-- The public keys held after a message: the one in use and the next one.  A key proved by a DSM-PKR is used if there is none, and kept
as the next one if its id is larger than those of the keys held; a KROOT verified with the next key makes it the one in use; an alert
drops both. -/
def keysAfter (held : Option (PublicKey C) × Option (PublicKey C)) : KeyEvent C → Option (PublicKey C) × Option (PublicKey C)
  | .pkr _ k =>
    match held with
    | (none, next) => (some k, next)
    | (some c, none) => if c.pkid < k.pkid then (some c, some k) else (some c, none)
    | (some c, some n) => if c.pkid < k.pkid ∧ n.pkid < k.pkid then (some c, some k) else (some c, some n)
  | .kroot h _ pk _ _ =>
    if h.cpks = .AlertMessage then (none, none)
    else
      match held with
      | (some c, next) => if c.pkid = pk.pkid then (some c, next) else (some pk, none)
      | (none, _) => (some pk, none)
  | .alert _ => (none, none)
  | .tesla _ => held

/-- The public keys held after the messages of a run that started with `pk0`. -/
def keysHeld (pk0 : Option (PublicKey C)) (log : List (KeyEvent C)) : Option (PublicKey C) × Option (PublicKey C) :=
  log.foldl keysAfter (pk0, none)

end Verif
