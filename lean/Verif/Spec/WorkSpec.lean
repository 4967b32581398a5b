import Verif.Model.Work
import Verif.Spec.KeyMachine

/-! # How much cryptography a call needs -/

namespace Verif

variable {C : Crypto}

/-- A hash (SHA-256 or SHA3-256). -/
def Op.isHash : Op C → Bool
  | .sha256 _ | .sha3 _ => true
  | _ => false

/-- A message authentication code (HMAC-SHA-256 or CMAC-AES). -/
def Op.isMac : Op C → Bool
  | .hmac .. | .cmac .. => true
  | _ => false

/-- An operation on an elliptic curve: decoding a public key or checking a signature. -/
def Op.isPublicKey : Op C → Bool
  | .decode256 _ | .decode521 _ | .verify256 .. | .verify521 .. => true
  | _ => false

/-- The number of bytes that are hashed, authenticated, decoded or whose signature is checked (with the signature). -/
def Op.size : Op C → Nat
  | .sha256 m | .sha3 m | .hmac _ m | .cmac _ m | .decode256 m | .decode521 m => m.length
  | .verify256 _ m s | .verify521 _ m s => m.length + s.length

/-- At most `h` hashes, `m` MACs and `p` operations on an elliptic curve, each on at most 177 bytes. -/
structure AtMost (ops : List (Op C)) (h m p : Nat) : Prop where
  hashes : ops.countP Op.isHash ≤ h
  macs : ops.countP Op.isMac ≤ m
  publicKey : ops.countP Op.isPublicKey ≤ p
  sizes : ∀ op ∈ ops, op.size ≤ 177

/-- The cryptographic operations of a call (`Model/Work.lean`). -/
def Call.work (S : Storage) (o : Osnma C) : Call → List (Op C)
  | .inav word svn gst band => (W.feedInav S o word svn gst band).ops
  | .osnma x svn gst => (W.feedOsnma S o x svn gst).ops

/-- A TESLA key held after the messages of a run. -/
def HoldsTesla (log : List (KeyEvent C)) (k : Key) : Prop := (teslaHeld log).1 = some k ∨ (teslaHeld log).2 = some k

end Verif
