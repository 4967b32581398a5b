import Verif.Spec.KeyMachine
import Verif.Spec.PanicSpec

/-! # Specification: the reference machine for the acceptance of keys, when panics are caught

As `KeyMachine` (`Spec/KeyMachine`), for a program that catches the panics of the library and uses the same receiver on. -/

namespace Verif
variable {C : Crypto}

/-- The completed DSM `data` can be processed without a panic, by a receiver with these trust anchors that has emitted the messages `log`. -/
structure Harmless (root0 : Option MerkleTreeNode) (pk0 : Option (PublicKey C)) (log : List (KeyEvent C)) (r : Received)
    (data : List Byte) : Prop where
  kroot : r.dsmCall.header.dsmId < 12 → ∀ pk, (keysHeld pk0 log).1 = some pk ∨ (keysHeld pk0 log).2 = some pk →
    pk.pkid = bitField data 4 4 → HarmlessKroot C pk.key r.header data
  pkr : 12 ≤ r.dsmCall.header.dsmId → ¬ AlertIn log → ∀ root, root0 = some root → HarmlessPkr C root.val data

/-- The messages for the subframes `rs` when panics are caught: a subframe that completes a DSM which is not harmless is passed over (no message for the
DSM, and no TESLA key from the subframe); all the others are as in `KeyMachine`. -/
inductive CaughtMachine (root0 : Option MerkleTreeNode) (pk0 : Option (PublicKey C)) : List Received → List (KeyEvent C) → Prop
  | nil : CaughtMachine root0 pk0 [] []
  | step {rs : List Received} {log l₁ l₂ : List (KeyEvent C)} (r : Received) (h : CaughtMachine root0 pk0 rs log)
      (hok : ∀ data, CompletesDsmWith (rs.map Received.dsmCall) r.dsmCall data → Harmless root0 pk0 log r data)
      (h₁ : Exactly (fun e => ∃ data, CompletesDsmWith (rs.map Received.dsmCall) r.dsmCall data ∧ DsmMessage root0 pk0 log r data e) l₁)
      (h₂ : Exactly (fun e => ∃ k, e = .tesla k ∧ TeslaMessage (log ++ l₁) r k) l₂) :
      CaughtMachine root0 pk0 (rs ++ [r]) (log ++ l₁ ++ l₂)
  | pass {rs : List Received} {log : List (KeyEvent C)} (r : Received) (data : List Byte) (h : CaughtMachine root0 pk0 rs log)
      (hc : CompletesDsmWith (rs.map Received.dsmCall) r.dsmCall data) (hn : ¬ Harmless root0 pk0 log r data) :
      CaughtMachine root0 pk0 (rs ++ [r]) log

/-- All the chains that the machine signs for after the pages `ps` are sensible (see C39). -/
def SensiblePages (root0 : Option MerkleTreeNode) (pk0 : Option (PublicKey C)) (ps : List Page) : Prop :=
  ∀ rs log, ReceivedIn ps rs → CaughtMachine root0 pk0 rs log → SensibleLog log

end Verif
