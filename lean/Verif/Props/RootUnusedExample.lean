import Verif.Props.RootUnused
import Verif.Props.OperatorExample

/-! # C94: a concrete case -/

namespace Verif
open Sim

/-- The hypotheses of `C94_root_unused` are met by a receiver with the root of the Merkle tree and the public key that gets data authenticated;
with the public key only the same data is. -/
example : ∃ (log : List (KeyEvent toy)) (o o' : Osnma toy) (d : NavMessageData), Logs Sim.S withBoth (nominal 8) log o ∧
    Logs Sim.S withKey (nominal 8) log o' ∧ o.get Sim.S .ced (sv 1) = .ok (some d) ∧ o'.get Sim.S .ced (sv 1) = .ok (some d) := by
  obtain ⟨log, o, d, h, hl, hd, _⟩ := nominal_honest
  have hall := List.all_eq_true.1 hl
  obtain ⟨o', h', hg⟩ := C94_root_unused (root0 := some root) (pk0 := some (pub 1)) (slow := false) h
    (fun data pk hm => by have := hall _ hm; cases this) (fun data hm => by have := hall _ hm; cases this)
  exact ⟨log, o, o', d, h, h', hd, by rw [hg]; exact hd⟩

end Verif
