import Verif.Model.Api
import Verif.Tests.Scenario

/-! # Keys and MACKs that a program can obtain from a simulated transmitter -/

namespace Verif.Sim

/-- The DSM-KROOT of the simulation, with the root key of 35970. -/
def apiKroot : DsmKroot := ⟨krootBytes (chain 1) hdr1 1 10⟩

/-- The MACK that satellite 1 sends in the subframe 36060. -/
def apiMack : MackMessage := fix 60 (packBytes (mackBits (chain 1) 1 2 36060 1 0x35 1))

/-- The value of a call that succeeds. -/
def okVal {ε α : Type} : Res (Except ε α) → Option α
  | .ok (.ok a) => some a
  | _ => none

theorem of_okVal {ε α : Type} {r : Res (Except ε α)} {a : α} (h : okVal r = some a) : r = .ok (.ok a) := by
  unfold okVal at h
  split at h
  · cases h; rfl
  · cases h

theorem apiRoot_ok : Key.fromDsmKroot toy ⟨hdr1⟩ apiKroot (pub 1) = .ok (.ok (key (chain 1) 35970, ⟨hdr1⟩)) :=
  of_okVal (by decide +kernel)

theorem apiKey_ok : (key (chain 1) 35970).validateKey toy (key (chain 1) 36090) = .ok (.ok (key (chain 1) 36090)) :=
  of_okVal (by decide +kernel)

theorem apiKey_ok' : (key (chain 1) 36090).validateKey toy (key (chain 1) 36390) = .ok (.ok (key (chain 1) 36390)) :=
  of_okVal (by decide +kernel)

theorem apiKey_had (tow : Nat) (h : Key.fromSlice (keyBytes (chain 1) tow) (gst tow) (chain 1) = .ok (key (chain 1) tow)) :
    ApiKey toy (ApiPk toy (fun pk => pk = pub 1) (fun _ => False)) false (key (chain 1) tow) := .fromSlice h

theorem apiKey1 : ApiKey toy (ApiPk toy (fun pk => pk = pub 1) (fun _ => False)) true (key (chain 1) 36090) :=
  .validateKey (.fromDsmKroot (.forced rfl) apiRoot_ok) (apiKey_had 36090 (by decide +kernel)) apiKey_ok

theorem apiKey2 : ApiKey toy (ApiPk toy (fun pk => pk = pub 1) (fun _ => False)) true (key (chain 1) 36390) :=
  .validateKey apiKey1 (apiKey_had 36390 (by decide +kernel)) apiKey_ok'

theorem apiMack_ok : (Mack.new apiMack (chain 1).keySizeBits (chain 1).tagSizeBits).validate toy (key (chain 1) 36090) (sv 1) (gst 36060)
    = .ok (.ok (Mack.new apiMack (chain 1).keySizeBits (chain 1).tagSizeBits)) :=
  of_okVal (by decide +kernel)

end Verif.Sim
