import Verif.Props.Caught
import Verif.Tests.Scenarios

/-! # C89: a case

A transmission made without any secret sends a DSM-KROOT that makes `feed_osnma` panic (C39).  The program catches the panic and uses the same
receiver on: the next eight subframes of the genuine broadcast authenticate the navigation data. -/

namespace Verif.Sim

/-- Runs the calls, catches panics and counts them. -/
def runCaught {C : Crypto} (S : Storage) : Osnma C → List Call → Option (Nat × List (KeyEvent C) × Osnma C)
  | o, [] => some (0, [], o)
  | o, c :: cs =>
    match c.run S o with
    | .panic _ =>
      match o.left S c with
      | none => none
      | some o' => (runCaught S o' cs).map (fun r => (r.1 + 1, r.2.1, r.2.2))
    | .ok o' => (runCaught S o' cs).map (fun r => (r.1, o.events S c ++ r.2.1, r.2.2))

/-- `runCaught` computes histories with caught panics. -/
theorem runCaught_caught {C : Crypto} {S : Storage} {o0 : Osnma C} (cs : List Call) : ∀ {hist : List Call} {l1 log : List (KeyEvent C)}
    {o1 o : Osnma C} {n : Nat}, Caught S o0 hist l1 o1 → runCaught S o1 cs = some (n, log, o) →
    Caught S o0 (hist ++ cs) (l1 ++ log) o := by
  induction cs with
  | nil =>
    intro hist l1 log o1 o n h hr
    simp only [runCaught, Option.some.injEq, Prod.mk.injEq] at hr
    obtain ⟨_, rfl, rfl⟩ := hr
    simpa using h
  | cons c cs ih =>
    intro hist l1 log o1 o n h hr
    unfold runCaught at hr
    cases hc : c.run S o1 with
    | panic w =>
      rw [hc] at hr
      dsimp only at hr
      cases hl : o1.left S c with
      | none => rw [hl] at hr; cases hr
      | some o' =>
        rw [hl] at hr
        dsimp only at hr
        obtain ⟨⟨m, l, o2⟩, e, e'⟩ := Option.map_eq_some_iff.1 hr
        simp only [Prod.mk.injEq] at e'
        obtain ⟨_, rfl, rfl⟩ := e'
        have := ih (.panics c h ⟨w, hc⟩ hl) e
        simpa using this
    | ok o' =>
      rw [hc] at hr
      dsimp only at hr
      obtain ⟨⟨m, l, o2⟩, e, e'⟩ := Option.map_eq_some_iff.1 hr
      simp only [Prod.mk.injEq] at e'
      obtain ⟨_, rfl, rfl⟩ := e'
      have := ih (.returns c h hc) e
      simpa using this

/-- The malformed DSM with identifier 5, sent in the seven subframes before 36000, then the genuine broadcast. -/
def attacked : List Call := sendDsm hdr1 5 7 35790 shortKroot ++ nominal 8

/-- Number of panics, acceptance messages, and what the getters return for satellite 1. -/
def caughtOutcome (o0 : Osnma toy) (cs : List Call) : Option (Nat × List (List Nat) × Option (Nat × Nat) × Option (Nat × Nat)) :=
  (runCaught S o0 cs).map (fun r => (r.1, r.2.1.map code, got S r.2.2 .ced 1, got S r.2.2 .timing 1))

/-- One panic; then everything as without the attack (`nominal8`). -/
theorem attacked_outcome : caughtOutcome withKey attacked =
    some (1, [[0, 82, 1, 1, 36210], [3, 1, 36210]], some (40, 36210), some (40, 36210)) := by decide +kernel

/-- The malformed DSM sent three times over: one panic. -/
theorem three_times : caughtOutcome withKey (sendDsm hdr1 5 7 35370 shortKroot ++ sendDsm hdr1 5 7 35580 shortKroot ++ sendDsm hdr1 5 7 35790 shortKroot) =
    some (1, [], none, none) := by decide +kernel

/-- Alternating with another identifier: a panic each time. -/
theorem alternating : caughtOutcome withKey (sendDsm hdr1 5 7 35370 shortKroot ++ sendDsm hdr1 6 7 35580 shortKroot ++ sendDsm hdr1 5 7 35790 shortKroot) =
    some (3, [], none, none) := by decide +kernel

end Verif.Sim

namespace Verif

/-- The case: with a caught panic in its history, the receiver returns data, and the data is authentic (C89). -/
theorem C89_case : ∃ (log : List (KeyEvent Sim.toy)) (o : Osnma Sim.toy) (d : NavMessageData) (us : List TagUse),
    Caught Sim.S Sim.withKey Sim.attacked log o ∧ (∀ o', run Sim.S Sim.withKey Sim.attacked ≠ .ok o') ∧
    o.get Sim.S .ced (Sim.sv 1) = .ok (some d) ∧ d.authbits = 40 ∧
    Authentic none (some (Sim.pub 1)) false Sim.attacked log .ced (Sim.sv 1) d.data d.authbits us := by
  have h := Sim.attacked_outcome
  unfold Sim.caughtOutcome at h
  obtain ⟨⟨n, log, o⟩, e, e'⟩ := Option.map_eq_some_iff.1 h
  simp only [Prod.mk.injEq] at e'
  obtain ⟨_, _, hg, _⟩ := e'
  obtain ⟨d, hd, ha, _⟩ := Sim.got_some hg
  have hc : Caught Sim.S Sim.withKey Sim.attacked log o := by
    simpa using Sim.runCaught_caught Sim.attacked .nil e
  obtain ⟨us, hus⟩ := C89_still_authentic (root0 := none) (pk0 := some (Sim.pub 1)) (slow := false) Sim.S_consistent (.inr ⟨_, _, rfl⟩) hc .ced hd
  refine ⟨log, o, d, us, hc, ?_, hd, ha, hus⟩
  have hp : (match run Sim.S Sim.withKey Sim.attacked with | .ok _ => false | .panic _ => true) = true := by decide +kernel
  intro o' ho'
  rw [ho'] at hp
  cases hp

/-- A case of `C89_what_is_left`: the call at which `attacked` panics leaves a receiver behind, and the same receiver without public keys returns from it. -/
example : (match run Sim.S Sim.withKey ((Sim.sendDsm Sim.hdr1 5 7 35790 Sim.shortKroot).dropLast) with
    | .ok o =>
      match (Sim.sendDsm Sim.hdr1 5 7 35790 Sim.shortKroot).getLast? with
      | some (.osnma d s g) =>
        (o.left Sim.S (.osnma d s g)).isSome && (match o.withoutAnchors.feedOsnma Sim.S d s g with | .ok _ => true | .panic _ => false)
      | _ => false
    | .panic _ => false) = true := by decide +kernel

end Verif
