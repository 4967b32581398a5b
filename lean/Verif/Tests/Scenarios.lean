import Verif.Tests.Dsms
import Verif.Lemmas.Log

/-! # Runs of the simulated transmitter through the receiver, evaluated by the kernel

These are concrete reachable states that meet the hypotheses of the theorems about histories. -/

namespace Verif.Sim

/-- `runLog` computes logged runs. -/
theorem runLog_logs {C : Crypto} {S : Storage} {cs : List Call} : ∀ {o0 o : Osnma C} {log : List (KeyEvent C)},
    runLog S o0 cs = .ok (log, o) → Logs S o0 cs log o := by
  suffices ∀ (cs : List Call) {o0 o1 o : Osnma C} {hist : List Call} {log l1 : List (KeyEvent C)},
      Logs S o0 hist l1 o1 → runLog S o1 cs = .ok (log, o) → Logs S o0 (hist ++ cs) (l1 ++ log) o by
    intro o0 o log h
    exact this cs (.nil) h
  intro cs
  induction cs with
  | nil =>
    intro o0 o1 o hist log l1 h hr
    simp only [runLog, Res.ok.injEq, Prod.mk.injEq] at hr
    obtain ⟨rfl, rfl⟩ := hr
    simpa using h
  | cons c cs ih =>
    intro o0 o1 o hist log l1 h hr
    unfold runLog at hr
    cases hc : c.run S o1 with
    | panic w => rw [hc] at hr; cases hr
    | ok o2 =>
      rw [hc] at hr
      dsimp only at hr
      cases hr2 : runLog S o2 cs with
      | panic w => rw [hr2] at hr; cases hr
      | ok p =>
        obtain ⟨l, o3⟩ := p
        rw [hr2] at hr
        simp only [Res.ok.injEq, Prod.mk.injEq] at hr
        obtain ⟨rfl, rfl⟩ := hr
        have := ih (h.snoc c hc) hr2
        simpa using this

/-- The messages, and what the getters return for the CED and the timing parameters of satellite 1. -/
def outcome (o0 : Osnma toy) (h : List Call) : Option (List (List Nat) × Option (Nat × Nat) × Option (Nat × Nat)) :=
  match runLog S o0 h with
  | .panic _ => none
  | .ok (l, o) => some (l.map code, got S o .ced 1, got S o .timing 1)

theorem outcome_some {o0 : Osnma toy} {h : List Call} {c : List (List Nat)} {x y : Option (Nat × Nat)}
    (ho : outcome o0 h = some (c, x, y)) :
    ∃ log o, Logs S o0 h log o ∧ log.map code = c ∧ got S o .ced 1 = x ∧ got S o .timing 1 = y := by
  unfold outcome at ho
  cases hr : runLog S o0 h with
  | panic w => rw [hr] at ho; cases ho
  | ok p =>
    obtain ⟨l, o⟩ := p
    rw [hr] at ho
    simp only [Option.some.injEq, Prod.mk.injEq] at ho
    exact ⟨l, o, runLog_logs hr, ho.1, ho.2.1, ho.2.2⟩

/-- Receivers of the scenarios. -/
def withKey : Osnma toy := Osnma.fromPubkey S (pub 1) false
def slowOnly : Osnma toy := Osnma.fromPubkey S (pub 1) true
def withRoot : Osnma toy := Osnma.fromMerkleTree S root none false
def withBoth : Osnma toy := Osnma.fromMerkleTree S root (some (pub 1)) false

/-- Eight subframes: KROOT verified, the key of the same subframe accepted, CED and timing parameters
authenticated by one tag of 40 bits each. -/
theorem nominal8 : outcome withKey (nominal 8) =
    some ([[0, 82, 1, 1, 36210], [3, 1, 36210]], some (40, 36210), some (40, 36210)) := by decide +kernel

/-- Thirteen subframes: more tags, among them Slow MAC. -/
theorem nominal13 : outcome withKey (nominal 13) =
    some ([[0, 82, 1, 1, 36210], [3, 1, 36210], [3, 1, 36240], [3, 1, 36270], [3, 1, 36300], [3, 1, 36330],
      [3, 1, 36360]], some (280, 36360), some (120, 36360)) := by decide +kernel

/-- Slow MAC only. -/
theorem slow13 : outcome slowOnly (nominal 13) =
    some ([[0, 82, 1, 1, 36210], [3, 1, 36210], [3, 1, 36240], [3, 1, 36270], [3, 1, 36300], [3, 1, 36330],
      [3, 1, 36360]], some (40, 36360), none) := by decide +kernel

/-- A chain revoked after being in use. -/
theorem revoked : outcome withKey (nominal 8 ++ sendDsm (nmaByte 3 1 3) 4 8 36240 kroot11rev) =
    some ([[0, 82, 1, 1, 36210], [3, 1, 36210], [0, 214, 1, 1, 36450]], some (40, 36210), some (40, 36210)) := by
  decide +kernel

/-- An alert announced in a verified header. -/
theorem alerted : outcome withKey (nominal 8 ++ sendDsm (nmaByte 1 1 7) 4 8 36240 kroot11alert) =
    some ([[0, 82, 1, 1, 36210], [3, 1, 36210], [0, 94, 1, 1, 36450]], some (40, 36210), some (40, 36210)) := by
  decide +kernel

/-- A public key from a DSM-PKR, then a KROOT verified with it. -/
theorem pkrThenKroot : outcome withRoot (sendDsm hdr1 13 13 36000 pkr2 ++ sendDsm hdr1 4 8 36390 kroot12) =
    some ([[1, 2], [0, 82, 2, 1, 36600]], none, none) := by decide +kernel

/-- An alert message in a DSM-PKR. -/
theorem alertMessage : outcome withBoth (sendDsm hdr1 13 13 36000 pkr0) = some ([[2]], none, none) := by decide +kernel

/-- The messages of the run and its final state satisfy a check. -/
def check (o0 : Osnma toy) (h : List Call) (f : List (KeyEvent toy) → Osnma toy → Bool) : Bool :=
  match runLog S o0 h with
  | .panic _ => false
  | .ok (l, o) => f l o

theorem check_some {o0 : Osnma toy} {h : List Call} {f : List (KeyEvent toy) → Osnma toy → Bool} (hc : check o0 h f = true) :
    ∃ log o, Logs S o0 h log o ∧ f log o = true := by
  unfold check at hc
  cases hr : runLog S o0 h with
  | panic w => rw [hr] at hc; cases hc
  | ok p =>
    obtain ⟨l, o⟩ := p
    rw [hr] at hc
    exact ⟨l, o, runLog_logs hr, hc⟩

/-- A state with two public keys. -/
theorem twoPublicKeys : check withBoth (sendDsm hdr1 13 13 36000 pkr2) (fun _ o =>
    o.data.data.pubkey.current.map (·.pkid) == some 1 && o.data.data.pubkey.next.map (·.pkid) == some 2) = true := by
  decide +kernel

/-- A state with the keys of two chains; chain 1 is in force. -/
theorem twoChains : check withKey (sendDsm hdr1 3 8 36000 kroot11 ++ sendDsm hdr1 4 8 36240 kroot21) (fun _ o =>
    o.data.data.key.key0.map (·.chain.id) == some 1 && o.data.data.key.key1.map (·.chain.id) == some 2
      && o.data.data.key.currentKey.map (·.chain.id) == some 1) = true := by
  decide +kernel

theorem panicsAtLast_some {C : Crypto} {S : Storage} {o0 : Osnma C} {h : List Call} (hp : panicsAtLast S o0 h = true) :
    ∃ hist c o, h = hist ++ [c] ∧ run S o0 hist = .ok o ∧ (c.run S o).Panics := by
  unfold panicsAtLast at hp
  split at hp
  · rename_i o c h1 h2
    refine ⟨_, c, o, ?_, h1, ?_⟩
    · have hne : h ≠ [] := by rintro rfl; cases h2
      rw [List.getLast?_eq_some_getLast hne] at h2
      cases h2
      exact (List.dropLast_concat_getLast hne).symm
    · split at hp
      · rename_i w hw; exact ⟨w, hw⟩
      · cases hp
  · cases hp

/-- The malformed DSM-KROOT and DSM-PKR make the receiver panic when their last block arrives. -/
theorem shortKroot_panics : panicsAtLast S withKey (sendDsm hdr1 3 7 36000 shortKroot) = true := by decide +kernel

theorem zeroSigKroot_panics : panicsAtLast S withKey (sendDsm hdr1 3 8 36000 (zeroSigKroot hdr1)) = true := by decide +kernel

theorem shortPkr_panics : panicsAtLast S withRoot (sendDsm hdr1 13 13 36000 shortPkr) = true := by decide +kernel

/-! ## Reading the summaries -/

theorem code_kroot {C : Crypto} {e : KeyEvent C} {a b c d : Nat} (h : code e = [0, a, b, c, d]) :
    ∃ hd data pk k g, e = .kroot hd data pk k g ∧ hd.data = BitVec.ofNat 8 a ∧ pk.pkid = b ∧ k.chain.id = c ∧ g.tow = d := by
  cases e with
  | kroot hd data pk k g =>
    simp only [code, List.cons.injEq, and_true, true_and] at h
    refine ⟨hd, data, pk, k, g, rfl, ?_, h.2.1, h.2.2.1, h.2.2.2⟩
    rw [← h.1]; simp
  | _ => simp [code] at h

theorem code_tesla {C : Crypto} {e : KeyEvent C} {a b : Nat} (h : code e = [3, a, b]) :
    ∃ k, e = .tesla k ∧ k.chain.id = a ∧ k.gst.tow = b := by
  cases e with
  | tesla k =>
    simp only [code, List.cons.injEq, and_true, true_and] at h
    exact ⟨k, rfl, h⟩
  | _ => simp [code] at h

theorem code_pkr {C : Crypto} {e : KeyEvent C} {a : Nat} (h : code e = [1, a]) :
    ∃ data pk, e = .pkr data pk ∧ pk.pkid = a := by
  cases e with
  | pkr data pk =>
    simp only [code, List.cons.injEq, and_true, true_and] at h
    exact ⟨data, pk, rfl, h⟩
  | _ => simp [code] at h

theorem got_some {C : Crypto} {S : Storage} {o : Osnma C} {kd : NavKind} {v a b : Nat} (h : got S o kd v = some (a, b)) :
    ∃ d, o.get S kd (sv v) = .ok (some d) ∧ d.authbits = a ∧ d.gst.tow = b := by
  unfold got at h
  split at h
  · rename_i d hd
    simp only [Option.some.injEq, Prod.mk.injEq] at h
    exact ⟨d, hd, h⟩
  · cases h

end Verif.Sim
