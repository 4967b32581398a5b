import Verif.Props.WithoutP521Firmware
import Verif.Props.SerialExample
import Verif.Props.SamePanicsExample
import Verif.Props.StorageSizeExample

/-! # C93: concrete cases -/

namespace Verif
open Sim

namespace Sim

theorem calls8_chains : runChains Sim.S withKey calls8 = some [onAir.root.chain] := by decide +kernel
theorem calls8_small : reportIn small (Osnma.new small none (some (pub 1)) false) calls8 = some (some (40, 36210)) := by decide +kernel
theorem calls8_sats : (inavsOf calls8).all (fun c => c.svn == sv 1) = true := by decide +kernel

end Sim

/-- The hypotheses of `C93_firmware` and `C93_firmware_reports` (and so of `C93_same_as_with_p521`) are met: on the stream of `galmon_example`,
the firmware without P-521 makes the 240 calls that `galmon-osnma` makes, with the small storage of the crate or one that is even smaller, and
with the latter it has authenticated data. -/
example (checks : Bool) : ∃ (g : GalmonOsnma toy) (s : Client) (log : List (KeyEvent toy)) (f f' : Firmware toy.without521) (rest rest' : List Byte),
    galmonOsnmaMain Sim.S prostNavmon checks withKey stream8 = .ok (g, none) ∧
    clientMain prostNavmon checks stream8 = .ok (s, none) ∧ s.sent.length = 240 ∧ log.length = 2 ∧
    (Firmware.new (Osnma.new SmallStorage none (some (pub 1).low) true : Osnma toy.without521)).spins SmallStorage s.sent.length s.sent.flatten =
      .ok (some (f, rest)) ∧ f.calls = calls8 ∧
    Logs SmallStorage (Osnma.new SmallStorage none (some (pub 1).low) true) calls8 (log.map KeyEvent.low) f.osnma ∧
    (Firmware.new (Osnma.new small none (some (pub 1).low) false : Osnma toy.without521)).spins small s.sent.length s.sent.flatten =
      .ok (some (f', rest')) ∧
    ∃ d d', f'.osnma.get small .ced (sv 1) = .ok (some d) ∧ g.osnma.get Sim.S .ced (sv 1) = .ok (some d') ∧ d.gst.abs ≤ d'.gst.abs := by
  have hS : S.Consistent := ⟨by decide, by decide, by decide, by decide, by decide⟩
  obtain ⟨g, hg, hcalls, hget⟩ := galmon_example checks
  obtain ⟨log, o, hlog, hev, _, _⟩ := outcome_some calls8_outcome
  obtain ⟨_, _, hrun, _⟩ := C44_calls hg
  have ho : o = g.osnma := by
    rw [hcalls, hlog.run] at hrun
    exact Res.ok.inj hrun
  subst ho
  have ht : checks = true ∨ ∀ i ∈ inavPackets prostNavmon (packets8.map prostNavmon.ofInav), i.TimeOk :=
    .inr (by rw [stream8_inav]; exact fun i hi => (packets8_ok i hi).2.1)
  have hv : ∀ i ∈ inavPackets prostNavmon (packets8.map prostNavmon.ofInav), 1 ≤ i.gnssSv.toNat ∧ i.gnssSv.toNat ≤ 36 := by
    rw [stream8_inav]; intro i hi; rw [(packets8_ok i hi).2.2.2.2.2.1]; exact ⟨by decide, by decide⟩
  have hsec : ∀ i ∈ inavPackets prostNavmon (packets8.map prostNavmon.ofInav), 7650 ≤ i.secs := by rw [stream8_inav]; exact fun i hi => (packets8_ok i hi).2.2.1
  have hs := runChains_some calls8_chains hlog
  have hpk : ∀ pk, some (pub 1) = some pk → pk.IsP256 := fun pk e => by cases e; exact ⟨_, rfl⟩
  have hk : ∀ data pk, KeyEvent.pkr data pk ∈ log → pk.IsP256 := fun data pk hm => by
    obtain ⟨a, b, hab⟩ := List.append_of_mem hm
    obtain ⟨_, r, hr, _⟩ := (keyInv_run (root0 := none) (pk0 := some (pub 1)) (slow := false) hlog).good a _ b hab
    cases hr
  obtain ⟨s, h1, h2, f, rest, h3, h4, h5⟩ := C93_firmware (S' := SmallStorage) (slow' := true) hS (root0 := none) (pk0 := some (pub 1)) (slow := false)
    packets8_fresh stream8_packets (checks := checks) ht hv hsec hg (by rw [hcalls]; exact hlog) hs hpk hk
    ⟨by decide, by decide, by decide, by decide, by decide⟩ (.inr ⟨pub 1, true, rfl⟩)
  obtain ⟨s', f', rest', h1', h3', h6', hrep⟩ := C93_firmware_reports (S' := small) hS (root0 := none) (pk0 := some (pub 1)) (slow := false)
    packets8_fresh stream8_packets (checks := checks) ht hv hsec hg (by rw [hcalls]; exact hlog) hs hpk hk
    ⟨by decide, by decide, by decide, by decide, by decide⟩ (.inr ⟨pub 1, false, rfl⟩) ⟨by decide, by decide, by decide⟩
    ⟨[sv 1], by decide, by
      rw [hcalls]
      intro c hc
      have := List.all_eq_true.1 calls8_sats c hc
      rw [eq_of_beq this]
      exact List.mem_singleton_self _⟩
  rw [h1] at h1'
  cases h1'
  have hlen : s.sent.length = 240 := by
    rw [h2.length, hcalls]
    unfold calls8 pageNumbers
    decide +kernel
  obtain ⟨log2, o2, hl2, hr2⟩ := reportIn_some calls8_small
  obtain ⟨d, hd, _⟩ := got_some hr2
  have hlog2 : ∀ data pk, KeyEvent.pkr data pk ∈ log2 → pk.IsP256 := fun data pk hm => by
    obtain ⟨a, b, hab⟩ := List.append_of_mem hm
    obtain ⟨_, r, hr, _⟩ := (keyInv_run (root0 := none) (pk0 := some (pub 1)) (slow := false) hl2).good a _ b hab
    cases hr
  obtain ⟨o3, hl3, hg3⟩ := C93_same_as_with_p521 (root0 := none) (pk0 := some (pub 1)) (slow := false) hpk hl2 hlog2
  have hf : f'.osnma = o3 := by
    rw [hcalls] at h6'
    exact (h6'.unique hl3).2.symm
  have hfd : f'.osnma.get small .ced (sv 1) = .ok (some d) := by rw [hf, hg3]; exact hd
  obtain ⟨d', hd', hle, _⟩ := hrep .ced (sv 1) d hfd
  refine ⟨g, s, log, f, f', rest, rest', hg, h1, hlen, ?_, h3, h4.trans hcalls, hcalls ▸ h5, h3', d, d', hfd, hd', hle⟩
  have := congrArg List.length hev
  simpa using this

namespace Sim

/-- A DSM-PKR of 16 blocks with a P-521 key. -/
def pkr521 : List Byte :=
  packBytes (storeBe 4 10 ++ storeBe 4 2) ++ List.replicate 128 5#8 ++ packBytes (storeBe 4 3 ++ storeBe 4 2) ++ List.replicate 78 1#8

/-- The root of the Merkle tree to which it leads. -/
def root521 : MerkleTreeNode := fix 32 (merklePathRoot toy 2 (toy.sha256 (byteField pkr521 129 68)) (List.replicate 4 (List.replicate 32 5#8)))

/-- The two builds do differ on this message: it proves a P-521 key to the one with the feature (the hypothesis of `C93_same_as_with_p521` that no
such key is accepted is not met), … -/
theorem pkr521_accepted : (match Merkle.validatePkr toy root521 ⟨pkr521⟩ with
    | .ok (.ok ⟨.P521 _, 2⟩) => true
    | _ => false) = true := by decide +kernel

/-- … and is refused by the one without it. -/
theorem pkr521_refused : (match Merkle.validatePkr toy.without521 root521 ⟨pkr521⟩ with
    | .ok (.error .P521NotSupported) => true
    | _ => false) = true := by decide +kernel

end Sim

end Verif
