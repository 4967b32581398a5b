import Verif.Props.CaughtRecovery
import Verif.Props.CaughtMachineExample
import Verif.Props.ColdStartExample

/-! # C97: a case

A transmission made without any secret sends a malformed DSM-KROOT, which makes the library panic; then the genuine broadcast follows. -/

namespace Verif.Sim

theorem malformed_caught : ∃ o : Osnma toy, Caught S withKey malformed [] o ∧ (∀ o', run S withKey malformed ≠ .ok o') := by
  obtain ⟨_, _, h⟩ := malformed_facts
  obtain ⟨⟨n, log, o⟩, e, e'⟩ := Option.map_eq_some_iff.1 h
  simp only [Prod.mk.injEq] at e'
  obtain rfl : log = [] := List.map_eq_nil_iff.1 e'.2
  refine ⟨o, by simpa using runCaught_caught malformed .nil e, ?_⟩
  have hp : (match run S withKey malformed with | .ok _ => false | .panic _ => true) = true := by decide +kernel
  intro o' ho'
  rw [ho'] at hp
  cases hp

theorem malformed_ids : ∀ r ∈ receivedOf (pagesOf malformed), r.dsmCall.header.dsmId = 5 := by decide +kernel

theorem malformed_before : ∀ p ∈ pagesOf malformed, p.sub.abs < 725796000 := by decide +kernel

theorem nominal_after : ∀ p ∈ pagesOf (nominal 8), 725796000 ≤ p.sub.abs := by decide +kernel

theorem malformed_follows : Follows onAir (some (pub 1)) malformed [] (nominal 8) where
  heard := nominal_heard
  later := by
    intro p hp q hq
    have := malformed_before p hp
    have := nominal_after q hq
    omega
  held := .inl rfl
  newId := by
    intro rs r hr hl
    obtain rfl := hr.unique (receivedOf_spec _)
    rw [malformed_ids r (List.mem_of_getLast? hl)]
    decide
  leads := by
    intro q hq k hk _
    rcases hk with hk | hk <;> cases hk

theorem attacked_inavs : inavsOf (malformed ++ nominal 8) = inavsOf (nominal 8) := by decide +kernel

theorem attacked_order : CallsInOrder (malformed ++ nominal 8) := by
  have : ((malformed ++ nominal 8).map (fun c => c.gst.subframe.abs)).Pairwise (· ≤ ·) := by decide +kernel
  exact List.pairwise_map.1 this

theorem attacked_tag : TagHeard onAir S false (malformed ++ nominal 8) (nominal 8) .ced (sv 1) (navData .ced 1 0x35) nomTag where
  on := nominal_tag.on
  onKey := nominal_tag.onKey
  key := nominal_tag.key
  status := nominal_tag.status
  sent := nominal_tag.sent
  right := nominal_tag.right
  prnd := nominal_tag.prnd
  rightKey := nominal_tag.rightKey
  verifies := nominal_tag.verifies
  heard := nominal_tag.heard
  disclosed := nominal_tag.disclosed
  kroot := nominal_tag.kroot
  data := by unfold wordsUpTo; rw [attacked_inavs]; exact nominal_tag.data
  recent := by rw [attacked_inavs]; exact nominal_tag.recent
  alive := by rw [attacked_inavs]; exact nominal_tag.alive
  depthNav := nominal_tag.depthNav
  depthMack := nominal_tag.depthMack

/-- The hypotheses of C97 are met, with a caught panic: all calls return, the DSM-KROOT and a TESLA key are accepted, and the data of satellite 1 is
authenticated. -/
theorem malformed_then_genuine : ∃ (o₁ o : Osnma toy) (g : Gst) (ks ks' : List Verif.Key) (d : NavMessageData), Caught S withKey malformed [] o₁ ∧
    (∀ o', run S withKey malformed ≠ .ok o') ∧
    Logs S o₁ (nominal 8) (ks.map .tesla ++ [.kroot onAir.header onAir.kroot onAir.pk onAir.root g] ++ ks'.map .tesla) o ∧ g.abs ≤ (gst 36210).abs ∧
    KeyEvent.tesla (C := toy) (onAir.key (gst 36210)) ∈ ks.map KeyEvent.tesla ++ [.kroot onAir.header onAir.kroot onAir.pk onAir.root g] ++ ks'.map .tesla ∧
    o.get S .ced (sv 1) = .ok (some d) ∧ d.data = navData .ced 1 0x35 ∧ 40 ≤ d.authbits := by
  obtain ⟨o₁, h₁, hp⟩ := malformed_caught
  have h0 : (Osnma.new S none (some (pub 1)) false : Osnma toy).Fresh S := .inr ⟨pub 1, false, rfl⟩
  obtain ⟨l, o, hl⟩ := C97_no_more_panics (S := S) (root0 := none) (slow := false) S_consistent h0 onAir_sound h₁ malformed_follows
    (by intro h data pk k g h' data' pk' k' g' he; cases he) (by intro h data pk k g he; cases he)
  obtain ⟨g, ks, ks', hg, rfl⟩ := C97_kroot_accepted (S := S) (root0 := none) (pk0 := some (pub 1)) (slow := false) onAir_sound h₁ hl malformed_follows
    nominal_order.pages nominal_kroot
  have h2 := C97_key_accepted (S := S) (root0 := none) (pk0 := some (pub 1)) (slow := false) S_consistent h0 onAir_sound h₁ hl malformed_follows
    nominal_order.pages nominal_kroot (nominal_whole 7 (by decide))
  obtain ⟨d, e1, e2, e3⟩ := C97_authenticates (S := S) (root0 := none) (pk0 := some (pub 1)) (slow := false) S_consistent h0 onAir_sound h₁ hl
    malformed_follows attacked_order ⟨[sv 1], by decide, by decide +kernel⟩
    (fun _ => ⟨[sv 1], by decide, fun p hp _ => (by decide +kernel : ∀ p ∈ pagesOf (malformed ++ nominal 8), p.svn ∈ [sv 1]) p hp⟩)
    (by decide +kernel) .ced (sv 1) (navData .ced 1 0x35) 259 (by decide +kernel) (by decide +kernel)
    (by
      intro i h1 h2
      have : ∀ i, i < 282 → 259 ≤ i → NavKind.expected .ced (inavsOf ((malformed ++ nominal 8).take i)) (sv 1) = navData .ced 1 0x35 := by decide +kernel
      exact this i (Nat.lt_succ_of_le (Nat.le_trans h2 (by decide +kernel))) h1)
    [nomTag] (by simp) (by
      intro u hu
      rw [List.mem_singleton] at hu
      subst hu
      exact ⟨attacked_tag, by decide +kernel, fun _ => .inl (by intro hd he; cases he)⟩)
    (by decide +kernel)
  exact ⟨o₁, o, g, ks, ks', d, h₁, hp, hl, hg, h2, e1, e2, Nat.le_trans (by decide +kernel) e3⟩

end Verif.Sim
