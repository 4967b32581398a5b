import Verif.Props.SlowOnly
import Verif.Props.SamePanicsExample

/-! # C85: a case -/

namespace Verif
namespace Sim

theorem slow13_chains : runChains Sim.S (slowIn Sim.S) (nominal 13) = some [onAir.root.chain] := by decide +kernel
theorem nominal13_times : (∀ p ∈ pagesOf (nominal 13), 360 ≤ p.sub.abs) ∧ ∀ c ∈ inavsOf (nominal 13), 7650 ≤ c.gst.abs := by decide +kernel
theorem fast_reports : reportIn Sim.S (Osnma.new Sim.S none (some (pub 1)) false) (nominal 13) = some (some (280, 36360)) := by decide +kernel

end Sim

open Sim

/-- The hypotheses of the theorems on C85 are met: after 13 subframes the receiver that only uses Slow MAC reports the data with the 40 bits of
one tag, the other one reports it with 280 bits. -/
example : ∃ (log : List (KeyEvent toy)) (o o' : Osnma toy) (d d' : NavMessageData),
    Logs Sim.S (Osnma.new Sim.S none (some (pub 1)) true) (nominal 13) log o ∧ Logs Sim.S (Osnma.new Sim.S none (some (pub 1)) false) (nominal 13) log o' ∧
    CallsInOrder (nominal 13) ∧ Fits Sim.S (inavsOf (nominal 13)) ∧ SensibleLog log ∧
    o.get Sim.S .ced (sv 1) = .ok (some d) ∧ o'.get Sim.S .ced (sv 1) = .ok (some d') ∧ d.authbits = 40 ∧ d'.authbits = 280 ∧ d.gst.abs ≤ d'.gst.abs := by
  obtain ⟨log, o, h, g⟩ := reportIn_some slow_same
  obtain ⟨log', o₁, h₁, g₁⟩ := reportIn_some fast_reports
  obtain ⟨d, hd, hb, _⟩ := got_some g
  obtain ⟨d₁, hd₁, hb₁, _⟩ := got_some g₁
  have hf := fits_of_sats (S := Sim.S) (by decide) nominal13_sats
  have hs := runChains_some slow13_chains h
  obtain ⟨o', h', hr⟩ := C85_normal_receiver S_consistent (.inr ⟨pub 1, true, rfl⟩) (.inr ⟨pub 1, false, rfl⟩) h nominal13_ordered.pages
    nominal13_ordered.words hf.1 hs nominal13_times.1 nominal13_times.2
  obtain ⟨d', hd', hle, _⟩ := hr .ced (sv 1) d hd
  have hu := (h'.unique h₁).2
  rw [hu, hd'] at hd₁
  have he : d' = d₁ := by injection hd₁ with e; exact Option.some.inj e
  exact ⟨log, o, o', d, d', h, h', nominal13_ordered, hf.1, hs, hd, hd', hb, he ▸ hb₁, hle⟩

end Verif
