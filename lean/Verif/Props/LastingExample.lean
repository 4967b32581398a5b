import Verif.Props.Lasting
import Verif.Props.StorageSizeExample

/-! # C82: cases -/

namespace Verif
namespace Sim

/-- Eight subframes and the first word of the next one. -/
def soFar : List Call := nominal 8 ++ (navCalls 1 0x35 36240).take 1

/-- The rest of that subframe, and a subframe with other data. -/
def onwards : List Call :=
  (navCalls 1 0x35 36240).drop 1 ++ subframe (chain 1) 1 2 36240 1 0x35 hdr1 3 0 kroot11 ++ navCalls 1 0x36 36270

/-- Another word in the same subframe with other data. -/
def changed : List Call := (navCalls 1 0x36 36240).take 1

theorem soFar_report : reportIn S withKey soFar = some (some (40, 36240)) := by decide +kernel
theorem onwards_report : (reportIn S withKey (soFar ++ onwards)).bind id = some (80, 36240) := by decide +kernel
theorem changed_report : reportIn S withKey (soFar ++ changed) = some (some (40, 36210)) := by decide +kernel

theorem onwards_ordered : CallsInOrder (soFar ++ onwards) := inOrder_of_times (by decide +kernel)
theorem changed_ordered : CallsInOrder (soFar ++ changed) := inOrder_of_times (by decide +kernel)
theorem onwards_sats : ∀ c ∈ soFar ++ onwards, (match c with | .inav _ v _ _ => v | .osnma _ v _ => v) = sv 1 := by decide +kernel
theorem changed_sats : ∀ c ∈ soFar ++ changed, (match c with | .inav _ v _ _ => v | .osnma _ v _ => v) = sv 1 := by decide +kernel

/-- The data does not change while the words are of the subframe of the last one. -/
def steady (a b : List InavCall) : Bool :=
  match a.getLast? with
  | none => true
  | some l => (List.range (b.length + 1)).all (fun n => !(b.take n).all (fun c => c.gst.subframe.wn == l.gst.subframe.wn && c.gst.subframe.tow == l.gst.subframe.tow) ||
      NavKind.ced.expected (a ++ b.take n) (sv 1) == NavKind.ced.expected a (sv 1))

theorem steady_spec {a b : List InavCall} (h : steady a b = true) : SteadyUntilEnd .ced (sv 1) a b := by
  intro p r l e hl hp
  unfold steady at h
  rw [hl] at h
  have := List.all_eq_true.1 h p.length (by rw [List.mem_range, e, List.length_append]; omega)
  rw [e, List.take_left, Bool.or_eq_true] at this
  rcases this with h | h
  · rw [Bool.not_eq_true', Bool.eq_false_iff] at h
    refine absurd (List.all_eq_true.2 fun c hc => ?_) h
    rw [hp c hc]
    simp
  · exact beq_iff_eq.1 h

theorem onwards_steady : steady (inavsOf soFar) (inavsOf onwards) = true := by decide +kernel

end Sim

open Sim

/-- The hypotheses of `C82_reports_last` are met: data with 40 bits is reported in the middle of a subframe; after the rest of it and a subframe with other data, it is still reported, with more bits. -/
example : ∃ (before after : List Call) (log₁ log₂ : List (KeyEvent toy)) (o₁ o₂ : Osnma toy) (d₁ d₂ : NavMessageData),
    Logs Sim.S (Osnma.new Sim.S none (some (pub 1)) false) before log₁ o₁ ∧ Logs Sim.S (Osnma.new Sim.S none (some (pub 1)) false) (before ++ after) log₂ o₂ ∧
    CallsInOrder (before ++ after) ∧ Fits Sim.S (inavsOf (before ++ after)) ∧ o₁.get Sim.S .ced (sv 1) = .ok (some d₁) ∧
    o₂.get Sim.S .ced (sv 1) = .ok (some d₂) ∧ d₁.authbits = 40 ∧ d₂.authbits = 80 ∧ d₁.gst.abs ≤ d₂.gst.abs ∧
    SteadyUntilEnd .ced (sv 1) (inavsOf before) (inavsOf after) := by
  obtain ⟨log₁, o₁, h₁, g₁⟩ := reportIn_some soFar_report
  obtain ⟨x, hx, hxx⟩ := Option.bind_eq_some_iff.1 onwards_report
  obtain rfl : x = some (80, 36240) := hxx
  obtain ⟨log₂, o₂, h₂, g₂⟩ := reportIn_some hx
  obtain ⟨d₁, hd₁, b₁, _⟩ := got_some g₁
  obtain ⟨d₂, hd₂, b₂, _⟩ := got_some g₂
  have hf := (fits_of_sats (S := Sim.S) (by decide) onwards_sats).1
  have hst := steady_spec onwards_steady
  refine ⟨soFar, onwards, log₁, log₂, o₁, o₂, d₁, d₂, h₁, h₂, onwards_ordered, hf, hd₁, hd₂, b₁, b₂, ?_, hst⟩
  exact (C82_reports_last S_consistent (.inr ⟨pub 1, false, rfl⟩) h₁ h₂ onwards_ordered.pages onwards_ordered.words hf hd₁ hst hd₂).1

/-- **C82, the hypothesis is needed.**  If the data changes in the middle of a subframe, the time reported goes back. -/
theorem C82_change_counterexample :
    ∃ (before after : List Call) (v : Svn) (o₁ o₂ : Osnma toy) (d₁ d₂ : NavMessageData), CallsInOrder (before ++ after) ∧
      Fits Sim.S (inavsOf (before ++ after)) ∧ run Sim.S withKey before = .ok o₁ ∧ run Sim.S withKey (before ++ after) = .ok o₂ ∧
      o₁.get Sim.S .ced v = .ok (some d₁) ∧ o₂.get Sim.S .ced v = .ok (some d₂) ∧ d₂.gst.tow + 30 = d₁.gst.tow := by
  obtain ⟨log₁, o₁, h₁, g₁⟩ := reportIn_some soFar_report
  obtain ⟨log₂, o₂, h₂, g₂⟩ := reportIn_some changed_report
  obtain ⟨d₁, hd₁, _, t₁⟩ := got_some g₁
  obtain ⟨d₂, hd₂, _, t₂⟩ := got_some g₂
  exact ⟨soFar, changed, sv 1, o₁, o₂, d₁, d₂, changed_ordered, (fits_of_sats (S := Sim.S) (by decide) changed_sats).1, h₁.run, h₂.run, hd₁, hd₂,
    by rw [t₁, t₂]⟩

end Verif
