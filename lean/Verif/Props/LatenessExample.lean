import Verif.Props.Lateness
import Verif.Props.OperatorExample
import Verif.Props.WorkExample

/-! # C92: cases, and the other side: signals one minute late can be forged -/

namespace Verif.Sim
open Verif

/-- All the signals are received this many seconds late. -/
def delayed (late : Int) (h : List Call) : List (Call × Int) := h.map (fun c => (c, c.gst.abs + late))

theorem callsOf_delayed (late : Int) (h : List Call) : callsOf (delayed late h) = h := by
  unfold callsOf delayed
  rw [List.map_map]
  exact List.map_id _

theorem delayed_notLater (late : Int) (h : List Call) : NotLaterThan (delayed late h) late := by
  intro x hx
  obtain ⟨c, _, rfl⟩ := List.mem_map.1 hx
  exact Int.le_refl _

/-- The broadcast `nominal 8`, but with other navigation data and with tags for this data. -/
def otherData : List Call :=
  (List.range 8).flatMap (fun i =>
    navCalls 1 0x53 (36000 + 30 * i) ++ subframe (chain 1) 1 2 (36000 + 30 * i) 1 0x53 hdr1 3 (i % 8) kroot11)

theorem otherData_accepted : ∃ (log : List (KeyEvent toy)) (o : Osnma toy) (d : NavMessageData), Logs S withBoth otherData log o ∧
    log.all ownEvent = true ∧ o.get S .ced (sv 1) = .ok (some d) ∧ d.data = navData .ced 1 0x53 := by
  obtain ⟨log, o, h, hc⟩ := check_some (o0 := withBoth) (h := otherData)
    (f := fun l o => l.all ownEvent && (match o.get S .ced (sv 1) with
      | .ok (some d) => d.data == navData .ced 1 0x53
      | _ => false)) (by decide +kernel)
  simp only [Bool.and_eq_true] at hc
  obtain ⟨h1, h2⟩ := hc
  split at h2
  · rename_i d hd
    exact ⟨log, o, d, h, h1, hd, eq_of_beq h2⟩
  · cases h2

theorem otherData_order : CallsInOrder otherData := inOrder_of_times (by decide +kernel)

theorem nominal8_order : CallsInOrder (nominal 8) := inOrder_of_times (by decide +kernel)

/-- The hypotheses of C92 are met by the nominal broadcast, 28 seconds late.  If its satellites had made no tags, it would be seen to be forged
by somebody without the keys. -/
example : ∃ (log : List (KeyEvent toy)) (o : Osnma toy) (d : NavMessageData) (us : List (Nat × TagUse)),
    Logs S withBoth (callsOf (delayed 28 (nominal 8))) log o ∧ o.get S .ced (sv 1) = .ok (some d) ∧ us.Nodup ∧
    40 ≤ (us.map (fun p => p.2.tag.tag.length)).sum ∧
    ∀ p ∈ us, ∃ last, (operator (fun _ _ _ => False)).ForgedBeforeKey (delayed 28 (nominal 8)) .ced (sv 1) d.data last p.2 := by
  obtain ⟨log, o, d, h, h1, h2, h3⟩ := nominal_honest
  have hs : (operator (fun _ _ _ => False)).Sound := operator_sound (fun _ _ _ h => h.elim)
  rw [← callsOf_delayed 28 (nominal 8)] at h
  have hord : Chronological (inavsOf (callsOf (delayed 28 (nominal 8)))) := by
    rw [callsOf_delayed]
    exact CallsInOrder.words nominal8_order
  rcases C92_forgery_without_the_keys S_consistent (.inl ⟨root, some (pub 1), false, rfl⟩) hs operator_trusted h (delayed_notLater 28 _)
    (by decide) hord .ced h2 (fun _ _ _ _ _ _ h => h) with ⟨us, e1, e2, e3⟩ | e
  · exact ⟨log, o, d, us, h, h2, e1, e2, e3⟩
  · exact absurd e (nominal_not_broken hs h1)

/-- A receiver with `only_slowmac` and signals 328 seconds late. -/
example : ∃ (o : Osnma toy) (d : NavMessageData), run S slowOnly (callsOf (delayed 328 (nominal 13))) = .ok o ∧
    o.get S .ced (sv 1) = .ok (some d) ∧ ∃ us : List (Nat × TagUse), us ≠ [] ∧ ∀ p ∈ us,
      p.2.Heard (receivedBefore (delayed 328 (nominal 13)) (keyIsOut p.2.key)) := by
  obtain ⟨log, o, h, h1, h2⟩ := outcome_some slow13
  obtain ⟨d, hd, _⟩ := got_some h2.1
  have hr := h.run
  rw [← callsOf_delayed 328 (nominal 13)] at hr
  obtain ⟨us, e1, e2, e3, e4⟩ := C92_tags_before_keys_are_out (root0 := none) (pk0 := some (pub 1)) (slow := true) S_consistent
    (.inr ⟨_, _, rfl⟩) hr (delayed_notLater 328 _) (by decide) .ced hd
  refine ⟨o, d, hr, hd, us, ?_, fun p hp => (e4 p hp).2⟩
  rintro rfl
  simp at e3
  omega

end Verif.Sim

namespace Verif

/-- **C92** the other side: signals that are one minute late can be forged with keys that are public.  A receiver is fed with words that the satellites
never sent and tags for them, each page at least one minute after the time passed with it, when the keys of its subframe and of the next one,
and so all the keys in use, have been out for at least the two seconds that their last page takes; the only signed message is one of the operator.
The getter gives the false data, and nothing is broken. -/
theorem C92_late_signals_can_be_forged : ∃ (op : Operator Sim.toy) (th : List (Call × Int)) (log : List (KeyEvent Sim.toy)) (o : Osnma Sim.toy)
    (d : NavMessageData), op.Sound ∧ op.Trusted (some Sim.root) (some (Sim.pub 1)) ∧ Logs Sim.S Sim.withBoth (callsOf th) log o ∧
    ¬ op.Broken log ∧ CallsInOrder (callsOf th) ∧ NotLaterThan th 60 ∧
    (∀ x ∈ th, ∀ k : Key, k.gst.abs ≤ x.1.gst.subframe.abs + 30 → keyIsOut k + 2 ≤ x.2) ∧
    o.get Sim.S .ced (Sim.sv 1) = .ok (some d) ∧
    ∀ last g ctr prna gst st, ¬ op.tagged last g ⟨ctr, (Sim.sv 1).val, prna, gst, st, d.data⟩ := by
  obtain ⟨log, o, d, h, h1, h2, h3⟩ := Sim.otherData_accepted
  refine ⟨Sim.operator Sim.madeTags, Sim.delayed 60 Sim.otherData, log, o, d, Sim.madeTags_sound, Sim.operator_trusted, ?_,
    Sim.nominal_not_broken Sim.madeTags_sound h1, ?_, Sim.delayed_notLater 60 _, ?_, h2, ?_⟩
  · rw [Sim.callsOf_delayed]; exact h
  · rw [Sim.callsOf_delayed]; exact Sim.otherData_order
  · intro x hx k hk
    obtain ⟨c, _, rfl⟩ := List.mem_map.1 hx
    have := (tags_before_key k.chain).2
    dsimp only at hk ⊢
    rw [Gst.subframe_abs] at hk
    unfold keyIsOut
    omega
  · rintro last g ctr prna gst st ⟨_, _, hb, _⟩
    dsimp only at hb
    rw [h3] at hb
    exact absurd hb (by decide +kernel)

end Verif
