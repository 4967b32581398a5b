import Verif.Props.PlaceMachine
import Verif.Props.PlacesExample

/-! # A concrete run that meets the hypotheses of C87 -/

namespace Verif.Sim
open Verif

theorem busy_auth : check withKey busy (fun _ o => match o.get S .ced (sv 1) with
    | .ok (some d) => decide (d.data = navData .ced 1 0x35 ∧ d.authbits = 40)
    | _ => false) = true := by decide +kernel

/-- Three satellites are heard and there are two places (so that C63 does not apply): the machine has the data of satellite 1 with 40
authentication bits. -/
example : ∃ (rs : List Received) (log : List (KeyEvent toy)) (fs : List PlaceFrame) (t : Int),
    S.numSats = 2 ∧ (heard (inavsOf busy)).length = 3 ∧ PlaceMachine none (some (pub 1)) S false busy rs log fs ∧
      authenticatedIn fs .ced (sv 1) = some (navData .ced 1 0x35, 40, t) := by
  obtain ⟨log, o, hl, hd⟩ := check_some busy_auth
  obtain ⟨rs, fs, h1, h2⟩ := C87_getters (S := S) (root0 := none) (pk0 := some (pub 1)) (slow := false)
    S_consistent (.inr ⟨pub 1, false, rfl⟩) hl busy_inOrder.pages busy_inOrder.words (by decide +kernel)
  obtain ⟨res, h3, h4⟩ := h2 .ced (sv 1)
  rw [h3] at hd
  cases res with
  | none => cases hd
  | some d =>
    obtain ⟨e1, e2⟩ := of_decide_eq_true hd
    refine ⟨rs, log, fs, d.gst.abs, rfl, by decide +kernel, h1, ?_⟩
    rw [← h4, Option.map_some, e1, e2]

end Verif.Sim
