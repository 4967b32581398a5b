import Verif.Props.CaughtMachine
import Verif.Props.CaughtExample
import Verif.Props.SamePanicsExample
import Verif.Tests.Receive

/-! # C96: cases -/

namespace Verif

open Sim

/-- The chains of a history with caught panics. -/
def Sim.caughtChains (o0 : Osnma toy) (cs : List Call) : Option (List Chain) := (runCaught Sim.S o0 cs).map (fun r => chainsIn r.2.1)

theorem attacked_chains : caughtChains withKey attacked = some [onAir.root.chain] := by decide +kernel

theorem attacked_caught : ∃ (log : List (KeyEvent toy)) (o : Osnma toy), Caught Sim.S withKey attacked log o ∧
    log.map code = [[0, 82, 1, 1, 36210], [3, 1, 36210]] ∧ SensibleLog log := by
  have h := attacked_outcome
  unfold caughtOutcome at h
  obtain ⟨⟨n, log, o⟩, e, e'⟩ := Option.map_eq_some_iff.1 h
  simp only [Prod.mk.injEq] at e'
  obtain ⟨_, hc, _⟩ := e'
  refine ⟨log, o, by simpa using runCaught_caught attacked .nil e, hc, ?_⟩
  have hch := attacked_chains
  unfold caughtChains at hch
  rw [e] at hch
  simp only [Option.map_some, Option.some.injEq] at hch
  intro h data pk k g h' data' pk' k' g' hm hm'
  have a := mem_chainsIn hm
  have b := mem_chainsIn hm'
  rw [hch, List.mem_singleton] at a b
  rw [a, b]
  exact onAir_sound.sensible

/-- The hypotheses of `C96_always_goes_on` are met by a history with a panic. -/
theorem attacked_sensible : SensiblePages none (some (pub 1)) (pagesOf attacked) := by
  obtain ⟨log, o, h, _, hs⟩ := attacked_caught
  obtain ⟨rs, hr, hm⟩ := C96_reference_machine (root0 := none) (pk0 := some (pub 1)) (slow := false) h
  intro rs' log' hr' hm'
  obtain rfl := hr.unique hr'
  obtain rfl := C96_machine_deterministic hm hm'
  exact hs

theorem attacked_times : ∀ p ∈ pagesOf attacked, 360 ≤ p.sub.abs := by decide +kernel

/-- A receiver with another storage and with the Slow MAC setting goes on too, and accepts the same messages. -/
example : ∃ (log : List (KeyEvent toy)) (o : Osnma toy),
    Caught SmallStorage (Osnma.new SmallStorage none (some (pub 1)) true) attacked log o ∧ log.map code = [[0, 82, 1, 1, 36210], [3, 1, 36210]] := by
  have hS : SmallStorage.Consistent := by constructor <;> decide
  obtain ⟨log, o, h⟩ := C96_always_goes_on (S := SmallStorage) (root0 := none) (pk0 := some (pub 1)) (slow := true) hS (.inr ⟨_, _, rfl⟩)
    attacked_times attacked_sensible
  obtain ⟨log', o', h', hc, _⟩ := attacked_caught
  obtain ⟨rfl, _⟩ := C96_settings_irrelevant (root0 := none) (pk0 := some (pub 1)) (slow := true) (slow' := false) h h' rfl
  exact ⟨log, o, h, hc⟩

theorem completes_of_lengths {ps : List Page} {p : Page} {a b : List Received} (ha : ReceivedIn ps a) (hb : ReceivedIn (ps ++ [p]) b)
    (h : a.length ≠ b.length) : ∃ r, CompletesSubframe ps p r := by
  apply Classical.byContradiction
  intro hn
  have := hb.unique (.skip p ha (fun r hr => hn ⟨r, hr⟩))
  rw [this] at h
  exact h rfl

/-- The last page of the malformed DSM. -/
def Sim.lastPageOf (cs : List Call) : Option (OsnmaDataMessage × Svn × Gst) :=
  match cs.getLast? with
  | some (.osnma d s g) => some (d, s, g)
  | _ => none

def Sim.malformed : List Call := sendDsm hdr1 5 7 35790 shortKroot

theorem malformed_facts : (match lastPageOf malformed with
    | some (d, s, g) => decide (malformed.dropLast ++ [.osnma d s g] = malformed) && !(d.val.all (fun x => x == 0#8)) &&
        ((receivedOf (pagesOf malformed.dropLast)).length == 6) && ((receivedOf (pagesOf malformed)).length == 7)
    | none => false) = true ∧ (runCaught Sim.S withKey malformed.dropLast).map (fun r => (r.1, r.2.1.map code)) = some (0, []) ∧
    (runCaught Sim.S withKey malformed).map (fun r => (r.1, r.2.1.map code)) = some (1, []) := by decide +kernel

/-- The hypotheses of `C96_effect_of_a_subframe` are met by the subframe that makes the library panic. -/
example : ∃ (hist : List Call) (log log' : List (KeyEvent toy)) (o o' : Osnma toy) (rs : List Received) (data : OsnmaDataMessage) (svn : Svn) (gst : Gst)
    (r : Received), Caught Sim.S withKey hist log o ∧ ReceivedIn (pagesOf hist) rs ∧ rs.length = 6 ∧ data.val.all (fun x => x == 0#8) = false ∧
    CompletesSubframe (pagesOf hist) ⟨data, svn, gst⟩ r ∧ Caught Sim.S withKey (hist ++ [.osnma data svn gst]) log' o' := by
  obtain ⟨h1, h2, h3⟩ := malformed_facts
  cases hl : lastPageOf malformed with
  | none => rw [hl] at h1; cases h1
  | some x =>
    obtain ⟨d, s, g⟩ := x
    rw [hl] at h1
    simp only [Bool.and_eq_true, decide_eq_true_eq, Bool.not_eq_true', beq_iff_eq] at h1
    obtain ⟨⟨⟨e, hz⟩, l6⟩, l7⟩ := h1
    obtain ⟨⟨n, log, o⟩, e2, _⟩ := Option.map_eq_some_iff.1 h2
    obtain ⟨⟨n', log', o'⟩, e3, _⟩ := Option.map_eq_some_iff.1 h3
    have c2 : Caught Sim.S withKey malformed.dropLast log o := by simpa using runCaught_caught malformed.dropLast .nil e2
    have c3 : Caught Sim.S withKey malformed log' o' := by simpa using runCaught_caught malformed .nil e3
    have hr := receivedOf_spec (pagesOf malformed.dropLast)
    have hr' := receivedOf_spec (pagesOf malformed)
    have hp : pagesOf malformed = pagesOf malformed.dropLast ++ [⟨d, s, g⟩] := by rw [← pagesOf_page _ s g hz, e]
    rw [hp] at hr'
    obtain ⟨r, hc⟩ := completes_of_lengths hr hr' (by rw [← hp, l6, l7]; decide)
    exact ⟨_, _, _, _, _, _, d, s, g, r, c2, hr, l6, hz, hc, by rw [e]; exact c3⟩

end Verif
