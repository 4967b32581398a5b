import Verif.Props.OtherWords
import Verif.Props.StorageSizeExample

/-! # C83: a case -/

namespace Verif
namespace Sim

/-- Two histories step by step. -/
inductive Pair
  | both (c : Call)
  | other (c c' : InavCall)
  | left (c : InavCall)
  | right (c : InavCall)

def Pair.l : Pair → List Call
  | .both c => [c]
  | .other c _ => [c.call]
  | .left c => [c.call]
  | .right _ => []

def Pair.r : Pair → List Call
  | .both c => [c]
  | .other _ c' => [c'.call]
  | .left _ => []
  | .right c => [c.call]

def beside (c : InavCall) (h : List Call) : Bool :=
  c.svn != sv 1 || (inavsOf h).any (fun d => d.svn == sv 1) && NavKind.ced.fields.all (fun f => !NavKind.ced.carries c f)

theorem beside_spec {c : InavCall} {h : List Call} (hb : beside c h = true) : c.Beside .ced (sv 1) h := by
  unfold beside at hb
  rw [Bool.or_eq_true, Bool.and_eq_true] at hb
  rcases hb with hb | ⟨h1, h2⟩
  · exact .inl (bne_iff_ne.1 hb)
  · obtain ⟨d, hd, e⟩ := List.any_eq_true.1 h1
    refine .inr ⟨⟨d, hd, beq_iff_eq.1 e⟩, fun f hf => ?_⟩
    have := List.all_eq_true.1 h2 f hf
    simpa using this

def sameSub (a b : InavCall) : Bool := a.gst.subframe.wn == b.gst.subframe.wn && a.gst.subframe.tow == b.gst.subframe.tow

theorem sameSub_spec {a b : InavCall} (h : sameSub a b = true) : a.gst.subframe = b.gst.subframe := by
  unfold sameSub at h
  rw [Bool.and_eq_true, beq_iff_eq, beq_iff_eq] at h
  refine Gst.abs_inj ?_
  unfold Gst.abs
  rw [h.1, h.2]

def seen (c : InavCall) (h : List Call) : Bool := (inavsOf h).any (fun d => sameSub d c)

theorem seen_spec {c : InavCall} {h : List Call} (hb : seen c h = true) : c.SubframeSeen h := by
  obtain ⟨d, hd, e⟩ := List.any_eq_true.1 hb
  exact ⟨d, hd, sameSub_spec e⟩

def Pair.ok (h h' : List Call) : Pair → Bool
  | .both _ => true
  | .other c c' => beside c h && beside c' h' && sameSub c c'
  | .left c => beside c h && seen c h
  | .right c => beside c h' && seen c h'

def pairsOk (h h' : List Call) : List Pair → Bool
  | [] => true
  | x :: l => x.ok h h' && pairsOk (h ++ x.l) (h' ++ x.r) l

theorem pairsOk_spec {h h' : List Call} (hs : SameFor .ced (sv 1) h h') (l : List Pair) (hok : pairsOk h h' l = true) :
    SameFor .ced (sv 1) (h ++ l.flatMap Pair.l) (h' ++ l.flatMap Pair.r) := by
  induction l generalizing h h' with
  | nil => simpa using hs
  | cons x l ih =>
    unfold pairsOk at hok
    rw [Bool.and_eq_true] at hok
    rw [List.flatMap_cons, List.flatMap_cons, ← List.append_assoc, ← List.append_assoc]
    refine ih ?_ hok.2
    have hx := hok.1
    cases x with
    | both c => exact .both hs c
    | other c c' =>
      unfold Pair.ok at hx
      rw [Bool.and_eq_true, Bool.and_eq_true] at hx
      exact .other hs c c' (beside_spec hx.1.1) (beside_spec hx.1.2) (sameSub_spec hx.2)
    | left c =>
      unfold Pair.ok at hx
      rw [Bool.and_eq_true] at hx
      have := SameFor.left hs c (beside_spec hx.1) (seen_spec hx.2)
      rw [show h' ++ (Pair.left c).r = h' from List.append_nil _]
      exact this
    | right c =>
      unfold Pair.ok at hx
      rw [Bool.and_eq_true] at hx
      have := SameFor.right hs c (beside_spec hx.1) (seen_spec hx.2)
      rw [show h ++ (Pair.right c).l = h from List.append_nil _]
      exact this

/-- A word of the other history. -/
def other (ty fill sat tow : Nat) : InavCall := ⟨word ty fill, sv sat, gst tow, .E1B⟩

/-- Eight subframes.  In the first history satellite 2 sends some words; in the second one they are others, and in part of satellite 3; the timing parameters of
satellite 1 are only in the first. -/
def pairs : List Pair :=
  (List.range 8).flatMap (fun i => let t := 36000 + 30 * i
    [.both (.inav (word 1 0x35) (sv 1) (gst t) .E1B), .other (other 1 0x11 2 t) (other 2 0x22 3 t), .right (other 4 0x33 3 t)] ++
    [2, 3, 4, 5].map (fun ty => .both (.inav (word ty 0x35) (sv 1) (gst t) .E1B)) ++ [6, 10].map (fun ty => .left (other ty 0x35 1 t)) ++
    (subframe (chain 1) 1 2 t 1 0x35 hdr1 3 (i % 8) kroot11).map Pair.both)

def pairL : List Call := pairs.flatMap Pair.l
def pairR : List Call := pairs.flatMap Pair.r

theorem pairs_same : SameFor .ced (sv 1) pairL pairR := by
  have := pairsOk_spec .nil pairs (by decide +kernel)
  exact this

/-- Places for three satellites. -/
def threeSats : Storage := ⟨3, 13, 39, 12, 36⟩

theorem pairL_report : reportIn threeSats (Osnma.new threeSats none (some (pub 1)) false) pairL = some (some (40, 36210)) := by decide +kernel
theorem pairR_report : reportIn threeSats (Osnma.new threeSats none (some (pub 1)) false) pairR = some (some (40, 36210)) := by decide +kernel
theorem pairL_order : CallsInOrder pairL := inOrder_of_times (by decide +kernel)
theorem pairR_order : CallsInOrder pairR := inOrder_of_times (by decide +kernel)
theorem pairL_sats : ∀ c ∈ inavsOf pairL, c.svn ∈ [sv 1, sv 2, sv 3] := by decide +kernel
theorem pairR_sats : ∀ c ∈ inavsOf pairR, c.svn ∈ [sv 1, sv 2, sv 3] := by decide +kernel

end Sim

open Sim

/-- The hypotheses of `C83_other_words_irrelevant` are met by two histories in which data of satellite 1 is reported. -/
example : ∃ (hist hist' : List Call) (log log' : List (KeyEvent toy)) (o o' : Osnma toy) (d d' : NavMessageData),
    SameFor .ced (sv 1) hist hist' ∧ inavsOf hist ≠ inavsOf hist' ∧
    Logs threeSats (Osnma.new threeSats none (some (pub 1)) false) hist log o ∧ Logs threeSats (Osnma.new threeSats none (some (pub 1)) false) hist' log' o' ∧
    CallsInOrder hist ∧ CallsInOrder hist' ∧ Fits threeSats (inavsOf hist) ∧ Fits threeSats (inavsOf hist') ∧
    o.get threeSats .ced (sv 1) = .ok (some d) ∧ o'.get threeSats .ced (sv 1) = .ok (some d') ∧ d' = d := by
  obtain ⟨log, o, h, g⟩ := reportIn_some pairL_report
  obtain ⟨log', o', h', g'⟩ := reportIn_some pairR_report
  obtain ⟨d, hd, _⟩ := got_some g
  obtain ⟨d', hd', _⟩ := got_some g'
  have hS : threeSats.Consistent := ⟨by decide, by decide, by decide, by decide, by decide⟩
  have hf : Fits threeSats (inavsOf pairL) := ⟨[sv 1, sv 2, sv 3], by decide, pairL_sats⟩
  have hf' : Fits threeSats (inavsOf pairR) := ⟨[sv 1, sv 2, sv 3], by decide, pairR_sats⟩
  refine ⟨pairL, pairR, log, log', o, o', d, d', pairs_same, ?_, h, h', pairL_order, pairR_order, hf, hf', hd, hd', ?_⟩
  · intro e
    have : (inavsOf pairL).length = (inavsOf pairR).length := by rw [e]
    revert this
    decide +kernel
  · exact Option.some.inj ((C83_other_words_irrelevant hS (.inr ⟨pub 1, false, rfl⟩) h h' pairs_same pairL_order.pages pairL_order.words pairR_order.words hf hf').2
      _ _ hd hd')

end Verif
