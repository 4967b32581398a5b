import Verif.Props.Weeks
import Verif.Props.WorkExample

/-! # Concrete runs that meet the hypotheses of C88 -/

namespace Verif.Sim
open Verif

/-- The same call, 4096 weeks later. -/
def later (g : Gst) : Gst := if h : g.wn + 4096 < 65536 then ⟨g.wn + 4096, g.tow, h, g.htow⟩ else g

def laterCall : Call → Call
  | .inav w v g b => .inav w v (later g) b
  | .osnma d v g => .osnma d v (later g)

theorem late_check : check withKey ((nominal 8).map laterCall) (fun log _ => log.map code == [[0, hdr1.toNat, 1, 1, 36210]]) = true := by
  decide +kernel

/-- The broadcast of the nominal scenario, which gives authenticated data in week 1200: in week 5296 the KROOT is verified, and no key. -/
example : ∃ (log : List (KeyEvent toy)) (o : Osnma toy), Logs S withKey ((nominal 8).map laterCall) log o ∧ log ≠ [] ∧
    (∀ k, KeyEvent.tesla k ∉ log) ∧ ∀ kd v d, o.get S kd v ≠ .ok (some d) := by
  obtain ⟨log, o, hl, hc⟩ := check_some late_check
  refine ⟨log, o, hl, ?_, C88_nothing_from_week_4097 (root0 := none) (pk0 := some (pub 1)) (slow := false) S_consistent
    (.inr ⟨pub 1, false, rfl⟩) hl (by decide +kernel)⟩
  rintro rfl
  cases hc

/-! ## At the end of week 4095 -/

/-- Seconds from the start of week 4095, with the week number going on. -/
def endOfWeeks (s : Nat) : Gst :=
  if h : s < 2 * 604800 then ⟨4095 + s / 604800, s % 604800, by omega, Nat.mod_lt _ (by decide)⟩ else default

/-- The same, with the week number starting from 0 again. -/
def startOfWeeks (s : Nat) : Gst :=
  if s < 604800 then endOfWeeks s else ⟨0, s % 604800, by decide, Nat.mod_lt _ (by decide)⟩

/-- The key of the subframe `n` steps before the subframe `s` whose key is `k`. -/
def backFrom (c : Chain) : Nat → Nat → List Byte → List Byte
  | 0, _, k => k
  | n + 1, s, k => backFrom c n (s - 30) ((chainHash toy c (owfMessage c k (endOfWeeks (s - 30)))).take 16)

/-- The keys of a chain that lasts until 30 s after the end of week 4095. -/
def rollKey (s : Nat) : List Byte := backFrom (chain 1) ((604830 - s) / 30) 604830 (List.replicate 16 0xb1#8)

/-- The DSM-KROOT with a root key one hour before the end of week 4095. -/
def rollKroot : List Byte :=
  let f : KrootFields := {
    nb := 2, pkid := 1, cidkr := 1, rsvd1 := 0, hf := 0, mf := 0, ks := 4, ts := 9, maclt := 33,
    rsvd2 := 0, wn := 4095, towh := 167, alpha := (chain 1).alpha, kroot := rollKey (167 * 3600 - 30),
    signature := [], padding := [] }
  let body := packBytes f.bits
  let msg := hdr1 :: body.drop 1
  let sig := toyHash (pubBytes 1 ++ msg) ++ List.replicate 32 5#8
  body ++ sig ++ (toyHash (msg ++ sig)).take 11

/-- A subframe with block `b` of the DSM-KROOT and the key (no tags); `t` gives the time. -/
def rollSubframe (t : Nat → Gst) (s b : Nat) (kroot : List Byte) : List Call :=
  let mk := packBytes (List.replicate 336 true ++ bitsOf (rollKey s) ++ List.replicate 16 true)
  let hk := hdr1 :: BitVec.ofNat 8 (3 * 16 + b) :: (kroot.drop (13 * b)).take 13
  (List.range 15).map (fun i => .osnma (fix 5 (hk.getD i 0#8 :: (mk.drop (4 * i)).take 4)) (sv 1) (t (s + 2 * i)))

/-- Ten subframes, the last two after the end of week 4095. -/
def rollover (t : Nat → Gst) : List Call :=
  (List.range 10).flatMap (fun i => rollSubframe t (604800 - 240 + 30 * i) (i % 8) rollKroot)

/-- With a week number that goes on, keys are accepted over the end of week 4095. -/
theorem roll_on : check withKey (rollover endOfWeeks) (fun log _ => log.map (fun e => match e with
    | .tesla k => [k.gst.wn, k.gst.tow]
    | _ => []) == [[], [4095, 604770], [4096, 0], [4096, 30]]) = true := by decide +kernel

theorem roll_back : check withKey (rollover startOfWeeks) (fun log _ => log.map (fun e => match e with
    | .tesla k => [k.gst.wn, k.gst.tow]
    | _ => []) == [[], [4095, 604770]]) = true := by decide +kernel

theorem roll_before : check withKey ((rollover startOfWeeks).take 120) (fun log _ => match log with
    | [.kroot h _ _ _ _, .tesla k] => decide (h.data = hdr1 ∧ k.gst.abs = 4096 * 604800 - 30)
    | _ => false) = true := by decide +kernel

/-- With one that starts again from 0, the hypotheses of `C88_nothing_after_going_back` are met: the same bytes are received, and the two keys
after the end of week 4095 are not accepted. -/
example : ∃ (log₁ log₂ l₁ l₂ : List (KeyEvent toy)) (o₁ o : Osnma toy) (k : Verif.Key),
    Logs S withKey ((rollover startOfWeeks).take 120) log₁ o₁ ∧ Logs S o₁ ((rollover startOfWeeks).drop 120) log₂ o ∧
      log₁ = l₁ ++ .tesla k :: l₂ ∧ (∀ e ∈ l₂ ++ log₂, ¬ e.Drops k.chain.id) ∧
      ∀ p ∈ pagesOf ((rollover startOfWeeks).drop 120), p.sub.abs ≤ k.gst.abs := by
  obtain ⟨log, o, hl, hc⟩ := check_some roll_back
  obtain ⟨log₁, o₁, hl₁, hc₁⟩ := check_some roll_before
  rw [← List.take_append_drop 120 (rollover startOfWeeks)] at hl
  obtain ⟨log₁', o₁', log₂, k₁, k₂, e⟩ := Logs.split hl
  obtain ⟨rfl, rfl⟩ := k₁.unique hl₁
  subst e
  match log₁, hc₁ with
  | [.kroot h _ _ _ _, .tesla k], hc₁ =>
    obtain ⟨e1, e2⟩ := of_decide_eq_true hc₁
    have hlen := congrArg List.length (beq_iff_eq.1 hc)
    rw [List.length_map, List.length_append] at hlen
    have h2 : log₂ = [] := by simpa using hlen
    subst h2
    refine ⟨_, [], [.kroot h _ _ _ _], [], o₁, o, k, hl₁, k₂, rfl, by simp, ?_⟩
    rw [e2]
    decide +kernel

end Verif.Sim
