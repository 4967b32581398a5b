import Verif.Props.Work
import Verif.Tests.ScenariosChain

/-! # C80: cases -/

namespace Verif
namespace Sim

/-- Hashes, MACs and operations on an elliptic curve. -/
def counts (l : List (Op toy)) : Nat × Nat × Nat := (l.countP Op.isHash, l.countP Op.isMac, l.countP Op.isPublicKey)

/-- The keys of a message are of a time in an interval. -/
def keyWithin (lo hi : Gst) : KeyEvent toy → Bool
  | .kroot _ _ _ k _ | .tesla k => decide (lo.abs ≤ k.gst.abs) && decide (k.gst.abs ≤ hi.abs)
  | _ => true

/-- The operations of a call after a history, if all the TESLA keys accepted up to the call are of a time in an interval. -/
def workAfter (o0 : Osnma toy) (h : List Call) (c : Call) (lo hi : Gst) : Option (Nat × Nat × Nat) :=
  match runLog S o0 h with
  | .panic _ => none
  | .ok (log, o) => match c.run S o with
    | .panic _ => none
    | .ok _ => if (log ++ o.events S c).all (keyWithin lo hi) then some (counts (c.work S o)) else none

theorem workAfter_some {o0 : Osnma toy} {h : List Call} {c : Call} {lo hi : Gst} {x : Nat × Nat × Nat} (hw : workAfter o0 h c lo hi = some x) :
    ∃ log o o', Logs S o0 h log o ∧ c.run S o = .ok o' ∧ counts (c.work S o) = x ∧
      ∀ k, (.tesla k ∈ log ++ o.events S c ∨ ∃ hd data pk g, .kroot hd data pk k g ∈ log ++ o.events S c) → lo.abs ≤ k.gst.abs ∧ k.gst.abs ≤ hi.abs := by
  unfold workAfter at hw
  cases hr : runLog S o0 h with
  | panic w => rw [hr] at hw; cases hw
  | ok p =>
    obtain ⟨log, o⟩ := p
    rw [hr] at hw
    dsimp only at hw
    cases hc : c.run S o with
    | panic w => rw [hc] at hw; cases hw
    | ok o' =>
      rw [hc] at hw
      dsimp only at hw
      by_cases ha : (log ++ o.events S c).all (keyWithin lo hi) = true
      · rw [if_pos ha] at hw
        refine ⟨log, o, o', runLog_logs hr, hc, Option.some.inj hw, ?_⟩
        intro k hk
        have h1 : decide (lo.abs ≤ k.gst.abs) && decide (k.gst.abs ≤ hi.abs) := by
          rcases hk with hk | ⟨_, _, _, _, hk⟩
          · exact List.all_eq_true.1 ha _ hk
          · exact List.all_eq_true.1 ha _ hk
        simpa using h1
      · rw [if_neg ha] at hw; cases hw

/-- The page that completes a subframe. -/
def lastOf (h : List Call) : Call := h.getLast?.getD (.inav (word 1 0) (sv 1) (gst 0) .E1B)

/-- The call that completes the DSM-KROOT and discloses the key of 36210 evaluates 19 hashes and 3 MACs, and checks a signature. -/
theorem nominal_work : workAfter withKey (nominal 8).dropLast (lastOf (nominal 8)) (gst 35970) (gst 36210) = some (19, 3, 1) := by decide +kernel

theorem nominal_calls : (nominal 8).dropLast ++ [lastOf (nominal 8)] = nominal 8 ∧ (lastOf (nominal 8)).gst.subframe = gst 36210 := by
  refine ⟨?_, by decide +kernel⟩
  have hne : nominal 8 ≠ [] := by
    have : (nominal 8).length ≠ 0 := by decide +kernel
    intro h; rw [h] at this; exact this rfl
  have : lastOf (nominal 8) = (nominal 8).getLast hne := by
    unfold lastOf; rw [List.getLast?_eq_some_getLast hne]; rfl
  rw [this, List.dropLast_concat_getLast hne]

/-- Adjacent numbers are in order. -/
def sortedFrom : Nat → List Nat → Bool
  | _, [] => true
  | a, b :: l => decide (a ≤ b) && sortedFrom b l

theorem sortedFrom_pairwise : ∀ (l : List Nat) (a : Nat), sortedFrom a l = true → (a :: l).Pairwise (· ≤ ·)
  | [], _, _ => List.pairwise_singleton _ _
  | b :: l, a, h => by
    unfold sortedFrom at h
    rw [Bool.and_eq_true, decide_eq_true_eq] at h
    have ih := sortedFrom_pairwise l b h.2
    refine List.pairwise_cons.2 ⟨fun x hx => ?_, ih⟩
    rcases List.mem_cons.1 hx with rfl | hx
    · exact h.1
    · exact Nat.le_trans h.1 ((List.pairwise_cons.1 ih).1 x hx)

/-- The subframes of the calls, in seconds. -/
def times (h : List Call) : List Nat := h.map fun c => c.gst.subframe.abs.toNat

theorem inOrder_of_times {h : List Call} (hs : sortedFrom 0 (times h) = true) : CallsInOrder h := by
  have h1 := (List.pairwise_cons.1 (sortedFrom_pairwise _ _ hs)).2
  unfold CallsInOrder
  refine ((List.pairwise_map (R := (· ≤ ·))).1 h1).imp fun {a b} hab => ?_
  have e1 : (0 : Int) ≤ a.gst.subframe.abs := by unfold Gst.abs; omega
  have e2 : (0 : Int) ≤ b.gst.subframe.abs := by unfold Gst.abs; omega
  omega

/-- Far in the future: DSM-KROOT of chain 1 with a root key of 39570 (11 h). -/
def farKrootBytes : List Byte := signKroot hdr1 1 {
    nb := 2, pkid := 1, cidkr := 1, rsvd1 := 0, hf := 0, mf := 0, ks := 4, ts := 9, maclt := 33,
    rsvd2 := 0, wn := 1200, towh := 11, alpha := 0x112233445566, kroot := lateRoot,
    signature := [], padding := [] }

def farKroot : List Byte :=
  [33, 64, 73, 33, 4, 176, 11, 17, 34, 51, 68, 85, 102].map (BitVec.ofNat 8) ++ List.replicate 16 91#8 ++ List.replicate 32 65#8 ++
    List.replicate 32 5#8 ++ List.replicate 11 107#8

theorem farKroot_eq : farKroot = farKrootBytes := by decide +kernel

/-- That DSM-KROOT, then the one of chain 2, under a header that puts chain 2 in force, and then the key of chain 2 of 36270. -/
def farBefore : List Call := sendDsm hdr1 5 8 35550 farKroot ++ sendDsm hdr2 4 8 35790 kroot21cid2 ++ farPages.dropLast
where farPages : List Call := pages 1 36270 (hkroot hdr2 4 5 kroot21cid2) (mackBits (chain 2) 1 2 36270 1 0x35 1)

/-- The key of chain 2 is ten subframes after the one held, and accepting it takes ten hashes; but the Slow MAC key of 35970 is derived from the root
key of chain 1, with 120 hashes. -/
theorem far_work : workAfter withKey farBefore (lastOf farBefore.farPages) (gst 35970) (gst 39570) = some (130, 1, 0) := by decide +kernel

theorem far_call : (lastOf farBefore.farPages).gst.subframe = gst 36270 := by decide +kernel

theorem far_order : CallsInOrder (farBefore ++ [lastOf farBefore.farPages]) := inOrder_of_times (by decide +kernel)

end Sim

/-- The hypotheses of `C80_in_order` and `C80_tracking` (with a key at most 8 subframes old) are met by a call that evaluates 19 hashes, 3 MACs and checks a
signature; the bounds are 23, 756 and 1. -/
example : ∃ (log : List (KeyEvent Sim.toy)) (o o' : Osnma Sim.toy) (hist : List Call) (c : Call), hist ++ [c] = Sim.nominal 8 ∧
    Logs Sim.S Sim.withKey hist log o ∧ c.run Sim.S o = .ok o' ∧ Sim.counts (c.work Sim.S o) = (19, 3, 1) ∧
    (∀ h data pk key g, KeyEvent.kroot h data pk key g ∈ log ++ o.events Sim.S c → key.gst.abs ≤ c.gst.subframe.abs) ∧
    (∀ l₁ l₂, o.events Sim.S c = l₁ ++ l₂ → ∀ k, InForce (log ++ l₁) k → c.gst.subframe.abs ≤ k.gst.abs + 30 * (8 : Nat)) ∧
    CallsInOrder (hist ++ [c]) ∧ AtMost (c.work Sim.S o) (15 + 8) (21 * min 36 Sim.S.numSats) 1 := by
  obtain ⟨log, o, o', h1, h2, h3, h4⟩ := Sim.workAfter_some Sim.nominal_work
  have hr : ∀ h data pk key g, KeyEvent.kroot h data pk key g ∈ log ++ o.events Sim.S (Sim.lastOf (Sim.nominal 8)) →
      key.gst.abs ≤ (Sim.lastOf (Sim.nominal 8)).gst.subframe.abs := by
    intro h data pk key g hk
    rw [Sim.nominal_calls.2]
    exact (h4 key (.inr ⟨_, _, _, _, hk⟩)).2
  have hN : ∀ l₁ l₂, o.events Sim.S (Sim.lastOf (Sim.nominal 8)) = l₁ ++ l₂ → ∀ k, InForce (log ++ l₁) k →
      (Sim.lastOf (Sim.nominal 8)).gst.subframe.abs ≤ k.gst.abs + 30 * (8 : Nat) := by
    intro l₁ l₂ he k hk
    rw [Sim.nominal_calls.2]
    have hm : ∀ e, e ∈ log ++ l₁ → e ∈ log ++ o.events Sim.S (Sim.lastOf (Sim.nominal 8)) := by
      intro e h
      rw [he, ← List.append_assoc]
      exact List.mem_append_left _ h
    have := (h4 k ((teslaHeld_mem _ hk.1).imp (hm _) (fun ⟨a, b, d, e, h⟩ => ⟨a, b, d, e, hm _ h⟩))).1
    have e1 : (Sim.gst 36210).abs = (Sim.gst 35970).abs + 240 := by decide
    omega
  have ho : CallsInOrder ((Sim.nominal 8).dropLast ++ [Sim.lastOf (Sim.nominal 8)]) := by
    rw [Sim.nominal_calls.1]
    exact Sim.inOrder_of_times (by decide +kernel)
  exact ⟨log, o, o', _, _, Sim.nominal_calls.1, h1, h2, h3, hr, hN, ho,
    C80_tracking (root0 := none) (slow := false) Sim.S_consistent (.inr ⟨Sim.pub 1, false, rfl⟩) h1 h2 ho hr 8 hN⟩

/-- The hypothesis on the root keys cannot be dropped: with a verified root key of the other chain of a later time, a call in chronological order, with a key in force
that is ten subframes old, evaluates 130 hashes and not at most 25.  `C80_bounded_work` gives the bound with `D = 120`. -/
theorem C80_future_root_costs : ∃ (log : List (KeyEvent Sim.toy)) (o o' : Osnma Sim.toy) (hist : List Call) (c : Call),
    Logs Sim.S Sim.withKey hist log o ∧ c.run Sim.S o = .ok o' ∧ CallsInOrder (hist ++ [c]) ∧
    (∀ l₁ l₂, o.events Sim.S c = l₁ ++ l₂ → ∀ k, InForce (log ++ l₁) k → c.gst.subframe.abs ≤ k.gst.abs + 30 * (10 : Nat)) ∧
    (c.work Sim.S o).countP Op.isHash = 130 ∧ AtMost (c.work Sim.S o) (3005 + 120) (21 * min 36 Sim.S.numSats) 1 := by
  obtain ⟨log, o, o', h1, h2, h3, h4⟩ := Sim.workAfter_some Sim.far_work
  have e1 : (Sim.gst 36270).abs = (Sim.gst 35970).abs + 300 := by decide
  have e2 : (Sim.gst 39570).abs = (Sim.gst 35970).abs + 3600 := by decide
  refine ⟨log, o, o', _, _, h1, h2, Sim.far_order, ?_, congrArg Prod.fst h3, ?_⟩
  · intro l₁ l₂ he k hk
    rw [Sim.far_call]
    have hm : ∀ e, e ∈ log ++ l₁ → e ∈ log ++ o.events Sim.S (Sim.lastOf Sim.farBefore.farPages) := by
      intro e h
      rw [he, ← List.append_assoc]
      exact List.mem_append_left _ h
    have := (h4 k ((teslaHeld_mem _ hk.1).imp (hm _) (fun ⟨a, b, d, e, h⟩ => ⟨a, b, d, e, hm _ h⟩))).1
    omega
  · refine C80_bounded_work (root0 := none) (slow := false) Sim.S_consistent (.inr ⟨Sim.pub 1, false, rfl⟩) h1 h2 120 fun k hk => ?_
    rw [Sim.far_call]
    have := (h4 k (teslaHeld_mem _ hk)).2
    omega

end Verif
