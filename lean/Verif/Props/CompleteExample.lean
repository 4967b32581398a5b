import Verif.Props.Complete
import Verif.Tests.Scenarios

/-! # A concrete run that meets the hypotheses of C52, evaluated by the kernel -/

namespace Verif.Sim
open Verif

/-- The MACK message of satellite 1 in the subframe `tow` of the nominal scenario. -/
def nomMack (tow : Nat) : MackMessage := fix 60 (packBytes (mackBits (chain 1) 1 2 tow 1 0x35 1))

/-- The first tag (CED of satellite 1 itself) of the subframe 36180, with the key of the next subframe. -/
def nomTag : TagUse := ⟨key (chain 1) 36210, sv 1, gst 36180, .Test, mackTag (bitsOf (nomMack 36180).val) 40 (sv 1) 0⟩

theorem nom_pages : pagesIn (nominal 8) (sv 1) (gst 36180) =
    (List.range 15).map (fun i => ⟨fix 5 ((hdr1 :: 0x36#8 :: (kroot11.drop 78).take 13).getD i 0#8 :: ((nomMack 36180).val.drop (4 * i)).take 4),
      sv 1, gst (36180 + 2 * i)⟩) := by decide +kernel

theorem nom_whole : WholeMack (nominal 8) (sv 1) (gst 36180) .Test (nomMack 36180) where
  words := by
    rw [show (pagesIn (nominal 8) (sv 1) (gst 36180)).map Page.word = List.range 15 by decide +kernel]
    exact List.Sublist.refl _
  mack := by decide +kernel
  status := by decide +kernel

theorem nom_inOrder : InOrder S (nominal 8) (gst 36210) where
  pages := by
    have : ((pagesOf (nominal 8)).map (fun p => p.sub.abs)).Pairwise (· ≤ ·) := by decide +kernel
    exact List.pairwise_map.1 this
  words := by
    have h : ((inavsOf (nominal 8)).map (fun c => c.gst.subframe.abs)).Pairwise (· ≤ ·) := by decide +kernel
    intro i a b ha hb
    obtain ⟨hi, rfl⟩ := List.getElem?_eq_some_iff.1 ha
    obtain ⟨hj, rfl⟩ := List.getElem?_eq_some_iff.1 hb
    exact List.pairwise_iff_getElem.1 (List.pairwise_map.1 h) i (i + 1) hi hj (Nat.lt_succ_self i)
  noneAhead := by decide +kernel
  roomPages := fun _ => ⟨[sv 1], by decide, fun p hp _ =>
    (by decide +kernel : ∀ p ∈ pagesOf (nominal 8), p.svn ∈ [sv 1]) p hp⟩

/-- Going back zero steps. -/
theorem derives_same {C : Crypto} {c : Chain} {n : Nat} {x y : Gst × List Byte} (h : Derives C c n x y)
    (he : x.1.abs ≤ y.1.abs) : x = y := by
  have := h
  induction h with
  | zero => rfl
  | succ n g prev k z hprev h ih =>
    exfalso
    have : ∀ {n : Nat} {x y : Gst × List Byte}, Derives C c n x y → y.1.abs ≤ x.1.abs := by
      intro n x y h
      induction h with
      | zero => exact Int.le_refl _
      | succ n g prev k x hp _ ih => dsimp only at *; omega
    have := this h
    dsimp only at *
    omega

theorem nom_slots : icdSlots 33 (minuteHalf (gst 36180)) = some [.S00, .E00, .S04, .E00, .S12, .E00] := by decide +kernel

theorem nom_right {vk : Key} (hc : vk.chain = chain 1) (hb : vk.bytes = (key (chain 1) 36210).bytes) :
    MackRight toy vk (chain 1) (nomMack 36180) (sv 1) (gst 36180) := by
  refine ⟨?_, _, by rw [hc]; exact nom_slots, by decide +kernel, ?_, ?_⟩
  · intro h; rw [hc]; rfl
  · unfold MacseqOk macBits
    rw [hb, hc]
    decide +kernel
  · intro j h1 h2
    have hj : j < 6 := h2
    have : j = 1 ∨ j = 2 ∨ j = 3 ∨ j = 4 ∨ j = 5 := by omega
    have tagOf : ∀ s : Slot, ∀ t : TagSpec, (s.adkd = some t.adkd ∧ 1 ≤ t.prnd ∧ t.prnd ≤ 36 ∧ (s.isSelf = true → t.prnd = (sv 1).val)) →
        s.Allows (sv 1) t := by
      rintro s t ⟨e1, e2, e3, e4⟩ a ha
      rw [e1] at ha
      cases ha
      exact ⟨rfl, ⟨e2, e3⟩, e4⟩
    rcases this with rfl | rfl | rfl | rfl | rfl <;>
      exact ⟨_, rfl, tagOf _ _ (by decide +kernel)⟩

theorem nom_genuine : nomTag.Genuine toy S false (nominal 8) .ced (sv 1) (navData .ced 1 0x35) where
  prnd := by decide +kernel
  status := .inl rfl
  rightKey := .inl ⟨rfl, by decide +kernel, by decide +kernel, rfl⟩
  verifies := by unfold TagSpec.Verifies; decide +kernel
  mack := ⟨nomMack 36180, nom_whole, by decide +kernel, by
    intro vk n h1 h2 h3
    have := derives_same h3 (by dsimp only; rw [h2]; decide +kernel)
    rw [Prod.mk.injEq] at this
    exact nom_right h1 this.2.symm⟩
  data := by decide +kernel
  recent := by decide +kernel
  alive := by decide +kernel
  depthNav := by decide +kernel
  depthMack := by decide +kernel

/-- The last call of the scenario. -/
def nomLast : Call := (nominal 8).getLast (by decide +kernel)

theorem nom_event : check withKey ((nominal 8).take 175) (fun _ o =>
    (o.events S nomLast).any (fun e => match e with
      | .tesla k => k == nomTag.key
      | _ => false)) = true := by decide +kernel

theorem nom_due : TagDue S withKey false (nominal 8) .ced (sv 1) (navData .ced 1 0x35) 175 nomTag := by
  obtain ⟨log, o, hl, he⟩ := check_some nom_event
  refine ⟨log, o, nomLast, by decide +kernel, hl, ?_, ?_, ?_, ?_⟩
  · rw [List.any_eq_true] at he
    obtain ⟨e, h1, h2⟩ := he
    cases e with
    | tesla k => rw [← beq_iff_eq.1 h2]; exact h1
    | _ => cases h2
  · rw [show (nominal 8).take (175 + 1) = nominal 8 from List.take_of_length_le (by decide +kernel)]
    exact nom_inOrder
  · rw [show (nominal 8).take (175 + 1) = nominal 8 from List.take_of_length_le (by decide +kernel)]
    exact nom_genuine
  · intro h
    exact absurd h (by decide +kernel)

/-- The hypotheses of C52 are met: the data of satellite 1 did not change from call 161 on, one genuine tag of 40
bits is due at the last call, and the getter returns the data. -/
example : ∃ o d, run S withKey (nominal 8) = .ok o ∧ o.get S .ced (sv 1) = .ok (some d) ∧ d.data = navData .ced 1 0x35 ∧
    40 ≤ d.authbits := by
  obtain ⟨log, o, hl, _⟩ := outcome_some nominal8
  obtain ⟨d, h1, h2, h3⟩ := C52_genuine_data_is_authenticated (C := toy) (root0 := none) (pk0 := some (pub 1)) (slow := false)
    S_consistent (.inr ⟨pub 1, false, rfl⟩) hl.run ⟨[sv 1], by decide, by decide +kernel⟩ (by decide +kernel) .ced (sv 1)
    (navData .ced 1 0x35) 161 (by decide +kernel)
    (by
      intro i h1 h2
      have : ∀ i, i < 177 → 161 ≤ i → NavKind.expected .ced (inavsOf ((nominal 8).take i)) (sv 1) = navData .ced 1 0x35 := by decide +kernel
      exact this i (Nat.lt_succ_of_le (Nat.le_trans h2 (by decide +kernel))) h1)
    [(175, nomTag)] (by simp) (by
      intro p hp
      rw [List.mem_singleton] at hp
      subst hp
      exact ⟨by decide, nom_due⟩)
    (by decide +kernel) (by decide +kernel)
  exact ⟨o, d, hl.run, h1, h2, Nat.le_trans (by decide +kernel) h3⟩

/-! ## Slow MAC -/

/-- The fourth tag (ADKD 12, satellite 1 itself) of the subframe 36030, with the key of eleven subframes later. -/
def slowTag : TagUse := ⟨key (chain 1) 36360, sv 1, gst 36030, .Test, mackTag (bitsOf (nomMack 36030).val) 40 (sv 1) 3⟩

theorem slow_whole : WholeMack (nominal 13) (sv 1) (gst 36030) .Test (nomMack 36030) where
  words := by
    rw [show (pagesIn (nominal 13) (sv 1) (gst 36030)).map Page.word = List.range 15 by decide +kernel]
    exact List.Sublist.refl _
  mack := by decide +kernel
  status := by decide +kernel

theorem slow_inOrder : InOrder S (nominal 13) (gst 36360) where
  pages := by
    have : ((pagesOf (nominal 13)).map (fun p => p.sub.abs)).Pairwise (· ≤ ·) := by decide +kernel
    exact List.pairwise_map.1 this
  words := by
    have h : ((inavsOf (nominal 13)).map (fun c => c.gst.subframe.abs)).Pairwise (· ≤ ·) := by decide +kernel
    intro i a b ha hb
    obtain ⟨hi, rfl⟩ := List.getElem?_eq_some_iff.1 ha
    obtain ⟨hj, rfl⟩ := List.getElem?_eq_some_iff.1 hb
    exact List.pairwise_iff_getElem.1 (List.pairwise_map.1 h) i (i + 1) hi hj (Nat.lt_succ_self i)
  noneAhead := by decide +kernel
  roomPages := fun _ => ⟨[sv 1], by decide, fun p hp _ =>
    (by decide +kernel : ∀ p ∈ pagesOf (nominal 13), p.svn ∈ [sv 1]) p hp⟩

theorem slow_derive : Key.derive toy (key (chain 1) 36360) 10 = .ok (key (chain 1) 36060) := by decide +kernel

theorem slow_right {vk : Key} (hc : vk.chain = chain 1) (hb : vk.bytes = (key (chain 1) 36060).bytes) :
    MackRight toy vk (chain 1) (nomMack 36030) (sv 1) (gst 36030) := by
  refine ⟨?_, [.S00, .E00, .E00, .S12, .E00, .E12], by rw [hc]; decide +kernel, by decide +kernel, ?_, ?_⟩
  · intro h; rw [hc]; rfl
  · unfold MacseqOk macBits
    rw [hb, hc]
    decide +kernel
  · intro j h1 h2
    have hj : j < 6 := h2
    have : j = 1 ∨ j = 2 ∨ j = 3 ∨ j = 4 ∨ j = 5 := by omega
    have tagOf : ∀ s : Slot, ∀ t : TagSpec, (s.adkd = some t.adkd ∧ 1 ≤ t.prnd ∧ t.prnd ≤ 36 ∧ (s.isSelf = true → t.prnd = (sv 1).val)) →
        s.Allows (sv 1) t := by
      rintro s t ⟨e1, e2, e3, e4⟩ a ha
      rw [e1] at ha
      cases ha
      exact ⟨rfl, ⟨e2, e3⟩, e4⟩
    rcases this with rfl | rfl | rfl | rfl | rfl <;>
      exact ⟨_, rfl, tagOf _ _ (by decide +kernel)⟩

theorem slow_genuine : slowTag.Genuine toy S true (nominal 13) .ced (sv 1) (navData .ced 1 0x35) where
  prnd := by decide +kernel
  status := .inl rfl
  rightKey := .inr (.inr ⟨rfl, by decide +kernel, by decide +kernel⟩)
  verifies := by unfold TagSpec.Verifies; decide +kernel
  mack := ⟨nomMack 36030, slow_whole, by decide +kernel, by
    intro vk n h1 h2 h3
    have ht := h3.time
    have e1 : slowTag.gst.abs = 725796030 := by decide +kernel
    have e2 : slowTag.key.gst.abs = 725796360 := by decide +kernel
    dsimp only at ht
    rw [h2, e1, e2] at ht
    obtain rfl : n = 10 := by omega
    have := h3.det (Key.derive_derives slow_derive)
    rw [Prod.mk.injEq] at this
    exact slow_right h1 this.2⟩
  data := by decide +kernel
  recent := by decide +kernel
  alive := by decide +kernel
  depthNav := by decide +kernel
  depthMack := by decide +kernel

/-- The last call of the scenario. -/
def slowLast : Call := (nominal 13).getLast (by decide +kernel)

theorem slow_event : check slowOnly ((nominal 13).take 285) (fun l o =>
    (o.events S slowLast).any (fun e => match e with
      | .tesla k => k == slowTag.key
      | _ => false) &&
    (l ++ o.events S slowLast).all (fun e => (e.header?.map (fun h => h.chainId)).getD 1 == 1)) = true := by decide +kernel

theorem slow_due : TagDue S slowOnly true (nominal 13) .ced (sv 1) (navData .ced 1 0x35) 285 slowTag := by
  obtain ⟨log, o, hl, he⟩ := check_some slow_event
  rw [Bool.and_eq_true] at he
  refine ⟨log, o, slowLast, by decide +kernel, hl, ?_, ?_, ?_, ?_⟩
  · have he := he.1
    rw [List.any_eq_true] at he
    obtain ⟨e, h1, h2⟩ := he
    cases e with
    | tesla k => rw [← beq_iff_eq.1 h2]; exact h1
    | _ => cases h2
  · rw [show (nominal 13).take (285 + 1) = nominal 13 from List.take_of_length_le (by decide +kernel)]
    exact slow_inOrder
  · rw [show (nominal 13).take (285 + 1) = nominal 13 from List.take_of_length_le (by decide +kernel)]
    exact slow_genuine
  · intro _
    refine OneChain.noChange (id := 1) ?_ _
    intro e h1 hd h2
    have := List.all_eq_true.1 he.2 e h1
    rw [h2] at this
    exact beq_iff_eq.1 this

/-- The same for a receiver set to Slow MAC only. -/
example : ∃ o d, run S slowOnly (nominal 13) = .ok o ∧ o.get S .ced (sv 1) = .ok (some d) ∧ d.data = navData .ced 1 0x35 ∧
    40 ≤ d.authbits := by
  obtain ⟨log, o, hl, _⟩ := outcome_some slow13
  obtain ⟨d, h1, h2, h3⟩ := C52_genuine_data_is_authenticated (C := toy) (root0 := none) (pk0 := some (pub 1)) (slow := true)
    S_consistent (.inr ⟨pub 1, true, rfl⟩) hl.run ⟨[sv 1], by decide, by decide +kernel⟩ (by decide +kernel) .ced (sv 1)
    (navData .ced 1 0x35) 280 (by decide +kernel)
    (by
      intro i h1 h2
      have : ∀ i, i < 287 → 280 ≤ i → NavKind.expected .ced (inavsOf ((nominal 13).take i)) (sv 1) = navData .ced 1 0x35 := by decide +kernel
      exact this i (Nat.lt_succ_of_le (Nat.le_trans h2 (by decide +kernel))) h1)
    [(285, slowTag)] (by simp) (by
      intro p hp
      rw [List.mem_singleton] at hp
      subst hp
      exact ⟨by decide, slow_due⟩)
    (by decide +kernel) (by decide +kernel)
  exact ⟨o, d, hl.run, h1, h2, Nat.le_trans (by decide +kernel) h3⟩

end Verif.Sim
