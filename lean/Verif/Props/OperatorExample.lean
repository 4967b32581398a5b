import Verif.Props.Operator
import Verif.Props.ColdStartExample
import Verif.Tests.Dsms

/-! # Concrete runs that meet the hypotheses of C91, evaluated by the kernel -/

namespace Verif.Sim
open Verif

/-- The operator of the simulated system, with the tags its satellites made. -/
def operator (tagged : Verif.Key → Gst → TagInput → Prop) : Operator toy where
  owns := fun pk => pk = pub 1 ∨ ∃ i, i < 16 ∧ LeafKey toy (leaf i) pk
  leaves := leaf
  seeds := fun k => k = key (chain 1) 36210
  issued := fun vk h data kr => vk = (pub 1).key ∧ h = ⟨hdr1⟩ ∧ data = kroot11 ∧ kr = key (chain 1) 35970
  tagged := tagged

theorem operator_chain {tagged : Verif.Key → Gst → TagInput → Prop} (i : Nat) (hi : i < 8) :
    (operator tagged).KeyOf (key (chain 1) 36210) (key (chain 1) (36000 + 30 * (7 - i))) := by
  refine ⟨rfl, rfl, i, ?_⟩
  induction i with
  | zero => exact .zero _
  | succ i ih =>
    refine (ih (by omega)).trans ?_
    have e := onAir_next (7 - (i + 1)) (by omega)
    have g1 := onAir_gst (7 - (i + 1)) (by omega)
    have a1 := onAir_abs (7 - (i + 1)) (by omega)
    have a2 := onAir_abs (7 - i) (by omega)
    have g2 := onAir_gst (7 - i) (by omega)
    have hk : ∀ j, j < 8 → onAir.key (gst (36000 + 30 * j)) = key (chain 1) (36000 + 30 * j) := by decide +kernel
    rw [hk _ (by omega)] at g1 g2
    rw [show 7 - (i + 1) + 1 = 7 - i by omega, hk _ (by omega), hk _ (by omega)] at e
    rw [g1, g2]
    refine .succ 0 _ (gst (36000 + 30 * (7 - (i + 1)))) _ _ (by omega) ?_
    have : (key (chain 1) 36210).chain = onAir.root.chain := rfl
    rw [this, e]
    exact .zero _

theorem operator_root {tagged : Verif.Key → Gst → TagInput → Prop} :
    (operator tagged).KeyOf (key (chain 1) 36210) (key (chain 1) 35970) := by
  refine ⟨rfl, rfl, 8, ?_⟩
  obtain ⟨n, h⟩ := (operator_chain (tagged := tagged) 7 (by decide)).derived
  have h7 : n = 7 := by
    have := h.time
    have e1 : (key (chain 1) 36210).gst.abs = 725796210 := by decide +kernel
    have e2 : (key (chain 1) (36000 + 30 * (7 - 7))).gst.abs = 725796000 := by decide +kernel
    rw [e1, e2] at this
    omega
  subst h7
  refine Derives.trans (m := 7) (n := 1) h ?_
  have e : (key (chain 1) 36000).gst = gst 36000 := by decide +kernel
  have e' : key (chain 1) 36000 = onAir.key (gst 36000) := by decide +kernel
  show Derives toy (chain 1) 1 ((key (chain 1) 36000).gst, (key (chain 1) 36000).bytes) _
  rw [e]
  refine .succ 0 _ onAir.root.gst _ _ (by decide +kernel) ?_
  have h1 := onAir_first
  rw [← e'] at h1
  have h2 : (chainHash toy (chain 1) (owfMessage (chain 1) (key (chain 1) 36000).bytes onAir.root.gst)).take (chain 1).keySizeBytes =
      (key (chain 1) 35970).bytes := h1
  rw [h2]
  exact .zero _

theorem operator_sound {tagged : Verif.Key → Gst → TagInput → Prop}
    (h : ∀ last g x, tagged last g x → x.ctr < 256 ∧ x.prnd < 256 ∧ (x.bits.length = 549 ∨ x.bits.length = 141) ∧
      (x.ctr = 1 → x.prnd = x.prna.val) ∧ (g.abs = x.gst.abs + 30 ∨ g.abs = x.gst.abs + 330)) : (operator tagged).Sound where
  leaf := fun i hi _ h => .inr ⟨i, hi, h⟩
  kroot := by
    rintro vk h data kr ⟨-, -, rfl, rfl⟩
    refine ⟨?_, kroot11_announced, _, operator_root⟩
    have := onAir_size.1
    have e : (key (chain 1) 35970).chain.keySizeBytes = 16 := by decide +kernel
    have e2 : kroot11.length = 104 := this
    omega
  tag := h

theorem operator_trusted {tagged : Verif.Key → Gst → TagInput → Prop} : (operator tagged).Trusted (some root) (some (pub 1)) where
  key := fun _ h => .inl (Option.some.inj h).symm
  root := by
    intro r h
    cases h
    exact root_eq

/-- What is checked of each acceptance message. -/
def ownEvent : KeyEvent toy → Bool
  | .kroot h data pk k _ => h.data == hdr1 && data == kroot11 && k == key (chain 1) 35970 && (match pk.key with
    | .P256 k => (show List Byte from k) == pubBytes 1
    | _ => false)
  | .tesla k => (List.range 8).any (fun i => k == key (chain 1) (36000 + 30 * (7 - i)))
  | _ => false

theorem nominal_honest : ∃ (log : List (KeyEvent toy)) (o : Osnma toy) (d : NavMessageData), Logs S withBoth (nominal 8) log o ∧
    log.all ownEvent = true ∧ o.get S .ced (sv 1) = .ok (some d) ∧ d.data = navData .ced 1 0x35 := by
  obtain ⟨log, o, h, hc⟩ := check_some (o0 := withBoth) (h := nominal 8)
    (f := fun l o => l.all ownEvent && (match o.get S .ced (sv 1) with
      | .ok (some d) => d.data == navData .ced 1 0x35
      | _ => false)) (by decide +kernel)
  simp only [Bool.and_eq_true] at hc
  obtain ⟨h1, h2⟩ := hc
  split at h2
  · rename_i d hd
    exact ⟨log, o, d, h, h1, hd, eq_of_beq h2⟩
  · cases h2

theorem nominal_not_broken {tagged : Verif.Key → Gst → TagInput → Prop} (hs : (operator tagged).Sound) {log : List (KeyEvent toy)}
    (h : log.all ownEvent = true) : ¬ (operator tagged).Broken log := by
  rw [List.all_eq_true] at h
  refine C91_honest_not_broken hs ?_ ?_ ?_ ?_
  · rintro a b rfl rfl _; rfl
  · intro hd data pk kr g hm
    have := h _ hm
    simp only [ownEvent, Bool.and_eq_true, beq_iff_eq] at this
    obtain ⟨⟨⟨h1, h2⟩, h3⟩, h4⟩ := this
    refine ⟨?_, ?_, h2, h3⟩
    · obtain ⟨vk, id⟩ := pk
      dsimp only at h4 ⊢
      split at h4
      · rename_i k
        have h4' : (show List Byte from k) = pubBytes 1 := eq_of_beq h4
        have h5 : k = pubBytes 1 := h4'
        subst h5
        rfl
      · cases h4
    · cases hd; exact congrArg NmaHeader.mk h1
  · intro k hm
    have := h _ hm
    simp only [ownEvent, List.any_eq_true, beq_iff_eq, List.mem_range] at this
    obtain ⟨i, hi, rfl⟩ := this
    exact ⟨_, operator_chain i hi⟩
  · rintro data leaf (⟨pk, hm⟩ | hm) _
    · cases h _ hm
    · cases h _ hm

/-- The satellites made tags of the data of satellite 1. -/
def madeTags (_ : Verif.Key) (g : Gst) (x : TagInput) : Prop :=
  x.ctr < 256 ∧ x.prnd = 1 ∧ x.bits = navData .ced 1 0x35 ∧ (x.ctr = 1 → x.prna = sv 1) ∧ (g.abs = x.gst.abs + 30 ∨ g.abs = x.gst.abs + 330)

theorem madeTags_sound : (operator madeTags).Sound := by
  refine operator_sound ?_
  rintro last g x ⟨h1, h2, h3, h4, h5⟩
  have : (navData .ced 1 0x35).length = 549 := by decide +kernel
  exact ⟨h1, by omega, .inl (by rw [h3]; exact this), fun e => by rw [h2, h4 e]; rfl, h5⟩

/-- The hypotheses of C91 are met: the data of satellite 1 is reported, the acceptance messages show no break, and so each of the tags was made by
the satellites or forged in time; and the one of other data has not been reported. -/
example : ∃ (log : List (KeyEvent toy)) (o : Osnma toy) (d : NavMessageData), Logs S withBoth (nominal 8) log o ∧
    o.get S .ced (sv 1) = .ok (some d) ∧ ¬ (operator madeTags).Broken log ∧
    ∃ us : List (Nat × TagUse), us.Nodup ∧ 40 ≤ d.authbits ∧ d.authbits = min 65535 (us.map (fun p => p.2.tag.tag.length)).sum ∧
      ∀ p ∈ us, p.2.Proves (some root) (some (pub 1)) false (nominal 8) .ced (sv 1) d.data ∧ KeyEvent.tesla p.2.key ∈ log ∧ ∃ last, (operator madeTags).KeyOf last p.2.key ∧
        ((operator madeTags).tagged last p.2.key.gst ⟨p.2.tag.ctr, (sv 1).val, p.2.prna, p.2.gst, p.2.st, d.data⟩ ∨
          (operator madeTags).ForgedTag S withBoth (nominal 8) .ced (sv 1) d.data last p.1 p.2) := by
  obtain ⟨log, o, d, h, h1, h2, h3⟩ := nominal_honest
  have hb := nominal_not_broken madeTags_sound h1
  rcases C91_genuine_or_broken S_consistent (.inl ⟨root, some (pub 1), false, rfl⟩) madeTags_sound operator_trusted h .ced h2 with e | e
  · exact ⟨log, o, d, h, h2, hb, e⟩
  · exact absurd e hb

/-- The same run, of an operator whose satellites have not made any tag: 40 bits of forged tags are found. -/
example : ∃ (log : List (KeyEvent toy)) (o : Osnma toy) (us : List (Nat × TagUse)), Logs S withBoth (nominal 8) log o ∧ us.Nodup ∧
    40 ≤ (us.map (fun p => p.2.tag.tag.length)).sum ∧
    ∀ p ∈ us, ∃ last, (operator (fun _ _ _ => False)).ForgedTag S withBoth (nominal 8) .ced (sv 1) (navData .ced 1 0x35) last p.1 p.2 := by
  obtain ⟨log, o, d, h, h1, h2, h3⟩ := nominal_honest
  have hs : (operator (fun _ _ _ => False)).Sound := operator_sound (fun _ _ _ h => h.elim)
  rcases C91_forgery_needs_40_bits S_consistent (.inl ⟨root, some (pub 1), false, rfl⟩) hs operator_trusted h .ced h2
    (fun _ _ _ _ _ _ h => h) with ⟨us, e1, e2, e3⟩ | e
  · rw [h3] at e3
    exact ⟨log, o, us, h, e1, e2, e3⟩
  · exact absurd e (nominal_not_broken hs h1)

end Verif.Sim
