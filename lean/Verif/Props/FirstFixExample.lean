import Verif.Props.FirstFix
import Verif.Props.RenewalExample
import Verif.Props.ReplayExample
import Verif.Props.CompleteExample

/-! # Concrete runs that meet the hypotheses of C95, evaluated by the kernel -/

namespace Verif.Sim
open Verif

/-- The fields of the CED of satellite 1 in the nominal scenario. -/
def nomPart (f : NavField) : List Bool := NavKind.fieldAfter .ced (inavsOf (nominal 8)) (sv 1) f

theorem nominal_sends : SendsData (nominal 8) .ced (sv 1) (navData .ced 1 0x35) nomPart where
  parts := by decide +kernel
  same := by decide +kernel

/-- The hypotheses of C95 from above are met: a DSM-KROOT of eight blocks, and after eight subframes of one satellite the data is authenticated. -/
example : ∃ o d, run S withKey (nominal 8) = .ok o ∧ onAir.kroot.length = 13 * 8 ∧ o.get S .ced (sv 1) = .ok (some d) ∧
    d.data = navData .ced 1 0x35 ∧ 40 ≤ d.authbits := by
  obtain ⟨log, o, hl⟩ := C75_never_panics (S := S) (root0 := none) (slow := false) S_consistent onAir_sound nominal_heard
  obtain ⟨d, h1, h2, h3⟩ := C95_one_satellite (b := onAir) (m := 8) (off := 0) (g := fun i => gst (36000 + 30 * i)) S_consistent onAir_sound hl.run
    nominal_heard nominal_order
    ⟨[sv 1], by decide, by decide +kernel⟩
    (fun _ => ⟨[sv 1], by decide, fun p hp _ => (by decide +kernel : ∀ p ∈ pagesOf (nominal 8), p.svn ∈ [sv 1]) p hp⟩)
    (by decide +kernel) (by decide) (by decide) onAir_size.1
    (by
      intro i hi
      have h1 := onAir_abs i hi
      have h2 := onAir_abs 0 (by decide)
      have e1 : onAir.root.gst.abs = 725795970 := by decide +kernel
      have e2 : onAir.last.abs = 725796210 := by decide +kernel
      refine ⟨⟨?_, ?_, ?_⟩, ?_⟩
      · unfold Gst.Aligned; omega
      · omega
      · omega
      · omega)
    (by
      intro i hi
      rw [onAir_blocks i hi, Nat.zero_add, Nat.mod_eq_of_lt hi]
      rfl)
    nominal_whole nominal_sends
    (by decide +kernel)
    (t := nomTag.tag) nominal_tag.sent nominal_tag.prnd (by decide +kernel) (by decide +kernel) (by decide +kernel) nominal_tag.verifies
    (nominal_tag.right (gst 36210) (by decide +kernel))
  exact ⟨o, d, hl.run, onAir_size.1, h1, h2, h3⟩

/-- The hypotheses of C95 from below are met, and its conclusions, by the same run: seven messages of one satellite take seven subframes. -/
example : ∃ v g v' g', HeardWhole (nominal 8) v g ∧ HeardWhole (nominal 8) v' g' ∧ g.abs ≤ g'.abs ∧ 7 ≤ (g'.abs - g.abs) / 30 + 1 := by
  obtain ⟨log, o, h, _, hgot, _⟩ := Sim.outcome_some Sim.nominal8
  obtain ⟨d, hd, _⟩ := Sim.got_some (show got S o .ced 1 = some (40, 36210) from hgot)
  obtain ⟨v, g, v', g', h1, h2, h3, h4⟩ := C95_get_takes (sats := [sv 1]) (root0 := none) (pk0 := some (pub 1)) (slow := false) S_consistent fresh_key h.run
    nominal_order.pages (by decide +kernel) (kd := .ced) hd
  exact ⟨v, g, v', g', h1, h2, h3, by simpa using h4⟩

/-- The data is received in the first of the last three subframes, or before. -/
example : ∃ v g v' g', HeardWhole (nominal 8) v g ∧ HeardWhole (nominal 8) v' g' ∧ g.abs + 30 ≤ g'.abs ∧
    ∀ f ∈ NavKind.fields .ced, ∃ c ∈ inavsOf (nominal 8), c.svn = sv 1 ∧ NavKind.carries .ced c f = true ∧ c.gst.subframe.abs + 30 ≤ g.abs := by
  obtain ⟨log, o, h, _, hgot, _⟩ := Sim.outcome_some Sim.nominal8
  obtain ⟨d, hd, _⟩ := Sim.got_some (show got S o .ced 1 = some (40, 36210) from hgot)
  exact C95_data_to_key (root0 := none) (pk0 := some (pub 1)) (slow := false) S_consistent fresh_key h.run
    (nominal_order.words) (kd := .ced) hd

/-- The KROOT is accepted in the eighth subframe, not before. -/
example : ∃ log o, Logs S withKey (nominal 8) log o ∧
    (∃ hd data pk k g, KeyEvent.kroot (C := toy) hd data pk k g ∈ log ∧ g.abs ≤ (gst 36210).abs) ∧
    ¬ ∃ hd data pk k g, KeyEvent.kroot (C := toy) hd data pk k g ∈ log ∧ g.abs ≤ (gst 36180).abs := by
  obtain ⟨log, o, hl⟩ := C75_never_panics (S := S) (root0 := none) (slow := false) S_consistent onAir_sound nominal_heard
  refine ⟨log, o, hl, (C95_kroot_exact onAir_sound hl nominal_heard nominal_order.pages _).2 nominal_kroot, ?_⟩
  intro hk
  obtain ⟨v, g, h1, h2, h3⟩ := (C95_kroot_exact onAir_sound hl nominal_heard nominal_order.pages _).1 hk 7 (by rw [onAir_size.1]; decide)
  obtain ⟨p, hp, rfl, rfl⟩ := heardWhole_mem h2
  obtain ⟨i, hi, e⟩ := onAir_on (nominal_heard p hp).1
  rw [e] at h1 h3
  have a1 := onAir_abs i hi
  have a2 : (gst 36180).abs = onAir.root.gst.abs + 210 := by decide +kernel
  have h4 : (onAir.hkroot p.svn (gst (36000 + 30 * i))).val = _ := onAir_blocks i hi
  rw [h4] at h3
  have h5 := (List.cons.inj h3).1
  have : ∀ i, i < 7 → BitVec.ofNat 8 (16 * onAir.dsmId + i) ≠ BitVec.ofNat 8 (16 * onAir.dsmId + 7) := by decide +kernel
  exact this i (by omega) h5

/-- Without a public key from the start, twenty subframes of one satellite are needed. -/
example : ∃ v g v' g', HeardWhole (heardPkr ++ heard2) v g ∧ HeardWhole (heardPkr ++ heard2) v' g' ∧ g.abs ≤ g'.abs ∧
    20 ≤ (g'.abs - g.abs) / 30 + 1 := by
  obtain ⟨log, o, d, h, _, hd, _⟩ := fromRoot_authenticates
  obtain ⟨v, g, v', g', h1, h2, h3, h4⟩ := C95_get_takes (sats := [sv 1]) (root0 := some root) (pk0 := none) (slow := false) S_consistent
    (.inl ⟨root, none, false, rfl⟩) h.run heard2_order.pages (by decide +kernel) (kd := .ced) hd
  exact ⟨v, g, v', g', h1, h2, h3, by simpa using h4⟩

theorem long_lengths : ∀ i, i < 13 → (packBytes (mackBits (chain 1) 1 2 (36000 + 30 * i) 1 0x35 1)).length = 60 := by decide +kernel

theorem long_page_times : ∀ i, i < 13 → ∀ w, w < 15 → (gst (36000 + 30 * i + 2 * w)).subframe = gst (36000 + 30 * i) ∧
    ((gst (36000 + 30 * i + 2 * w)).tow - (gst (36000 + 30 * i)).tow) / 2 = w ∧ (gst (36000 + 30 * i)).tow = 36000 + 30 * i := by
  decide +kernel

/-- Thirteen subframes of the nominal scenario. -/
theorem long_heard : Heard onAirLong (nominal 13) := by
  intro p hp
  obtain ⟨i, w, hi, hw, rfl⟩ := nominal_pages hp
  obtain ⟨t1, t2, t3⟩ := long_page_times i hi w hw
  have hlen := long_lengths i hi
  have hh : (onAirLong.hkroot (sv 1) (gst (36000 + 30 * i))).val =
      hdr1 :: BitVec.ofNat 8 (3 * 16 + i % 8) :: (kroot11.drop (13 * (i % 8))).take 13 := long_blocks i hi
  have hhl := (onAirLong.hkroot (sv 1) (gst (36000 + 30 * i))).2
  have hm : (onAirLong.mack (sv 1) (gst (36000 + 30 * i))).val = packBytes (mackBits (chain 1) 1 2 (36000 + 30 * i) 1 0x35 1) := by
    show (nomMack (gst (36000 + 30 * i)).tow).val = _
    rw [t3]
    exact fix_bytes hlen
  generalize hx : packBytes (mackBits (chain 1) 1 2 (36000 + 30 * i) 1 0x35 1) = m at hm hlen
  generalize hk : (hdr1 :: BitVec.ofNat 8 (3 * 16 + i % 8) :: (kroot11.drop (13 * (i % 8))).take 13) = k at hh
  have hv : (fix 5 (k.getD w 0#8 :: (m.drop (4 * w)).take 4)).val = k.getD w 0#8 :: (m.drop (4 * w)).take 4 := by
    apply fix_bytes
    rw [List.length_cons, List.length_take, List.length_drop, hlen]
    omega
  generalize hpage : (⟨fix 5 (k.getD w 0#8 :: (m.drop (4 * w)).take 4), sv 1, gst (36000 + 30 * i + 2 * w)⟩ : Page) = p
  have e1 : p.sub = gst (36000 + 30 * i) := by rw [← hpage]; exact t1
  have e2 : p.word = w := by
    unfold Page.word
    rw [e1, ← hpage]; exact t2
  have e3 : p.svn = sv 1 := by rw [← hpage]
  refine ⟨?_, ?_, ?_⟩
  · rw [e1]; exact long_is_on hi
  · rw [e1, e2, e3, hh]
    have hkl : w < k.length := by rw [← hh, hhl]; exact hw
    have : p.hkroot = [k.getD w 0#8] := by
      unfold Page.hkroot
      rw [← hpage]
      dsimp only
      rw [hv]; rfl
    rw [this, List.getD_eq_getElem?_getD, List.getElem?_eq_getElem hkl, Option.getD_some, List.drop_eq_getElem_cons hkl]
    rfl
  · rw [e1, e2, e3, hm]
    unfold Page.mack
    rw [← hpage]
    dsimp only
    rw [hv]; rfl

theorem long_whole (i : Nat) (hi : i < 13) : HeardWhole (nominal 13) (sv 1) (gst (36000 + 30 * i)) := by
  have : ∀ i, i < 13 → (pagesIn (nominal 13) (sv 1) (gst (36000 + 30 * i))).map Page.word = List.range 15 := by decide +kernel
  unfold HeardWhole
  rw [this i hi]
  exact List.Sublist.refl _

theorem long_order : CallsInOrder (nominal 13) := by
  have : ((nominal 13).map (fun c => c.gst.subframe.abs)).Pairwise (· ≤ ·) := by decide +kernel
  exact List.pairwise_map.1 this

theorem long_sends : SendsData (nominal 13) .ced (sv 1) (navData .ced 1 0x35) nomPart where
  parts := nominal_sends.parts
  same := by decide +kernel

/-- The hypotheses of C95 from above for the Slow MAC are met: a receiver that uses only the Slow MAC authenticates the data after thirteen subframes of
one satellite. -/
example : ∃ o d, run S slowOnly (nominal 13) = .ok o ∧ o.get S .ced (sv 1) = .ok (some d) ∧ d.data = navData .ced 1 0x35 ∧ 40 ≤ d.authbits := by
  obtain ⟨log, o, hl⟩ := C75_never_panics (S := S) (root0 := none) (slow := true) S_consistent long_sound long_heard
  have g0 := slow_genuine
  obtain ⟨d, h1, h2, h3⟩ := C95_one_satellite_slow (b := onAirLong) (m := 8) (n := 13) (off := 0) (g := fun i => gst (36000 + 30 * i)) S_consistent
    long_sound hl.run long_heard long_order
    ⟨[sv 1], by decide, by decide +kernel⟩
    (fun _ => ⟨[sv 1], by decide, fun p hp _ => (by decide +kernel : ∀ p ∈ pagesOf (nominal 13), p.svn ∈ [sv 1]) p hp⟩)
    (by decide +kernel) (by decide) (by decide) onAir_size.1 (by decide)
    (fun i hi => ⟨long_is_on hi, by rw [long_abs i hi, long_abs 0 (by decide)]; omega⟩)
    (by
      intro i hi
      rw [long_blocks i hi, Nat.zero_add]
      rfl)
    long_whole long_sends
    (by decide +kernel)
    (t := slowTag.tag) (by decide +kernel) g0.prnd (by decide +kernel) (by decide +kernel) (by decide +kernel) g0.verifies
    (slow_right (vk := key (chain 1) 36060) rfl rfl)
  exact ⟨o, d, hl.run, h1, h2, h3⟩

end Verif.Sim
