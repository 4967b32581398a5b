import Verif.Props.ColdStart
import Verif.Props.CompleteExample
import Verif.Props.Recovery

/-! # A concrete run that meets the hypotheses of C75, evaluated by the kernel -/

namespace Verif.Sim
open Verif

/-- What the satellites of the nominal scenario send in the eight subframes from 36000 on. -/
def onAirWith (pk : PublicKey toy) (ds : List Byte) : Broadcast toy where
  pk := pk
  header := ⟨hdr1⟩
  dsmId := 3
  kroot := ds
  root := key (chain 1) 35970
  key := fun g => key (chain 1) g.tow
  last := gst 36210
  hkroot := fun _ g => fix 15 (hdr1 :: BitVec.ofNat 8 (48 + (g.tow - 36000) / 30) :: byteField ds (13 * ((g.tow - 36000) / 30)) 13)
  mack := fun _ g => nomMack g.tow

def onAir : Broadcast toy := onAirWith (pub 1) kroot11

/-- The subframes. -/
theorem onAir_on {g : Gst} (h : onAir.On g) : ∃ i, i < 8 ∧ g = gst (36000 + 30 * i) := by
  obtain ⟨h1, h2, h3⟩ := h
  have e1 : onAir.root.gst.abs = 725795970 := by decide +kernel
  have e2 : onAir.last.abs = 725796210 := by decide +kernel
  rw [e1] at h2
  rw [e2] at h3
  unfold Gst.Aligned at h1
  have e3 : ∀ i, i < 8 → (gst (36000 + 30 * i)).abs = 725796000 + 30 * i := by decide +kernel
  refine ⟨((g.abs - 725796000) / 30).toNat, by omega, ?_⟩
  apply Gst.abs_inj
  rw [e3 _ (by omega)]
  omega

theorem onAir_sensible : SensibleChains onAir.root.chain onAir.root.chain := by
  refine ⟨fun h => ?_, ?_⟩
  · cases h
  · intro half slots h
    have h' : icdSlots 33 half = some slots := h
    have hf : ∀ half, ∀ j ∈ flexSlots ((icdSlots 33 half).getD []), j < 6 := by
      intro half
      have h0 : ∀ half, half < 2 → ∀ j ∈ flexSlots ((icdSlots 33 half).getD []), j < 6 := by decide +kernel
      by_cases hz : half = 0
      · exact h0 half (by omega)
      · have : icdSlots 33 half = icdSlots 33 1 := by unfold icdSlots; simp [hz]
        rw [this]
        exact h0 1 (by decide)
    intro j hj
    have := hf half j (by rw [h']; exact hj)
    have e : (480 - 8 * onAir.root.chain.keySizeBytes) / (onAir.root.chain.tagSizeBits + 16) = 6 := by decide +kernel
    rw [e]; exact this

theorem onAir_blocks : ∀ i, i < 8 → (onAir.hkroot (sv 1) (gst (36000 + 30 * i))).val = onAir.header.data ::
    BitVec.ofNat 8 (16 * onAir.dsmId + i) :: byteField onAir.kroot (13 * i) 13 := by decide +kernel

theorem onAir_gst : ∀ i, i < 8 → (onAir.key (gst (36000 + 30 * i))).gst = gst (36000 + 30 * i) := by decide +kernel

theorem onAir_pad : ∀ i, i < 8 → (onAir.key (gst (36000 + 30 * i))).data.val = (onAir.key (gst (36000 + 30 * i))).bytes ++
    List.replicate (32 - (onAir.key (gst (36000 + 30 * i))).chain.keySizeBytes) 0#8 := by decide +kernel

theorem onAir_first : (chainHash toy onAir.root.chain (owfMessage onAir.root.chain (onAir.key (gst 36000)).bytes onAir.root.gst)).take
    onAir.root.chain.keySizeBytes = onAir.root.bytes := by decide +kernel

theorem onAir_next : ∀ i, i < 7 → (chainHash toy onAir.root.chain (owfMessage onAir.root.chain
    (onAir.key (gst (36000 + 30 * (i + 1)))).bytes (gst (36000 + 30 * i)))).take onAir.root.chain.keySizeBytes =
    (onAir.key (gst (36000 + 30 * i))).bytes := by decide +kernel

theorem onAir_sent : ∀ i, i < 8 → packBytes (mackKeyField (onAir.mack (sv 1) (gst (36000 + 30 * i))) onAir.root.chain) =
    (onAir.key (gst (36000 + 30 * i))).bytes := by decide +kernel

theorem onAir_abs : ∀ i, i < 8 → (gst (36000 + 30 * i)).abs = onAir.root.gst.abs + 30 + 30 * i := by decide +kernel

theorem onAir_named : onAir.pk.pkid = bitField onAir.kroot 4 4 := by decide +kernel
theorem onAir_size : onAir.kroot.length = 104 ∧ bitField onAir.kroot 0 4 = 2 := by decide +kernel
theorem onAir_hour : bitField onAir.kroot 48 8 ≤ 167 := by decide +kernel
theorem onAir_root : onAir.root.ZeroPadded := by unfold Key.ZeroPadded; decide +kernel

theorem onAir_sound : onAir.Sound where
  status := .inl (by decide +kernel)
  calm := by decide +kernel
  id := by decide
  named := onAir_named
  signed := ⟨_, _, kroot11_signed⟩
  size := by rw [onAir_size.1, onAir_size.2]
  announced := kroot11_announced
  pad := onAir_root
  chain := by decide +kernel
  hour := onAir_hour
  sensible := onAir_sensible
  blocks := by
    intro v g hg
    obtain ⟨i, hi, rfl⟩ := onAir_on hg
    exact ⟨i, by rw [onAir_size.1]; omega, onAir_blocks i hi⟩
  keys := by
    intro g hg
    obtain ⟨i, hi, rfl⟩ := onAir_on hg
    exact ⟨onAir_gst i hi, rfl, onAir_pad i hi⟩
  first := by
    intro g hg he
    obtain ⟨i, hi, rfl⟩ := onAir_on hg
    rw [onAir_abs i hi] at he
    obtain rfl : i = 0 := by omega
    refine .succ 0 _ onAir.root.gst _ _ (by rw [onAir_abs 0 hi]; omega) ?_
    have := onAir_first
    rw [show 36000 + 30 * 0 = 36000 from rfl, this]
    exact .zero _
  derive := by
    intro g g' hg hg' he
    obtain ⟨i, hi, rfl⟩ := onAir_on hg
    obtain ⟨j, hj, rfl⟩ := onAir_on hg'
    rw [onAir_abs i hi, onAir_abs j hj] at he
    obtain rfl : j = i + 1 := by omega
    refine .succ 0 _ (gst (36000 + 30 * i)) _ _ (by rw [onAir_abs _ hi, onAir_abs _ hj]; omega) ?_
    rw [onAir_next i (by omega)]
    exact .zero _
  sent := by
    intro v g hg
    obtain ⟨i, hi, rfl⟩ := onAir_on hg
    exact onAir_sent i hi
  window := by decide +kernel

/-- The pages of the scenario. -/
theorem nominal_pages {ds : List Byte} {n : Nat} {p : Page} (h : p ∈ pagesOf (nominalWith ds n)) : ∃ i w, i < n ∧ w < 15 ∧
    p = ⟨fix 5 ((hdr1 :: BitVec.ofNat 8 (3 * 16 + i % 8) :: (ds.drop (13 * (i % 8))).take 13).getD w 0#8 ::
      ((packBytes (mackBits (chain 1) 1 2 (36000 + 30 * i) 1 0x35 1)).drop (4 * w)).take 4), sv 1, gst (36000 + 30 * i + 2 * w)⟩ := by
  unfold pagesOf nominalWith at h
  rw [List.mem_filterMap] at h
  obtain ⟨c, hc, he⟩ := h
  rw [List.mem_flatMap] at hc
  obtain ⟨i, hi, hc⟩ := hc
  rcases List.mem_append.1 hc with hc | hc
  · unfold Sim.navCalls at hc
    obtain ⟨ty, _, rfl⟩ := List.mem_map.1 hc
    cases he
  · unfold subframe pages at hc
    dsimp only at hc
    obtain ⟨w, hw, rfl⟩ := List.mem_map.1 hc
    dsimp only at he
    split at he
    · cases he
    · cases he
      exact ⟨i, w, List.mem_range.1 hi, List.mem_range.1 hw, rfl⟩

theorem nominal_lengths : ∀ i, i < 8 → (packBytes (mackBits (chain 1) 1 2 (36000 + 30 * i) 1 0x35 1)).length = 60 := by decide +kernel

theorem nominal_times : ∀ i, i < 8 → ∀ w, w < 15 → (gst (36000 + 30 * i + 2 * w)).subframe = gst (36000 + 30 * i) ∧
    ((gst (36000 + 30 * i + 2 * w)).tow - (gst (36000 + 30 * i)).tow) / 2 = w ∧ (gst (36000 + 30 * i)).tow = 36000 + 30 * i := by
  decide +kernel

theorem fix_bytes {n : Nat} {l : List Byte} (h : l.length = n) : (fix n l).val = l := by
  unfold fix; rw [dif_pos h]

theorem nominal_hkroot {pk : PublicKey toy} (ds : List Byte) (hl : ds.length = 104) : ∀ i, i < 8 →
    ((onAirWith pk ds).hkroot (sv 1) (gst (36000 + 30 * i))).val = hdr1 :: BitVec.ofNat 8 (3 * 16 + i % 8) :: (ds.drop (13 * (i % 8))).take 13 := by
  intro i hi
  have h := (nominal_times i hi 0 (by decide)).2.2
  unfold onAirWith
  dsimp only
  have e : (36000 + 30 * i - 36000) / 30 = i := by omega
  rw [h, e, Nat.mod_eq_of_lt hi]
  apply fix_bytes
  unfold byteField
  simp only [List.length_cons, List.length_take, List.length_drop, hl]
  omega

theorem heard_with {pk : PublicKey toy} (ds : List Byte) (hl : ds.length = 104) : Heard (onAirWith pk ds) (nominalWith ds 8) := by
  intro p hp
  obtain ⟨i, w, hi, hw, rfl⟩ := nominal_pages hp
  obtain ⟨t1, t2, t3⟩ := nominal_times i hi w hw
  have hlen := nominal_lengths i hi
  have hh := nominal_hkroot (pk := pk) ds hl i hi
  have hhl := ((onAirWith pk ds).hkroot (sv 1) (gst (36000 + 30 * i))).2
  have hm : ((onAirWith pk ds).mack (sv 1) (gst (36000 + 30 * i))).val = packBytes (mackBits (chain 1) 1 2 (36000 + 30 * i) 1 0x35 1) := by
    show (nomMack (gst (36000 + 30 * i)).tow).val = _
    rw [t3]
    exact fix_bytes hlen
  generalize hx : packBytes (mackBits (chain 1) 1 2 (36000 + 30 * i) 1 0x35 1) = m at hm hlen
  generalize hk : (hdr1 :: BitVec.ofNat 8 (3 * 16 + i % 8) :: (ds.drop (13 * (i % 8))).take 13) = k at hh
  have hv : (fix 5 (k.getD w 0#8 :: (m.drop (4 * w)).take 4)).val = k.getD w 0#8 :: (m.drop (4 * w)).take 4 := by
    apply fix_bytes
    rw [List.length_cons, List.length_take, List.length_drop, hlen]
    omega
  generalize hpage : (⟨fix 5 (k.getD w 0#8 :: (m.drop (4 * w)).take 4), sv 1, gst (36000 + 30 * i + 2 * w)⟩ : Page) = p
  have e1 : p.sub = gst (36000 + 30 * i) := by rw [← hpage]; exact t1
  have e2 : p.word = w := by
    unfold Page.word
    rw [e1, ← hpage]; exact t2
  have e3 : p.svn = sv 1 := by rw [← hpage]
  refine ⟨?_, ?_, ?_⟩
  · rw [e1]
    have := onAir_abs i hi
    have hr : (onAirWith pk ds).root.gst.abs = 725795970 := (by decide +kernel : onAir.root.gst.abs = 725795970)
    have hla : (onAirWith pk ds).last.abs = 725796210 := (by decide +kernel : onAir.last.abs = 725796210)
    have hra : onAir.root.gst.abs = 725795970 := hr
    refine ⟨?_, ?_, ?_⟩
    · unfold Gst.Aligned; omega
    · omega
    · omega
  · rw [e1, e2, e3, hh]
    have hkl : w < k.length := by rw [← hh, hhl]; exact hw
    have : p.hkroot = [k.getD w 0#8] := by
      unfold Page.hkroot
      rw [← hpage]
      dsimp only
      rw [hv]; rfl
    rw [this, List.getD_eq_getElem?_getD, List.getElem?_eq_getElem hkl, Option.getD_some, List.drop_eq_getElem_cons hkl]
    rfl
  · rw [e1, e2, e3, hm]
    unfold Page.mack
    rw [← hpage]
    dsimp only
    rw [hv]; rfl

theorem nominal_heard : Heard onAir (nominal 8) := by
  have := heard_with (pk := pub 1) kroot11 onAir_size.1
  unfold onAir nominal
  exact this

theorem nominal_order : CallsInOrder (nominal 8) := by
  have : ((nominal 8).map (fun c => c.gst.subframe.abs)).Pairwise (· ≤ ·) := by decide +kernel
  exact List.pairwise_map.1 this

theorem nominal_whole (i : Nat) (hi : i < 8) : HeardWhole (nominal 8) (sv 1) (gst (36000 + 30 * i)) := by
  have : ∀ i, i < 8 → (pagesIn (nominal 8) (sv 1) (gst (36000 + 30 * i))).map Page.word = List.range 15 := by decide +kernel
  unfold HeardWhole
  rw [this i hi]
  exact List.Sublist.refl _

theorem nominal_kroot : KrootHeard onAir (nominal 8) (gst 36210) := by
  intro i hi
  have hi' : i < 8 := by have := onAir_size.1; omega
  refine ⟨sv 1, gst (36000 + 30 * i), ?_, nominal_whole i hi', ?_⟩
  · exact (by decide +kernel : ∀ i, i < 8 → (gst (36000 + 30 * i)).abs ≤ (gst 36210).abs) i hi'
  · rw [onAir_blocks i hi']; rfl

theorem nominal_tag : TagHeard onAir S false (nominal 8) (nominal 8) .ced (sv 1) (navData .ced 1 0x35) nomTag where
  on := (by decide +kernel : (gst 36180).abs % 30 = 0 ∧ onAir.root.gst.abs < (gst 36180).abs ∧ (gst 36180).abs ≤ onAir.last.abs)
  onKey := (by decide +kernel : (gst 36210).abs % 30 = 0 ∧ onAir.root.gst.abs < (gst 36210).abs ∧ (gst 36210).abs ≤ onAir.last.abs)
  key := by decide +kernel
  status := by decide +kernel
  sent := by decide +kernel
  right := by
    intro g hg
    obtain rfl : g = gst 36210 := Gst.abs_inj (by rw [hg]; decide +kernel)
    exact nom_right rfl (by decide +kernel)
  prnd := nom_genuine.prnd
  rightKey := nom_genuine.rightKey
  verifies := nom_genuine.verifies
  heard := nom_whole.words
  disclosed := ⟨sv 1, nominal_whole 7 (by decide)⟩
  kroot := nominal_kroot
  data := nom_genuine.data
  recent := nom_genuine.recent
  alive := nom_genuine.alive
  depthNav := nom_genuine.depthNav
  depthMack := nom_genuine.depthMack

/-- The DSM-KROOT and the key of the last subframe are accepted. -/
example : ∃ log o g, Logs S withKey (nominal 8) log o ∧ KeyEvent.kroot ⟨hdr1⟩ kroot11 (pub 1) (key (chain 1) 35970) g ∈ log ∧
    KeyEvent.tesla (C := toy) (onAir.key (gst 36210)) ∈ log := by
  obtain ⟨log, o, hl⟩ := C75_never_panics (S := S) (root0 := none) (slow := false) S_consistent onAir_sound nominal_heard
  obtain ⟨g, ks, ks', _, h1⟩ := C75_kroot_accepted onAir_sound hl nominal_heard nominal_order.pages nominal_kroot
  exact ⟨log, o, g, hl, by rw [h1]; simp [onAir, onAirWith], C75_key_accepted onAir_sound hl nominal_heard nominal_order.pages nominal_kroot (nominal_whole 7 (by decide))⟩

/-- The hypotheses of C75 are met: from a cold start, after eight subframes, the data of satellite 1 is authenticated. -/
example : ∃ o d, run S withKey (nominal 8) = .ok o ∧ o.get S .ced (sv 1) = .ok (some d) ∧ d.data = navData .ced 1 0x35 ∧
    40 ≤ d.authbits := by
  obtain ⟨log, o, hl⟩ := C75_never_panics (S := S) (root0 := none) (slow := false) S_consistent onAir_sound nominal_heard
  obtain ⟨d, h1, h2, h3⟩ := C75_authenticates S_consistent onAir_sound hl.run nominal_heard nominal_order
    ⟨[sv 1], by decide, by decide +kernel⟩
    (fun _ => ⟨[sv 1], by decide, fun p hp _ => (by decide +kernel : ∀ p ∈ pagesOf (nominal 8), p.svn ∈ [sv 1]) p hp⟩)
    (by decide +kernel) .ced (sv 1) (navData .ced 1 0x35) 154 (by decide +kernel) (by decide +kernel)
    (by
      intro i h1 h2
      have : ∀ i, i < 177 → 154 ≤ i → NavKind.expected .ced (inavsOf ((nominal 8).take i)) (sv 1) = navData .ced 1 0x35 := by decide +kernel
      exact this i (Nat.lt_succ_of_le (Nat.le_trans h2 (by decide +kernel))) h1)
    [nomTag] (by simp) (by
      intro u hu
      rw [List.mem_singleton] at hu
      subst hu
      exact ⟨nominal_tag, by decide +kernel⟩)
    (by decide +kernel)
  exact ⟨o, d, hl.run, h1, h2, Nat.le_trans (by decide +kernel) h3⟩

end Verif.Sim
