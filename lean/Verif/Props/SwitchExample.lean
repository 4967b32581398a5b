import Verif.Props.ColdStartExample
import Verif.Tests.ScenariosKeys

/-! # Concrete runs that meet the hypotheses of C76, evaluated by the kernel -/

namespace Verif.Sim
open Verif

/-! ## A public key from a DSM-PKR, then a genuine broadcast under this key -/

/-- What the satellites send from 36000 on: the DSM-KROOT is signed with key 2. -/
def onAir2 : Broadcast toy := onAirWith (pub 2) kroot12

theorem onAir2_blocks : ∀ i, i < 8 → (onAir2.hkroot (sv 1) (gst (36000 + 30 * i))).val = onAir2.header.data ::
    BitVec.ofNat 8 (16 * onAir2.dsmId + i) :: byteField onAir2.kroot (13 * i) 13 := by decide +kernel

theorem onAir2_size : onAir2.kroot.length = 104 ∧ bitField onAir2.kroot 0 4 = 2 := by decide +kernel
theorem onAir2_named : onAir2.pk.pkid = bitField onAir2.kroot 4 4 := by decide +kernel
theorem onAir2_hour : bitField onAir2.kroot 48 8 ≤ 167 := by decide +kernel

theorem kroot12_signed : SignedKroot toy (pub 2).key ⟨hdr1⟩ kroot12 .P256Sha256 16 where
  hf := by decide +kernel
  mf := by decide +kernel
  ks := by decide +kernel
  ts := by decide +kernel
  fits := by decide +kernel
  blocks := by decide +kernel
  minimal := by decide +kernel
  padding := by decide +kernel
  sig := ⟨by decide +kernel, by decide +kernel⟩

theorem kroot12_announced : AnnouncedKey kroot12 (Sim.key (Sim.chain 1) 35970) where
  bytes := by decide +kernel
  id := by decide +kernel
  hf := by decide +kernel
  mf := by decide +kernel
  ks := by decide +kernel
  ts := by decide +kernel
  maclt := by decide +kernel
  alpha := by decide +kernel
  time := by decide +kernel

theorem onAir2_sound : onAir2.Sound where
  status := onAir_sound.status
  calm := onAir_sound.calm
  id := onAir_sound.id
  named := onAir2_named
  signed := ⟨_, _, kroot12_signed⟩
  size := by rw [onAir2_size.1, onAir2_size.2]
  announced := kroot12_announced
  pad := onAir_sound.pad
  chain := onAir_sound.chain
  hour := onAir2_hour
  sensible := onAir_sound.sensible
  blocks := by
    intro v g hg
    obtain ⟨i, hi, rfl⟩ := onAir_on hg
    exact ⟨i, by rw [onAir2_size.1]; omega, onAir2_blocks i hi⟩
  keys := onAir_sound.keys
  first := onAir_sound.first
  derive := onAir_sound.derive
  sent := onAir_sound.sent
  window := onAir_sound.window

/-- Before: the DSM-PKR of key 2. -/
def heardPkr : List Call := sendDsm hdr1 13 13 35610 pkr2

/-- After: eight subframes. -/
def heard2 : List Call := nominalWith kroot12 8

theorem heard2_pages : Heard onAir2 heard2 := by
  have := heard_with (pk := pub 2) kroot12 onAir2_size.1
  unfold onAir2 heard2
  exact this

theorem heardPkr_log : ∃ (o : Osnma toy), Logs S withRoot heardPkr [.pkr pkr2 (pub 2)] o := by
  obtain ⟨log, o, h, hc⟩ := check_some (o0 := withRoot) (h := heardPkr)
    (f := fun l _ => match l with
      | [.pkr data pk] => data == pkr2 && pk.pkid == 2 && (match pk.key with
        | .P256 k => (show List Byte from k) == pubBytes 2
        | _ => false)
      | _ => false) (by decide +kernel)
  split at hc
  · rename_i data pk
    simp only [Bool.and_eq_true, beq_iff_eq] at hc
    obtain ⟨⟨rfl, h2⟩, h3⟩ := hc
    refine ⟨o, ?_⟩
    have : pk = pub 2 := by
      obtain ⟨key, id⟩ := pk
      dsimp only at h2 h3
      subst h2
      split at h3
      · rename_i k
        have h4 : (show List Byte from k) = pubBytes 2 := eq_of_beq h3
        have h5 : k = pubBytes 2 := h4
        subst h5
        rfl
      · cases h3
    rw [← this]; exact h
  · cases hc

theorem heardPkr_last : ∀ r ∈ receivedOf (pagesOf heardPkr), r.dsmCall.header.dsmId = 13 := by decide +kernel

theorem heardPkr_follows : Follows onAir2 none heardPkr [.pkr pkr2 (pub 2)] heard2 where
  heard := heard2_pages
  later := by
    have h1 : ∀ p ∈ pagesOf heardPkr, p.sub.abs < 725796000 := by decide +kernel
    have h2 : ∀ p ∈ pagesOf heard2, 725796000 ≤ p.sub.abs := by decide +kernel
    intro p hp q hq
    have := h1 p hp
    have := h2 q hq
    omega
  held := .inl rfl
  newId := by
    intro rs r hr hl
    obtain rfl := hr.unique (receivedOf_spec _)
    rw [heardPkr_last r (List.mem_of_getLast? hl)]
    decide
  leads := by
    intro q _ k hk
    rcases hk with hk | hk <;> cases hk

theorem heard2_whole (i : Nat) (hi : i < 8) : HeardWhole heard2 (sv 1) (gst (36000 + 30 * i)) := by
  have : ∀ i, i < 8 → (pagesIn heard2 (sv 1) (gst (36000 + 30 * i))).map Page.word = List.range 15 := by decide +kernel
  unfold HeardWhole
  rw [this i hi]
  exact List.Sublist.refl _

theorem heard2_kroot : KrootHeard onAir2 heard2 (gst 36210) := by
  intro i hi
  have hi' : i < 8 := by have := onAir2_size.1; omega
  refine ⟨sv 1, gst (36000 + 30 * i), ?_, heard2_whole i hi', ?_⟩
  · exact (by decide +kernel : ∀ i, i < 8 → (gst (36000 + 30 * i)).abs ≤ (gst 36210).abs) i hi'
  · rw [onAir2_blocks i hi']; rfl

theorem heard2_order : CallsInOrder (heardPkr ++ heard2) := by
  have : ((heardPkr ++ heard2).map (fun c => c.gst.subframe.abs)).Pairwise (· ≤ ·) := by decide +kernel
  exact List.pairwise_map.1 this

theorem heard2_inavs : inavsOf (heardPkr ++ heard2) = inavsOf (nominal 8) := by decide +kernel

theorem heard2_tag : TagHeard onAir2 S false (heardPkr ++ heard2) heard2 .ced (sv 1) (navData .ced 1 0x35) nomTag where
  on := nominal_tag.on
  onKey := nominal_tag.onKey
  key := nominal_tag.key
  status := nominal_tag.status
  sent := nominal_tag.sent
  right := nominal_tag.right
  prnd := nominal_tag.prnd
  rightKey := nominal_tag.rightKey
  verifies := nominal_tag.verifies
  heard := heard2_whole 6 (by decide)
  disclosed := ⟨sv 1, heard2_whole 7 (by decide)⟩
  kroot := heard2_kroot
  data := by unfold wordsUpTo; rw [heard2_inavs]; exact nominal_tag.data
  recent := by rw [heard2_inavs]; exact nominal_tag.recent
  alive := by rw [heard2_inavs]; exact nominal_tag.alive
  depthNav := nominal_tag.depthNav
  depthMack := nominal_tag.depthMack

/-- The hypotheses of C76 are met: first a DSM-PKR, then a broadcast under the new key; the DSM-KROOT and the last key are accepted, and the data of
satellite 1 is authenticated. -/
example : ∃ log o d, Logs S withRoot (heardPkr ++ heard2) log o ∧
    (∃ (g : Gst) (ks ks' : List Verif.Key), log = [.pkr pkr2 (pub 2)] ++ ks.map .tesla ++ [.kroot ⟨hdr1⟩ kroot12 (pub 2) (Sim.key (Sim.chain 1) 35970) g] ++
      ks'.map .tesla) ∧ KeyEvent.tesla (C := toy) (onAir2.key (gst 36210)) ∈ log ∧
    o.get S .ced (sv 1) = .ok (some d) ∧ d.data = navData .ced 1 0x35 ∧ 40 ≤ d.authbits := by
  obtain ⟨o₁, h₁⟩ := heardPkr_log
  have h0 : (Osnma.new S (some root) none false : Osnma toy).Fresh S := .inl ⟨root, none, false, rfl⟩
  obtain ⟨log, o, hl⟩ := C76_never_panics (S := S) (root0 := some root) (slow := false) S_consistent h0 onAir2_sound h₁ heardPkr_follows
    (by intro h data pk k g h' data' pk' k' g' he; simp at he) (by intro h data pk k g he; simp at he)
  obtain ⟨g, ks, ks', _, e1⟩ := C76_kroot_accepted onAir2_sound h₁ hl heardPkr_follows
    ((List.pairwise_append.1 heard2_order).2.1 |> CallsInOrder.pages) heard2_kroot
  obtain ⟨d, e2, e3, e4⟩ := C76_authenticates S_consistent h0 onAir2_sound h₁ hl.run heardPkr_follows heard2_order
    ⟨[sv 1], by decide, by rw [heard2_inavs]; decide +kernel⟩
    (fun _ => ⟨[sv 1], by decide, fun p hp _ => (by decide +kernel : ∀ p ∈ pagesOf (heardPkr ++ heard2), p.svn ∈ [sv 1]) p hp⟩)
    (by rw [heard2_inavs]; decide +kernel) .ced (sv 1) (navData .ced 1 0x35) 349 (by decide +kernel) (by decide +kernel)
    (by
      intro i h1 h2
      have : ∀ i, i < 372 → 349 ≤ i → NavKind.expected .ced (inavsOf ((heardPkr ++ heard2).take i)) (sv 1) = navData .ced 1 0x35 := by decide +kernel
      exact this i (Nat.lt_succ_of_le (Nat.le_trans h2 (by decide +kernel))) h1)
    [nomTag] (by simp) (by
      intro u hu
      rw [List.mem_singleton] at hu
      subst hu
      exact ⟨heard2_tag, by decide +kernel, fun _ => .inl (by intro hd he; cases he)⟩)
    (by decide +kernel)
  exact ⟨log, o, d, hl, ⟨g, ks, ks', e1⟩, C76_key_accepted onAir2_sound h₁ hl heardPkr_follows
    ((List.pairwise_append.1 heard2_order).2.1 |> CallsInOrder.pages) heard2_kroot (heard2_whole 7 (by decide)), e2, e3, Nat.le_trans (by decide +kernel) e4⟩

/-! ## The DSM-KROOT of the chain in use is sent again -/

/-- What the satellites send from 36000 on until 36450; the DSM id is now 4. -/
def onAir3 : Broadcast toy where
  pk := pub 1
  header := ⟨hdr1⟩
  dsmId := 4
  kroot := kroot11
  root := key (chain 1) 35970
  key := fun g => key (chain 1) g.tow
  last := gst 36450
  hkroot := fun _ g => fix 15 (hdr1 :: BitVec.ofNat 8 (64 + (g.tow - 36000) / 30 % 8) :: byteField kroot11 (13 * ((g.tow - 36000) / 30 % 8)) 13)
  mack := fun _ g => nomMack g.tow

theorem onAir3_on {g : Gst} (h : onAir3.On g) : ∃ i, i < 16 ∧ g = gst (36000 + 30 * i) := by
  obtain ⟨h1, h2, h3⟩ := h
  have e1 : onAir3.root.gst.abs = 725795970 := by decide +kernel
  have e2 : onAir3.last.abs = 725796450 := by decide +kernel
  rw [e1] at h2
  rw [e2] at h3
  unfold Gst.Aligned at h1
  have e3 : ∀ i, i < 16 → (gst (36000 + 30 * i)).abs = 725796000 + 30 * i := by decide +kernel
  refine ⟨((g.abs - 725796000) / 30).toNat, by omega, ?_⟩
  apply Gst.abs_inj
  rw [e3 _ (by omega)]
  omega

theorem onAir3_blocks : ∀ i, i < 16 → (onAir3.hkroot (sv 1) (gst (36000 + 30 * i))).val = onAir3.header.data ::
    BitVec.ofNat 8 (16 * onAir3.dsmId + i % 8) :: byteField onAir3.kroot (13 * (i % 8)) 13 := by decide +kernel

theorem onAir3_gst : ∀ i, i < 16 → (onAir3.key (gst (36000 + 30 * i))).gst = gst (36000 + 30 * i) := by decide +kernel

theorem onAir3_pad : ∀ i, i < 16 → (onAir3.key (gst (36000 + 30 * i))).data.val = (onAir3.key (gst (36000 + 30 * i))).bytes ++
    List.replicate (32 - (onAir3.key (gst (36000 + 30 * i))).chain.keySizeBytes) 0#8 := by decide +kernel

theorem onAir3_next : ∀ i, i < 15 → (chainHash toy onAir3.root.chain (owfMessage onAir3.root.chain
    (onAir3.key (gst (36000 + 30 * (i + 1)))).bytes (gst (36000 + 30 * i)))).take onAir3.root.chain.keySizeBytes =
    (onAir3.key (gst (36000 + 30 * i))).bytes := by decide +kernel

theorem onAir3_sent : ∀ i, i < 16 → packBytes (mackKeyField (onAir3.mack (sv 1) (gst (36000 + 30 * i))) onAir3.root.chain) =
    (onAir3.key (gst (36000 + 30 * i))).bytes := by decide +kernel

theorem onAir3_abs : ∀ i, i < 16 → (gst (36000 + 30 * i)).abs = onAir3.root.gst.abs + 30 + 30 * i := by decide +kernel

theorem onAir3_named : onAir3.pk.pkid = bitField onAir3.kroot 4 4 := by decide +kernel
theorem onAir3_size : onAir3.kroot.length = 13 * (bitField onAir3.kroot 0 4 + 6) := by decide +kernel
theorem onAir3_hour : bitField onAir3.kroot 48 8 ≤ 167 := by decide +kernel
theorem onAir3_root : onAir3.root.ZeroPadded := by unfold Key.ZeroPadded; decide +kernel

theorem onAir3_sound : onAir3.Sound where
  status := .inl (by decide +kernel)
  calm := by decide +kernel
  id := by decide
  named := onAir3_named
  signed := ⟨_, _, kroot11_signed⟩
  size := onAir3_size
  announced := kroot11_announced
  pad := onAir3_root
  chain := by decide +kernel
  hour := onAir3_hour
  sensible := onAir_sound.sensible
  blocks := by
    intro v g hg
    obtain ⟨i, hi, rfl⟩ := onAir3_on hg
    refine ⟨i % 8, ?_, onAir3_blocks i hi⟩
    show 13 * (i % 8) < onAir.kroot.length
    rw [onAir_size.1]; omega
  keys := by
    intro g hg
    obtain ⟨i, hi, rfl⟩ := onAir3_on hg
    exact ⟨onAir3_gst i hi, rfl, onAir3_pad i hi⟩
  first := by
    intro g hg he
    obtain ⟨i, hi, rfl⟩ := onAir3_on hg
    rw [onAir3_abs i hi] at he
    obtain rfl : i = 0 := by omega
    refine .succ 0 _ onAir3.root.gst _ _ (by rw [onAir3_abs 0 hi]; omega) ?_
    have : (chainHash toy onAir3.root.chain (owfMessage onAir3.root.chain (onAir3.key (gst 36000)).bytes onAir3.root.gst)).take
      onAir3.root.chain.keySizeBytes = onAir3.root.bytes := onAir_first
    rw [show 36000 + 30 * 0 = 36000 from rfl, this]
    exact .zero _
  derive := by
    intro g g' hg hg' he
    obtain ⟨i, hi, rfl⟩ := onAir3_on hg
    obtain ⟨j, hj, rfl⟩ := onAir3_on hg'
    rw [onAir3_abs i hi, onAir3_abs j hj] at he
    obtain rfl : j = i + 1 := by omega
    refine .succ 0 _ (gst (36000 + 30 * i)) _ _ (by rw [onAir3_abs _ hi, onAir3_abs _ hj]; omega) ?_
    rw [onAir3_next i (by omega)]
    exact .zero _
  sent := by
    intro v g hg
    obtain ⟨i, hi, rfl⟩ := onAir3_on hg
    exact onAir3_sent i hi
  window := by decide +kernel

/-- Eight more subframes, without words. -/
def renewal : List Call := (List.range 8).flatMap (fun i => subframe (chain 1) 1 2 (36240 + 30 * i) 1 0x35 hdr1 4 i kroot11)

/-- A page of a message is a page of the broadcast. -/
theorem heard_page {b : Broadcast toy} {tow w : Nat} {k m : List Byte} (hw : w < 15)
    (ht : (gst (tow + 2 * w)).subframe = gst tow ∧ ((gst (tow + 2 * w)).tow - (gst tow).tow) / 2 = w) (hon : b.On (gst tow))
    (hh : (b.hkroot (sv 1) (gst tow)).val = k) (hm : (b.mack (sv 1) (gst tow)).val = m) {p : Page}
    (hpage : (⟨fix 5 (k.getD w 0#8 :: (m.drop (4 * w)).take 4), sv 1, gst (tow + 2 * w)⟩ : Page) = p) :
    b.On p.sub ∧ p.hkroot = ((b.hkroot p.svn p.sub).val.drop p.word).take 1 ∧ p.mack = ((b.mack p.svn p.sub).val.drop (4 * p.word)).take 4 := by
  have hhl := (b.hkroot (sv 1) (gst tow)).2
  have hlen := (b.mack (sv 1) (gst tow)).2
  rw [hm] at hlen
  have hv : (fix 5 (k.getD w 0#8 :: (m.drop (4 * w)).take 4)).val = k.getD w 0#8 :: (m.drop (4 * w)).take 4 := by
    apply fix_bytes
    rw [List.length_cons, List.length_take, List.length_drop, hlen]
    omega
  have e1 : p.sub = gst tow := by rw [← hpage]; exact ht.1
  have e2 : p.word = w := by
    unfold Page.word
    rw [e1, ← hpage]; exact ht.2
  have e3 : p.svn = sv 1 := by rw [← hpage]
  refine ⟨by rw [e1]; exact hon, ?_, ?_⟩
  · rw [e1, e2, e3, hh]
    have hkl : w < k.length := by rw [← hh, hhl]; exact hw
    have : p.hkroot = [k.getD w 0#8] := by
      unfold Page.hkroot
      rw [← hpage]
      dsimp only
      rw [hv]; rfl
    rw [this, List.getD_eq_getElem?_getD, List.getElem?_eq_getElem hkl, Option.getD_some, List.drop_eq_getElem_cons hkl]
    rfl
  · rw [e1, e2, e3, hm]
    unfold Page.mack
    rw [← hpage]
    dsimp only
    rw [hv]; rfl

/-- The pages of the scenario. -/
theorem renewal_pages {p : Page} (h : p ∈ pagesOf renewal) : ∃ i w, i < 8 ∧ w < 15 ∧
    ⟨fix 5 ((hdr1 :: BitVec.ofNat 8 (4 * 16 + i) :: (kroot11.drop (13 * i)).take 13).getD w 0#8 ::
      ((packBytes (mackBits (chain 1) 1 2 (36240 + 30 * i) 1 0x35 1)).drop (4 * w)).take 4), sv 1, gst (36240 + 30 * i + 2 * w)⟩ = p := by
  unfold pagesOf renewal at h
  rw [List.mem_filterMap] at h
  obtain ⟨c, hc, he⟩ := h
  rw [List.mem_flatMap] at hc
  obtain ⟨i, hi, hc⟩ := hc
  unfold subframe pages at hc
  dsimp only at hc
  obtain ⟨w, hw, rfl⟩ := List.mem_map.1 hc
  dsimp only at he
  split at he
  · cases he
  · cases he
    exact ⟨i, w, List.mem_range.1 hi, List.mem_range.1 hw, rfl⟩

theorem renewal_times : ∀ i, i < 8 → ∀ w, w < 15 → (gst (36240 + 30 * i + 2 * w)).subframe = gst (36240 + 30 * i) ∧
    ((gst (36240 + 30 * i + 2 * w)).tow - (gst (36240 + 30 * i)).tow) / 2 = w := by decide +kernel

theorem renewal_on : ∀ i, i < 8 → (gst (36240 + 30 * i)).abs % 30 = 0 ∧ onAir3.root.gst.abs < (gst (36240 + 30 * i)).abs ∧
    (gst (36240 + 30 * i)).abs ≤ onAir3.last.abs ∧ 725796210 < (gst (36240 + 30 * i)).abs := by decide +kernel

theorem renewal_hkroot : ∀ i, i < 8 → (onAir3.hkroot (sv 1) (gst (36240 + 30 * i))).val =
    hdr1 :: BitVec.ofNat 8 (4 * 16 + i) :: (kroot11.drop (13 * i)).take 13 := by decide +kernel

theorem renewal_mack : ∀ i, i < 8 → (onAir3.mack (sv 1) (gst (36240 + 30 * i))).val =
    packBytes (mackBits (chain 1) 1 2 (36240 + 30 * i) 1 0x35 1) := by decide +kernel

theorem renewal_heard : Heard onAir3 renewal := by
  intro p hp
  obtain ⟨i, w, hi, hw, h⟩ := renewal_pages hp
  obtain ⟨h1, h2, h3, _⟩ := renewal_on i hi
  exact heard_page hw (renewal_times i hi w hw) ⟨h1, h2, h3⟩ (renewal_hkroot i hi) (renewal_mack i hi) h

/-- A run of eight nominal subframes: the DSM-KROOT and one key were accepted. -/
theorem nominal_log : ∃ (g : Gst) (o : Osnma toy), Logs S withKey (nominal 8)
    [.kroot ⟨hdr1⟩ kroot11 (pub 1) (key (chain 1) 35970) g, .tesla (key (chain 1) 36210)] o := by
  obtain ⟨log', o', hl', hc', _⟩ := outcome_some nominal8
  obtain ⟨g, ks, ks', _, h1⟩ := C75_kroot_accepted (root0 := none) (slow := false) onAir_sound hl' nominal_heard nominal_order.pages nominal_kroot
  have h2 := C75_key_accepted (root0 := none) (slow := false) onAir_sound hl' nominal_heard nominal_order.pages nominal_kroot
    (nominal_whole 7 (by decide))
  have hl2 : log'.length = 2 := by rw [← List.length_map (f := code), hc']; rfl
  have hne : ∀ k l, log' ≠ KeyEvent.tesla k :: l := by
    rintro k l rfl
    simp [code] at hc'
  cases ks with
  | cons k ks => exact absurd h1 (hne k _)
  | nil =>
    rw [h1] at hl2 h2
    cases ks' with
    | nil => simp at hl2
    | cons k ks' =>
      cases ks' with
      | cons k' ks' => simp at hl2
      | nil =>
        have : onAir.key (gst 36210) = k := by simpa using h2
        refine ⟨g, o', ?_⟩
        have e : onAir.key (gst 36210) = key (chain 1) 36210 := by decide +kernel
        rw [e] at this
        rw [this]
        rw [h1] at hl'
        exact hl'

theorem nominal_ids : ∀ r ∈ receivedOf (pagesOf (nominal 8)), r.dsmCall.header.dsmId = 3 := by decide +kernel

theorem nominal_before : ∀ p ∈ pagesOf (nominal 8), p.sub.abs ≤ 725796210 := by decide +kernel

theorem onAir3_last : onAir3.On (gst 36210) :=
  (by decide +kernel : (gst 36210).abs % 30 = 0 ∧ onAir3.root.gst.abs < (gst 36210).abs ∧ (gst 36210).abs ≤ onAir3.last.abs)

theorem renewal_follows (g : Gst) : Follows onAir3 (some (pub 1)) (nominal 8)
    [.kroot ⟨hdr1⟩ kroot11 (pub 1) (key (chain 1) 35970) g, .tesla (key (chain 1) 36210)] renewal where
  heard := renewal_heard
  later := by
    intro p hp q hq
    have h1 := nominal_before p hp
    obtain ⟨i, w, hi, hw, rfl⟩ := renewal_pages hq
    have h2 := (renewal_on i hi).2.2.2
    have h3 : (gst (36240 + 30 * i + 2 * w)).subframe.abs = (gst (36240 + 30 * i)).abs := by rw [(renewal_times i hi w hw).1]
    show p.sub.abs < (gst (36240 + 30 * i + 2 * w)).subframe.abs
    omega
  held := .inl rfl
  newId := by
    intro rs r hr hl
    obtain rfl := hr.unique (receivedOf_spec _)
    rw [nominal_ids r (List.mem_of_getLast? hl)]
    decide
  leads := by
    intro q hq k hk _
    have hk' : k = key (chain 1) 36210 := by
      rcases hk with hk | hk
      · have : (teslaHeld [KeyEvent.kroot ⟨hdr1⟩ kroot11 (pub 1) (key (chain 1) 35970) g, .tesla (key (chain 1) 36210)]).1 =
          some (key (chain 1) 36210) := by rfl
        rw [this] at hk
        cases hk; rfl
      · have : (teslaHeld [KeyEvent.kroot ⟨hdr1⟩ kroot11 (pub 1) (key (chain 1) 35970) g, .tesla (key (chain 1) 36210)]).2 = none := by rfl
        rw [this] at hk
        cases hk
    subst hk'
    refine ⟨rfl, ?_⟩
    have hon := (renewal_heard q hq).1
    obtain ⟨i, w, hi, hw, rfl⟩ := renewal_pages hq
    have h2 := (renewal_on i hi).2.2.2
    have h3 : (gst (36240 + 30 * i + 2 * w)).subframe = gst (36240 + 30 * i) := (renewal_times i hi w hw).1
    have h4 : (gst 36210).abs = 725796210 := by decide +kernel
    have h5 : onAir3.last.abs = 725796450 := by decide +kernel
    have h6 := (renewal_on i hi).2.2.1
    have hon' : onAir3.On (gst (36240 + 30 * i)) := h3 ▸ hon
    obtain ⟨n, e1, e2⟩ := Broadcast.derives onAir3_sound onAir3_last hon' (by omega)
    refine ⟨n, by omega, by omega, ?_⟩
    have h7 : onAir3.key (gst 36210) = key (chain 1) 36210 := by decide +kernel
    have h8 : (key (chain 1) 36210).gst = gst 36210 := by decide +kernel
    rw [h7] at e2
    rw [h8]
    show Derives toy onAir3.root.chain n ((gst (36240 + 30 * i + 2 * w)).subframe, (onAir3.key (gst (36240 + 30 * i + 2 * w)).subframe).bytes) _
    rw [h3]
    exact e2

theorem renewal_order : (pagesOf renewal).Pairwise (fun p q => p.sub.abs ≤ q.sub.abs) := by
  have : ((pagesOf renewal).map (fun p => p.sub.abs)).Pairwise (· ≤ ·) := by decide +kernel
  exact List.pairwise_map.1 this

theorem renewal_whole (i : Nat) (hi : i < 8) : HeardWhole renewal (sv 1) (gst (36240 + 30 * i)) := by
  have : ∀ i, i < 8 → (pagesIn renewal (sv 1) (gst (36240 + 30 * i))).map Page.word = List.range 15 := by decide +kernel
  unfold HeardWhole
  rw [this i hi]
  exact List.Sublist.refl _

theorem renewal_kroot : KrootHeard onAir3 renewal (gst 36450) := by
  intro i hi
  have hi' : i < 8 := by
    have : onAir3.kroot.length = 104 := onAir_size.1
    omega
  refine ⟨sv 1, gst (36240 + 30 * i), ?_, renewal_whole i hi', ?_⟩
  · exact (by decide +kernel : ∀ i, i < 8 → (gst (36240 + 30 * i)).abs ≤ (gst 36450).abs) i hi'
  · rw [renewal_hkroot i hi']; rfl

/-- The hypotheses of C76 are met: the receiver already uses the chain, and the DSM-KROOT is sent again under another id. -/
example : ∃ (log : List (KeyEvent toy)) (o : Osnma toy) (g g' : Gst) (ks ks' : List Verif.Key), Logs S withKey (nominal 8 ++ renewal) log o ∧
    log = [.kroot ⟨hdr1⟩ kroot11 (pub 1) (key (chain 1) 35970) g, .tesla (key (chain 1) 36210)] ++ ks.map .tesla ++
      [.kroot ⟨hdr1⟩ kroot11 (pub 1) (key (chain 1) 35970) g'] ++ ks'.map .tesla ∧
    KeyEvent.tesla (C := toy) (key (chain 1) 36450) ∈ log := by
  obtain ⟨g, o₁, h₁⟩ := nominal_log
  have h0 : (Osnma.new S none (some (pub 1)) false : Osnma toy).Fresh S := .inr ⟨pub 1, false, rfl⟩
  have hkr : ∀ h data pk k g', KeyEvent.kroot h data pk k g' ∈ ([.kroot ⟨hdr1⟩ kroot11 (pub 1) (key (chain 1) 35970) g,
      .tesla (key (chain 1) 36210)] : List (KeyEvent toy)) → k.chain = onAir3.root.chain := by
    intro h data pk k g' he
    rcases List.mem_cons.1 he with he | he
    · cases he; rfl
    · rcases List.mem_cons.1 he with he | he <;> cases he
  obtain ⟨log, o, hl⟩ := C76_never_panics (S := S) (root0 := none) (slow := false) S_consistent h0 onAir3_sound h₁ (renewal_follows g)
    (by
      intro h data pk k g h' data' pk' k' g' he he'
      rw [hkr _ _ _ _ _ he, hkr _ _ _ _ _ he']
      exact onAir3_sound.sensible)
    (by
      intro h data pk k g he
      rw [hkr _ _ _ _ _ he]
      exact ⟨onAir3_sound.sensible, onAir3_sound.sensible⟩)
  obtain ⟨g', ks, ks', _, e1⟩ := C76_kroot_accepted onAir3_sound h₁ hl (renewal_follows g) renewal_order renewal_kroot
  have e2 := C76_key_accepted onAir3_sound h₁ hl (renewal_follows g) renewal_order renewal_kroot (renewal_whole 7 (by decide))
  have e3 : onAir3.key (gst (36240 + 30 * 7)) = key (chain 1) 36450 := by decide +kernel
  rw [e3] at e2
  exact ⟨log, o, g, g', ks, ks', hl, e1, e2⟩

end Verif.Sim
