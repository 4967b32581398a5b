import Verif.Props.Spoofing
import Verif.Props.ColdStartExample
import Verif.Tests.ScenariosChain

/-! # Concrete runs that meet the hypotheses of C77, and a replay that breaks what is not claimed; evaluated by the kernel -/

namespace Verif.Sim
open Verif

/-- Before: the DSM-KROOT. -/
def heardKroot : List Call := sendDsm hdr1 4 8 35730 kroot11

theorem heardKroot_log : ∃ (log : List (KeyEvent toy)) (o : Osnma toy), Logs S withKey heardKroot log o ∧ log.length = 1 ∧
    lastHeader log = some ⟨hdr1⟩ ∧ teslaHeld log = (some (key (chain 1) 35970), none) := by
  obtain ⟨log, o, h, hc⟩ := check_some (o0 := withKey) (h := heardKroot)
    (f := fun l _ => l.length == 1 && lastHeader l == some ⟨hdr1⟩ && teslaHeld l == (some (key (chain 1) 35970), none)) (by decide +kernel)
  simp only [Bool.and_eq_true, beq_iff_eq] at hc
  exact ⟨log, o, h, hc.1.1, hc.1.2, hc.2⟩

/-- The calls are those of the nominal scenario, or made with the number of satellite 2. -/
def Mixed (after : List Call) : Prop := ∀ c ∈ after, c ∈ nominal 8 ∨ ∃ d g, c = .osnma d (sv 2) g

theorem mixed_spoofed {after : List Call} {log : List (KeyEvent toy)} (hm : Mixed after) (ht : ∀ p ∈ pagesOf after, onAir.On p.sub)
    (h1 : lastHeader log = some ⟨hdr1⟩) (h2 : teslaHeld log = (some (key (chain 1) 35970), none)) :
    Spoofed onAir (fun v => v = sv 1) heardKroot log after where
  time := ht
  later := by
    have h1 : ∀ p ∈ pagesOf heardKroot, p.sub.abs < 725795970 := by decide +kernel
    have h2 : onAir.root.gst.abs = 725795970 := by decide +kernel
    intro p hp q hq
    have := h1 p hp
    have := (ht q hq).2.1
    omega
  genuine := by
    intro p hp hv
    have : p ∈ pagesOf (nominal 8) := by
      unfold pagesOf at hp ⊢
      rw [List.mem_filterMap] at hp ⊢
      obtain ⟨c, hc, he⟩ := hp
      rcases hm c hc with h | ⟨d, g, rfl⟩
      · exact ⟨c, h, he⟩
      · exfalso
        dsimp only at he
        split at he
        · cases he
        · cases he
          have : sv 2 = sv 1 := hv
          revert this; decide
    exact (nominal_heard p this).2
  header := h1
  held := ⟨onAir.root, .inl (by rw [h2]; rfl), rfl⟩
  leads := by
    intro q hq k hk _
    rw [h2] at hk
    rcases hk with hk | hk
    · cases hk
      obtain ⟨n, a1, a2, a3⟩ := onAir.derives_root onAir_sound (ht q hq)
      exact ⟨rfl, n, a1, a2, a3⟩
    · cases hk

/-! ## A satellite that sends nonsense -/

/-- Satellite 2 sends the bytes 0x5a, with the DSM id of the broadcast. -/
def nonsense (tow : Nat) : List Call := dsmSubframe 2 tow hdr1 3 2 (List.replicate 200 0x5a#8)

/-- Subframe `i` of the nominal scenario. -/
def sentAt (i : Nat) : List Call :=
  Sim.navCalls 1 0x35 (36000 + 30 * i) ++ subframe (chain 1) 1 2 (36000 + 30 * i) 1 0x35 hdr1 3 (i % 8) kroot11

theorem sentAt_mem {i : Nat} (hi : i < 8) : ∀ c ∈ sentAt i, c ∈ nominal 8 := by
  intro c hc
  unfold nominal nominalWith
  rw [List.mem_flatMap]
  exact ⟨i, List.mem_range.2 hi, hc⟩

theorem dsmSubframe_sat {tow id b : Nat} {hdr : Byte} {dsm : List Byte} : ∀ c ∈ dsmSubframe 2 tow hdr id b dsm,
    ∃ d g, c = .osnma d (sv 2) g := by
  intro c hc
  unfold dsmSubframe pages at hc
  dsimp only at hc
  obtain ⟨i, _, rfl⟩ := List.mem_map.1 hc
  exact ⟨_, _, rfl⟩

/-- Three subframes: nonsense first. -/
def amidNonsense : List Call :=
  nonsense 36150 ++ sentAt 5 ++ (nonsense 36180 ++ sentAt 6) ++ (nonsense 36210 ++ sentAt 7)

theorem amid_mixed : Mixed amidNonsense := by
  intro c hc
  simp only [amidNonsense, List.mem_append] at hc
  rcases hc with ((hc | hc) | hc | hc) | hc | hc
  · exact .inr (dsmSubframe_sat c hc)
  · exact .inl (sentAt_mem (by decide) c hc)
  · exact .inr (dsmSubframe_sat c hc)
  · exact .inl (sentAt_mem (by decide) c hc)
  · exact .inr (dsmSubframe_sat c hc)
  · exact .inl (sentAt_mem (by decide) c hc)

theorem amid_time : ∀ p ∈ pagesOf amidNonsense, onAir.On p.sub := by
  have : ∀ p ∈ pagesOf amidNonsense, p.sub.abs % 30 = 0 ∧ onAir.root.gst.abs < p.sub.abs ∧ p.sub.abs ≤ onAir.last.abs := by decide +kernel
  exact this

theorem amid_log : ∃ (log : List (KeyEvent toy)) (o : Osnma toy), Logs S withKey (heardKroot ++ amidNonsense) log o ∧
    log.drop 1 = [KeyEvent.tesla (C := toy) (key (chain 1) 36150), .tesla (key (chain 1) 36180), .tesla (key (chain 1) 36210)] ∧
    (∀ k, KeyEvent.tesla k ∈ log.take 1 → False) := by
  obtain ⟨log, o, h, hc⟩ := check_some (o0 := withKey) (h := heardKroot ++ amidNonsense)
    (f := fun l _ => match l with
      | [.kroot _ _ _ _ _, .tesla k, .tesla k', .tesla k''] => k == key (chain 1) 36150 && k' == key (chain 1) 36180 &&
        k'' == key (chain 1) 36210
      | _ => false) (by decide +kernel)
  split at hc
  · simp only [Bool.and_eq_true, beq_iff_eq] at hc
    obtain ⟨⟨rfl, rfl⟩, rfl⟩ := hc
    exact ⟨_, o, h, rfl, by simp⟩
  · cases hc

theorem amid_order : CallsInOrder (heardKroot ++ amidNonsense) := by
  have : ((heardKroot ++ amidNonsense).map (fun c => c.gst.subframe.abs)).Pairwise (· ≤ ·) := by decide +kernel
  exact List.pairwise_map.1 this

theorem amid_whole : ∀ i, i < 2 → HeardWhole amidNonsense (sv 1) (gst (36180 + 30 * i)) := by
  have : ∀ i, i < 2 → (pagesIn amidNonsense (sv 1) (gst (36180 + 30 * i))).map Page.word = List.range 15 := by decide +kernel
  intro i hi
  unfold HeardWhole
  rw [this i hi]
  exact List.Sublist.refl _

theorem amid_data : NavKind.expected .ced (wordsUpTo (heardKroot ++ amidNonsense) (nomTag.gst.abs - 30)) (sv 1) = navData .ced 1 0x35 := by
  decide +kernel

theorem amid_recent : ∀ f ∈ NavKind.ced.fields, ∃ c ∈ inavsOf (heardKroot ++ amidNonsense), c.svn = sv 1 ∧ NavKind.ced.carries c f = true ∧
    c.gst.subframe.abs ≤ nomTag.gst.abs - 30 ∧ nomTag.gst.abs - 30 * nomTag.tag.cop ≤ c.gst.subframe.abs := by decide +kernel

theorem amid_alive : ∃ c ∈ inavsOf (heardKroot ++ amidNonsense), c.gst.subframe.abs = nomTag.gst.abs - 30 := by decide +kernel

theorem amid_tag : TagSent onAir S false (heardKroot ++ amidNonsense) amidNonsense .ced (sv 1) (navData .ced 1 0x35) nomTag where
  on := nominal_tag.on
  onKey := nominal_tag.onKey
  key := nominal_tag.key
  status := nominal_tag.status
  sent := nominal_tag.sent
  right := nominal_tag.right
  prnd := nominal_tag.prnd
  rightKey := nominal_tag.rightKey
  verifies := nominal_tag.verifies
  heard := amid_whole 0 (by decide)
  data := amid_data
  recent := amid_recent
  alive := amid_alive
  depthNav := nominal_tag.depthNav
  depthMack := nominal_tag.depthMack

/-- Keys of the broadcast are not forged. -/
theorem not_forged {C : Crypto} {b : Broadcast C} {log : List (KeyEvent C)} (h : ∀ k, KeyEvent.tesla k ∈ log → k = b.key k.gst) :
    ¬ ForgedKey b log := by
  rintro ⟨k, n, h1, _, _, j, g', prev, a₁, a₂, _, d1, d2, _, hne, _⟩
  rw [← h k h1] at d2
  have := d1.det d2
  rw [Prod.mk.injEq] at this
  exact hne (by rw [this.2])

/-- The hypotheses of C77 are met: in each of three subframes, satellite 2 sends nonsense before satellite 1 is heard; the keys are accepted and
the data of satellite 1 is authenticated. -/
example : ∃ log o d, Logs S withKey (heardKroot ++ amidNonsense) log o ∧ KeyEvent.tesla (C := toy) (onAir.key (gst 36210)) ∈ log ∧
    o.get S .ced (sv 1) = .ok (some d) ∧ d.data = navData .ced 1 0x35 ∧ 40 ≤ d.authbits := by
  obtain ⟨log₁, o₁, h₁, hlen, e1, e2⟩ := heardKroot_log
  obtain ⟨log, o, hl, hd, ht⟩ := amid_log
  have h0 : (Osnma.new S none (some (pub 1)) false : Osnma toy).Fresh S := .inr ⟨pub 1, false, rfl⟩
  have hsp := mixed_spoofed amid_mixed amid_time e1 e2
  have hsame : SameHeader onAir log₁ log := by
    intro e he
    rw [hlen, hd] at he
    simp only [List.mem_cons, List.not_mem_nil, or_false] at he
    rcases he with rfl | rfl | rfl <;> exact ⟨(by intro _ _ _ _ _ h; cases h), (by intro _ h; cases h)⟩
  have hno : ¬ ForgedKey onAir log := by
    apply not_forged
    intro k hk
    rw [← List.take_append_drop 1 log, hd] at hk
    rcases List.mem_append.1 hk with hk | hk
    · exact absurd hk (fun h => ht k h)
    · simp only [List.mem_cons, List.not_mem_nil, or_false, KeyEvent.tesla.injEq] at hk
      rcases hk with rfl | rfl | rfl
      · exact (by decide +kernel : key (chain 1) 36150 = key (chain 1) (key (chain 1) 36150).gst.tow)
      · exact (by decide +kernel : key (chain 1) 36180 = key (chain 1) (key (chain 1) 36180).gst.tow)
      · exact (by decide +kernel : key (chain 1) 36210 = key (chain 1) (key (chain 1) 36210).gst.tow)
  have hdisc : HeardWhole amidNonsense (sv 1) nomTag.key.gst := amid_whole 1 (by decide)
  have hauth := C77_authenticates S_consistent h0 onAir_sound h₁ hl hsp hsame amid_order
    ⟨[sv 1], by decide, by decide +kernel⟩
    (fun _ => ⟨[sv 1, sv 2], by decide, fun p hp _ => (by decide +kernel : ∀ p ∈ pagesOf (heardKroot ++ amidNonsense), p.svn ∈ [sv 1, sv 2]) p hp⟩)
    (by decide +kernel) .ced (sv 1) (navData .ced 1 0x35) 194 (by decide +kernel) (by decide +kernel)
    (by
      intro i h1 h2
      have : ∀ i, i < 232 → 194 ≤ i → NavKind.expected .ced (inavsOf ((heardKroot ++ amidNonsense).take i)) (sv 1) = navData .ced 1 0x35 := by
        decide +kernel
      exact this i (Nat.lt_succ_of_le (Nat.le_trans h2 (by decide +kernel))) h1)
    [nomTag] (by simp) (by
      intro u hu
      rw [List.mem_singleton] at hu
      subst hu
      exact ⟨amid_tag, rfl, ⟨sv 1, rfl, hdisc⟩, by decide +kernel⟩)
    (by decide +kernel)
  obtain ⟨d, a1, a2, a3⟩ := hauth.resolve_right hno
  exact ⟨log, o, d, hl, (C77_key_accepted (S := S) (root0 := none) (pk0 := some (pub 1)) (slow := false) onAir_sound h₁ hl hsp ((List.pairwise_append.1 amid_order).2.1 |> CallsInOrder.pages) hsame rfl
    (amid_whole 1 (by decide))).resolve_right hno, a1, a2, Nat.le_trans (by decide +kernel) a3⟩

/-! ## A replay -/

/-- A DSM-KROOT of the week before, signed with key 1, when chain 2 was in force. -/
def oldKroot : List Byte := signKroot hdr2 1 {
    nb := 2, pkid := 1, cidkr := 2, rsvd1 := 0, hf := 0, mf := 0, ks := 4, ts := 9, maclt := 33,
    rsvd2 := 0, wn := 1199, towh := 10, alpha := 0x112233445566, kroot := List.replicate 16 0x77#8,
    signature := [], padding := [] }

/-- Satellite 2 sends it; satellite 1 is heard in the last subframe. -/
def replayed : List Call :=
  (List.range 8).flatMap (fun i => dsmSubframe 2 (36000 + 30 * i) hdr2 5 i oldKroot) ++ sentAt 7

theorem replayed_mixed : Mixed replayed := by
  intro c hc
  rcases List.mem_append.1 hc with hc | hc
  · rw [List.mem_flatMap] at hc
    obtain ⟨i, _, hc⟩ := hc
    exact .inr (dsmSubframe_sat c hc)
  · exact .inl (sentAt_mem (by decide) c hc)

theorem replayed_time : ∀ p ∈ pagesOf replayed, onAir.On p.sub := by
  have : ∀ p ∈ pagesOf replayed, p.sub.abs % 30 = 0 ∧ onAir.root.gst.abs < p.sub.abs ∧ p.sub.abs ≤ onAir.last.abs := by decide +kernel
  exact this

theorem replayed_log : ∃ (log : List (KeyEvent toy)) (o : Osnma toy), Logs S withKey (heardKroot ++ replayed) log o ∧
    (∀ k, KeyEvent.tesla k ∉ log) ∧ ∃ h data pk k g, KeyEvent.kroot h data pk k g ∈ log ∧ h = ⟨hdr2⟩ ∧ pk.pkid = 1 ∧
      k.gst.abs < onAir.root.gst.abs := by
  obtain ⟨log, o, h, hc⟩ := check_some (o0 := withKey) (h := heardKroot ++ replayed)
    (f := fun l _ => match l with
      | [.kroot _ _ _ _ _, .kroot h _ pk k _] => h == ⟨hdr2⟩ && pk.pkid == 1 && decide (k.gst.abs < onAir.root.gst.abs)
      | _ => false) (by decide +kernel)
  split at hc
  · simp only [Bool.and_eq_true, beq_iff_eq, decide_eq_true_eq] at hc
    refine ⟨_, o, h, by simp, _, _, _, _, _, List.mem_cons_of_mem _ (List.mem_singleton_self _), hc.1.1, hc.1.2, hc.2⟩
  · cases hc

end Verif.Sim

namespace Verif
open Sim

/-- What is not claimed, and not true: a spoofed satellite needs no secret to stop authentication.  It sends a DSM-KROOT of an earlier time, of
another chain, with its correct signature, which is accepted; then the key of the genuine satellite is not accepted, although it was heard during
the whole subframe, and no key was forged. -/
theorem C77_replay_counterexample : ∃ (before after : List Call) (log₁ log : List (KeyEvent toy)) (o₁ o : Osnma toy),
    Logs S withKey before log₁ o₁ ∧ Logs S withKey (before ++ after) log o ∧ Spoofed onAir (fun v => v = sv 1) before log₁ after ∧
    CallsInOrder (before ++ after) ∧ HeardWhole after (sv 1) (gst 36210) ∧ KeyEvent.tesla (onAir.key (gst 36210)) ∉ log ∧
    ¬ ForgedKey onAir log ∧ ∃ h data pk k g, KeyEvent.kroot h data pk k g ∈ log ∧ h.chainId ≠ onAir.header.chainId ∧
      k.gst.abs < onAir.root.gst.abs := by
  obtain ⟨log₁, o₁, h₁, _, e1, e2⟩ := heardKroot_log
  obtain ⟨log, o, hl, hno, h, data, pk, k, g, a1, rfl, _, a3⟩ := replayed_log
  refine ⟨heardKroot, replayed, log₁, log, o₁, o, h₁, hl, mixed_spoofed replayed_mixed replayed_time e1 e2, ?_, ?_, hno _, ?_,
    ⟨hdr2⟩, data, pk, k, g, a1, by decide, a3⟩
  · have : ((heardKroot ++ replayed).map (fun c => c.gst.subframe.abs)).Pairwise (· ≤ ·) := by decide +kernel
    exact List.pairwise_map.1 this
  · have : (pagesIn replayed (sv 1) (gst 36210)).map Page.word = List.range 15 := by decide +kernel
    unfold HeardWhole
    rw [this]
    exact List.Sublist.refl _
  · exact not_forged (fun k hk => absurd hk (hno k))

end Verif
