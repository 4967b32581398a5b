import Verif.Props.Replay
import Verif.Props.Validated
import Verif.Props.ColdStartExample

/-! # C84: a case -/

namespace Verif

/-- Derivations that meet end at the same key. -/
theorem DerivationsCollide.same {C : Crypto} {c : Chain} {n : Nat} {g : Gst} {k₁ k₂ : List Byte} {y : Gst × List Byte}
    (h : DerivationsCollide C c n g k₁ k₂) (h₂ : Derives C c n (g, k₂) y) : Derives C c n (g, k₁) y := by
  obtain ⟨j, g', prev, a₁, a₂, h1, h3, h4, h5, _, h7⟩ := h
  have s1 : Derives C c (j + 1) (g, k₁) (prev, (chainHash C c (owfMessage c a₁ prev)).take c.keySizeBytes) :=
    h3.trans (.succ 0 _ prev _ _ h5 (.zero _))
  have s2 : Derives C c (j + 1) (g, k₂) (prev, (chainHash C c (owfMessage c a₂ prev)).take c.keySizeBytes) :=
    h4.trans (.succ 0 _ prev _ _ h5 (.zero _))
  rcases h₂.confluent s2 with ⟨e, hh⟩ | ⟨e, hh⟩
  · obtain rfl : n = j + 1 := by omega
    rw [← h7] at s2
    rw [s2.det h₂] at s1
    exact s1
  · rw [← h7] at hh
    have := s1.trans hh
    rw [show j + 1 + (n - (j + 1)) = n by omega] at this
    exact this

namespace Sim

/-- What the satellites of the nominal scenario send in the thirteen subframes from 36000 on. -/
def onAirLong : Broadcast toy where
  pk := pub 1
  header := ⟨hdr1⟩
  dsmId := 3
  kroot := kroot11
  root := key (chain 1) 35970
  key := fun g => key (chain 1) g.tow
  last := gst 36360
  hkroot := fun _ g => fix 15 (hdr1 :: BitVec.ofNat 8 (48 + (g.tow - 36000) / 30 % 8) ::
    byteField kroot11 (13 * ((g.tow - 36000) / 30 % 8)) 13)
  mack := fun _ g => nomMack g.tow

theorem long_abs : ∀ i, i < 13 → (gst (36000 + 30 * i)).abs = 725796000 + 30 * i := by decide +kernel
theorem long_root : onAirLong.root.gst.abs = 725795970 := by decide +kernel
theorem long_last : onAirLong.last.abs = 725796360 := by decide +kernel

/-- The subframes. -/
theorem long_on {g : Gst} (h : onAirLong.On g) : ∃ i, i < 13 ∧ g = gst (36000 + 30 * i) := by
  obtain ⟨h1, h2, h3⟩ := h
  rw [long_root] at h2
  rw [long_last] at h3
  unfold Gst.Aligned at h1
  refine ⟨((g.abs - 725796000) / 30).toNat, by omega, ?_⟩
  apply Gst.abs_inj
  rw [long_abs _ (by omega)]
  omega

theorem long_is_on {i : Nat} (hi : i < 13) : onAirLong.On (gst (36000 + 30 * i)) := by
  refine ⟨?_, ?_, ?_⟩
  · unfold Gst.Aligned; rw [long_abs i hi]; omega
  · rw [long_root, long_abs i hi]; omega
  · rw [long_last, long_abs i hi]; omega

theorem long_blocks : ∀ i, i < 13 → (onAirLong.hkroot (sv 1) (gst (36000 + 30 * i))).val = onAirLong.header.data ::
    BitVec.ofNat 8 (16 * onAirLong.dsmId + i % 8) :: byteField onAirLong.kroot (13 * (i % 8)) 13 := by decide +kernel

theorem long_gst : ∀ i, i < 13 → (onAirLong.key (gst (36000 + 30 * i))).gst = gst (36000 + 30 * i) := by decide +kernel

theorem long_pad : ∀ i, i < 13 → (onAirLong.key (gst (36000 + 30 * i))).data.val = (onAirLong.key (gst (36000 + 30 * i))).bytes ++
    List.replicate (32 - (onAirLong.key (gst (36000 + 30 * i))).chain.keySizeBytes) 0#8 := by decide +kernel

theorem long_next : ∀ i, i < 12 → (chainHash toy onAirLong.root.chain (owfMessage onAirLong.root.chain
    (onAirLong.key (gst (36000 + 30 * (i + 1)))).bytes (gst (36000 + 30 * i)))).take onAirLong.root.chain.keySizeBytes =
    (onAirLong.key (gst (36000 + 30 * i))).bytes := by decide +kernel

theorem long_sent : ∀ i, i < 13 → packBytes (mackKeyField (onAirLong.mack (sv 1) (gst (36000 + 30 * i))) onAirLong.root.chain) =
    (onAirLong.key (gst (36000 + 30 * i))).bytes := by decide +kernel

theorem long_sound : onAirLong.Sound where
  status := .inl (by decide +kernel)
  calm := by decide +kernel
  id := by decide
  named := onAir_named
  signed := ⟨_, _, kroot11_signed⟩
  size := onAir_sound.size
  announced := kroot11_announced
  pad := onAir_root
  chain := by decide +kernel
  hour := onAir_hour
  sensible := onAir_sensible
  blocks := by
    intro v g hg
    obtain ⟨i, hi, rfl⟩ := long_on hg
    exact ⟨i % 8, by rw [show onAirLong.kroot.length = 104 from onAir_size.1]; omega, long_blocks i hi⟩
  keys := by
    intro g hg
    obtain ⟨i, hi, rfl⟩ := long_on hg
    exact ⟨long_gst i hi, rfl, long_pad i hi⟩
  first := by
    intro g hg he
    obtain ⟨i, hi, rfl⟩ := long_on hg
    rw [long_abs i hi, long_root] at he
    obtain rfl : i = 0 := by omega
    refine .succ 0 _ onAirLong.root.gst _ _ (by rw [long_abs 0 hi, long_root]; omega) ?_
    have := onAir_first
    rw [show 36000 + 30 * 0 = 36000 from rfl]
    have h : (chainHash toy onAirLong.root.chain (owfMessage onAirLong.root.chain (onAirLong.key (gst 36000)).bytes
      onAirLong.root.gst)).take onAirLong.root.chain.keySizeBytes = onAirLong.root.bytes := this
    rw [h]
    exact .zero _
  derive := by
    intro g g' hg hg' he
    obtain ⟨i, hi, rfl⟩ := long_on hg
    obtain ⟨j, hj, rfl⟩ := long_on hg'
    rw [long_abs i hi, long_abs j hj] at he
    obtain rfl : j = i + 1 := by omega
    refine .succ 0 _ (gst (36000 + 30 * i)) _ _ (by rw [long_abs _ hi, long_abs _ hj]; omega) ?_
    rw [long_next i (by omega)]
    exact .zero _
  sent := by
    intro v g hg
    obtain ⟨i, hi, rfl⟩ := long_on hg
    exact long_sent i hi
  window := by decide +kernel

/-- The derivation of the simulation, for the subframes of the scenario. -/
def backs : Nat → Nat → List Byte → Gst × List Byte
  | 0, _, k => (key (chain 1) 35970 |>.gst, k)
  | n + 1, i, k => backs n (i - 1) ((chainHash toy (chain 1) (owfMessage (chain 1) k (gst (36000 + 30 * i - 30)))).take 16)

theorem long_times : ∀ i, i < 13 → (gst (36000 + 30 * i - 30)).abs = 725796000 + 30 * i - 30 := by decide +kernel

theorem backs_derives (i : Nat) (hi : i < 13) (k : List Byte) :
    Derives toy (chain 1) (i + 1) (gst (36000 + 30 * i), k) (backs (i + 1) i k) := by
  induction i generalizing k with
  | zero =>
    refine .succ 0 _ (gst (36000 + 30 * 0 - 30)) _ _ (by rw [long_times 0 hi, long_abs 0 hi]) ?_
    exact .zero _
  | succ i ih =>
    refine .succ (i + 1) _ (gst (36000 + 30 * (i + 1) - 30)) _ _ (by rw [long_times _ hi, long_abs _ hi]) ?_
    rw [show 36000 + 30 * (i + 1) - 30 = 36000 + 30 * i by omega]
    have := ih (by omega) ((chainHash toy (chain 1) (owfMessage (chain 1) k (gst (36000 + 30 * i)))).take 16)
    exact this

theorem long_differ : ∀ i, i < 13 → ∀ j, j < 13 → i ≠ j → keyBytes (chain 1) (36000 + 30 * j) ≠ keyBytes (chain 1) (36000 + 30 * i) ∧
    (backs (i + 1) i (keyBytes (chain 1) (36000 + 30 * j))).2 ≠ (backs (i + 1) i (keyBytes (chain 1) (36000 + 30 * i))).2 := by
  decide +kernel

theorem long_bytes : ∀ i, i < 13 → (onAirLong.key (gst (36000 + 30 * i))).bytes = keyBytes (chain 1) (36000 + 30 * i) := by
  decide +kernel

/-- No key of the broadcast passes for one of another subframe. -/
theorem long_distinct : onAirLong.Distinct := by
  intro g g' hg hg' hne
  obtain ⟨i, hi, rfl⟩ := long_on hg
  obtain ⟨j, hj, rfl⟩ := long_on hg'
  obtain ⟨h1, h2⟩ := long_differ i hi j hj (by rintro rfl; exact hne rfl)
  rw [long_bytes i hi, long_bytes j hj]
  refine ⟨h1, ?_⟩
  intro n hn hc
  rw [long_root, long_abs i hi] at hn
  obtain rfl : n = i + 1 := by omega
  have := (backs_derives i hi _).det (hc.same (backs_derives i hi _))
  exact h2 (congrArg Prod.snd this)

/-- Two subframes later, somebody sends everything of the subframes 36180 and 36210 again. -/
def replay : List Call :=
  (List.range 2).flatMap (fun i => navCalls 1 0x35 (36240 + 30 * i) ++
    pages 1 (36240 + 30 * i) (hdr1 :: BitVec.ofNat 8 (3 * 16 + (6 + i)) :: (kroot11.drop (13 * (6 + i))).take 13)
      (mackBits (chain 1) 1 2 (36180 + 30 * i) 1 0x35 1))

/-- The satellite and the subframe of a replayed message. -/
def recorded (v : Svn) (g : Gst) : Svn × Gst := (v, gst (g.tow - 60))

theorem replay_pages {p : Page} (h : p ∈ pagesOf replay) : ∃ i w, i < 2 ∧ w < 15 ∧
    p = ⟨fix 5 ((hdr1 :: BitVec.ofNat 8 (3 * 16 + (6 + i)) :: (kroot11.drop (13 * (6 + i))).take 13).getD w 0#8 ::
      ((packBytes (mackBits (chain 1) 1 2 (36180 + 30 * i) 1 0x35 1)).drop (4 * w)).take 4), sv 1, gst (36240 + 30 * i + 2 * w)⟩ := by
  unfold pagesOf replay at h
  rw [List.mem_filterMap] at h
  obtain ⟨c, hc, he⟩ := h
  rw [List.mem_flatMap] at hc
  obtain ⟨i, hi, hc⟩ := hc
  rcases List.mem_append.1 hc with hc | hc
  · unfold Sim.navCalls at hc
    obtain ⟨ty, _, rfl⟩ := List.mem_map.1 hc
    cases he
  · unfold pages at hc
    dsimp only at hc
    obtain ⟨w, hw, rfl⟩ := List.mem_map.1 hc
    dsimp only at he
    split at he
    · cases he
    · cases he
      exact ⟨i, w, List.mem_range.1 hi, List.mem_range.1 hw, rfl⟩

theorem replay_lengths : ∀ i, i < 2 → (packBytes (mackBits (chain 1) 1 2 (36180 + 30 * i) 1 0x35 1)).length = 60 := by decide +kernel

theorem replay_times : ∀ i, i < 2 → ∀ w, w < 15 → (gst (36240 + 30 * i + 2 * w)).subframe = gst (36240 + 30 * i) ∧
    ((gst (36240 + 30 * i + 2 * w)).tow - (gst (36240 + 30 * i)).tow) / 2 = w ∧ (gst (36240 + 30 * i)).tow = 36240 + 30 * i ∧
    (gst (36180 + 30 * i)).tow = 36180 + 30 * i ∧ gst (36240 + 30 * i) ≠ gst (36180 + 30 * i) := by
  decide +kernel

theorem replay_replayed : Replayed onAirLong recorded replay := by
  intro p hp
  obtain ⟨i, w, hi, hw, rfl⟩ := replay_pages hp
  obtain ⟨t1, t2, t3, t4, t5⟩ := replay_times i hi w hw
  have hlen := replay_lengths i hi
  have hm : (onAirLong.mack (sv 1) (gst (36180 + 30 * i))).val = packBytes (mackBits (chain 1) 1 2 (36180 + 30 * i) 1 0x35 1) := by
    show (nomMack (gst (36180 + 30 * i)).tow).val = _
    rw [t4]
    exact fix_bytes hlen
  generalize hx : packBytes (mackBits (chain 1) 1 2 (36180 + 30 * i) 1 0x35 1) = m at hm hlen
  generalize hk : (hdr1 :: BitVec.ofNat 8 (3 * 16 + (6 + i)) :: (kroot11.drop (13 * (6 + i))).take 13) = k
  have hv : (fix 5 (k.getD w 0#8 :: (m.drop (4 * w)).take 4)).val = k.getD w 0#8 :: (m.drop (4 * w)).take 4 := by
    apply fix_bytes
    rw [List.length_cons, List.length_take, List.length_drop, hlen]
    omega
  generalize hpage : (⟨fix 5 (k.getD w 0#8 :: (m.drop (4 * w)).take 4), sv 1, gst (36240 + 30 * i + 2 * w)⟩ : Page) = p
  have e1 : p.sub = gst (36240 + 30 * i) := by rw [← hpage]; exact t1
  have e2 : p.word = w := by
    unfold Page.word
    rw [e1, ← hpage]; exact t2
  have e3 : p.svn = sv 1 := by rw [← hpage]
  have e4 : recorded p.svn p.sub = (sv 1, gst (36180 + 30 * i)) := by
    unfold recorded
    rw [e1, e3, t3, show 36240 + 30 * i - 60 = 36180 + 30 * i by omega]
  rw [e4, e1]
  refine ⟨?_, ?_, fun e => t5 e.symm, ?_⟩
  · have := long_is_on (i := 8 + i) (by omega)
    rwa [show 36000 + 30 * (8 + i) = 36240 + 30 * i by omega] at this
  · have := long_is_on (i := 6 + i) (by omega)
    rwa [show 36000 + 30 * (6 + i) = 36180 + 30 * i by omega] at this
  · dsimp only
    rw [e2, hm]
    unfold Page.mack
    rw [← hpage]
    dsimp only
    rw [hv]; rfl

theorem replay_new : ∀ p ∈ pagesOf (nominal 8), ∀ q ∈ pagesOf replay, p.sub ≠ q.sub := by
  intro p hp q hq
  obtain ⟨i, w, hi, hw, rfl⟩ := nominal_pages hp
  obtain ⟨j, x, hj, hx, rfl⟩ := replay_pages hq
  have h1 : (gst (36000 + 30 * i + 2 * w)).subframe = gst (36000 + 30 * i) := (nominal_times i hi w hw).1
  have h2 : (gst (36240 + 30 * j + 2 * x)).subframe = gst (36240 + 30 * j) := (replay_times j hj x hx).1
  show (gst (36000 + 30 * i + 2 * w)).subframe ≠ (gst (36240 + 30 * j + 2 * x)).subframe
  rw [h1, h2]
  intro e
  have a := congrArg Gst.abs e
  have b := long_abs (8 + j) (by omega)
  rw [show 36000 + 30 * (8 + j) = 36240 + 30 * j by omega] at b
  rw [long_abs i (by omega), b] at a
  omega

/-- The log and what the getter gives at the end. -/
theorem replay_check : check withKey (nominal 8 ++ replay) (fun log o => decide (log.map code = [[0, 82, 1, 1, 36210], [3, 1, 36210]] ∧
    got S o .ced 1 = some (40, 36270)) && log.all (fun e => match e with
      | .kroot _ _ _ k _ => decide (k = key (chain 1) 35970)
      | _ => true)) = true := by decide +kernel

/-- The hypotheses of the theorems of C84 are met by that history; the data received before is still returned. -/
theorem replay_case : ∃ (log₁ log₂ : List (KeyEvent toy)) (o₁ o : Osnma toy), Logs S withKey (nominal 8) log₁ o₁ ∧
    Logs S o₁ replay log₂ o ∧ KrootsOf onAirLong (log₁ ++ log₂) ∧ (∃ k : Verif.Key, KeyEvent.tesla k ∈ log₁) ∧
    ∃ d, o.get S .ced (sv 1) = .ok (some d) ∧ d.authbits = 40 := by
  obtain ⟨log, o, h, hc⟩ := check_some replay_check
  rw [Bool.and_eq_true] at hc
  obtain ⟨c1, c2⟩ := hc
  obtain ⟨c1, g1⟩ := of_decide_eq_true c1
  obtain ⟨log₁, o₁, h1, n1, _, _⟩ := outcome_some nominal8
  obtain ⟨lp, op, log₂, s1, s2, rfl⟩ := h.split
  obtain ⟨rfl, rfl⟩ := h1.unique s1
  refine ⟨_, _, _, o, h1, s2, ?_, ?_, ?_⟩
  · intro hd data pk k g hm
    have := List.all_eq_true.1 c2 _ hm
    exact of_decide_eq_true this
  · obtain ⟨e1, t, rfl, _, ht⟩ := List.map_eq_cons_iff.1 n1
    obtain ⟨e2, t2, rfl, h3, ht2⟩ := List.map_eq_cons_iff.1 ht
    obtain ⟨k, rfl, _, _⟩ := code_tesla h3
    exact ⟨k, by simp⟩
  · obtain ⟨d, q1, q2, _⟩ := got_some g1
    exact ⟨d, q1, q2⟩

end Sim

/-- So the replay brings no key, and the data that the receiver still gives was received before it. -/
example : ∃ (log₂ : List (KeyEvent Sim.toy)) (d : NavMessageData), (∀ k, KeyEvent.tesla k ∉ log₂) ∧ d.authbits = 40 ∧
    ReceivedData (inavsOf (Sim.nominal 8)) .ced (Sim.sv 1) d.data := by
  obtain ⟨log₁, log₂, o₁, o, h1, h2, h3, _, d, h4, h5⟩ := Sim.replay_case
  exact ⟨log₂, d, C84_no_key_from_replay (root0 := none) (pk0 := some (Sim.pub 1)) (slow := false) Sim.long_sound Sim.long_distinct h1 h2 h3 Sim.replay_replayed Sim.replay_new, h5,
    (C84_replay_authenticates_nothing (root0 := none) (pk0 := some (Sim.pub 1)) (slow := false) Sim.S_consistent (.inr ⟨Sim.pub 1, false, rfl⟩) Sim.long_sound Sim.long_distinct h1 h2 h3
      Sim.replay_replayed Sim.replay_new .ced h4).1⟩

end Verif
