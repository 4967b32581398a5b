import Verif.Props.StorageSize
import Verif.Props.WorkExample
import Verif.Tests.Receive

/-! # C81: cases -/

namespace Verif
namespace Sim

/-- What the getters report after a run with the given storage. -/
def reportIn (S : Storage) (o0 : Osnma toy) (h : List Call) : Option (Option (Nat × Nat)) :=
  match runLog S o0 h with
  | .panic _ => none
  | .ok (_, o) => some (got S o .ced 1)

theorem reportIn_some {S : Storage} {o0 : Osnma toy} {h : List Call} {x : Option (Nat × Nat)} (hr : reportIn S o0 h = some x) :
    ∃ log o, Logs S o0 h log o ∧ got S o .ced 1 = x := by
  unfold reportIn at hr
  cases hl : runLog S o0 h with
  | panic w => rw [hl] at hr; cases hr
  | ok p =>
    obtain ⟨l, o⟩ := p
    rw [hl] at hr
    exact ⟨l, o, runLog_logs hl, Option.some.inj hr⟩

/-- A receiver that only uses Slow MAC. -/
def slowIn (S : Storage) : Osnma toy := Osnma.new S none (some (pub 1)) true

/-- A storage larger than that of the simulation. -/
def larger : Storage := ⟨3, 14, 42, 13, 39⟩

theorem slow_larger : reportIn larger (slowIn larger) (nominal 13) = some (some (40, 36360)) := by decide +kernel
theorem slow_same : reportIn S (slowIn S) (nominal 13) = some (some (40, 36360)) := by decide +kernel
theorem slow_fewer_macks : reportIn ⟨2, 13, 26, 11, 22⟩ (slowIn ⟨2, 13, 26, 11, 22⟩) (nominal 13) = some none := by decide +kernel
theorem slow_less_data : reportIn ⟨2, 12, 24, 12, 24⟩ (slowIn ⟨2, 12, 24, 12, 24⟩) (nominal 13) = some none := by decide +kernel

theorem nominal13_ordered : CallsInOrder (nominal 13) := inOrder_of_times (by decide +kernel)

theorem nominal13_sats : ∀ c ∈ nominal 13, (match c with | .inav _ v _ _ => v | .osnma _ v _ => v) = sv 1 := by decide +kernel

theorem fits_of_sats {S : Storage} (hS : 0 < S.numSats) {h : List Call} (hs : ∀ c ∈ h, (match c with | .inav _ v _ _ => v | .osnma _ v _ => v) = sv 1) :
    Fits S (inavsOf h) ∧ PagesFit S h := by
  refine ⟨⟨[sv 1], hS, fun c hc => ?_⟩, fun g => ⟨[sv 1], hS, fun p hp _ => ?_⟩⟩
  · unfold inavsOf at hc
    obtain ⟨x, hx, hxc⟩ := List.mem_filterMap.1 hc
    have := hs x hx
    cases x with
    | inav w v g b => simp at hxc; subst hxc; simpa using this
    | osnma d v g => simp at hxc
  · unfold pagesOf at hp
    obtain ⟨x, hx, hxc⟩ := List.mem_filterMap.1 hp
    have := hs x hx
    cases x with
    | inav w v g b => simp at hxc
    | osnma d v g => simp at hxc; obtain ⟨_, rfl⟩ := hxc; simpa using this

/-- The MACK message of `mackBits` with dummy tags for Slow MAC. -/
def mackNoSlow (c : Chain) (prna other tow st fill : Nat) : List Bool :=
  let slots := (icdSlots c.maclt (minuteHalf (gst tow))).getD []
  let tags := (List.range slots.length).map (fun j =>
    let (p, a) := tagInfoFor prna other (slots.getD j .S00)
    (⟨if a = 12 then List.replicate 40 false else tagFor c prna tow st j p a fill, p, a, if a = 12 then 0 else 1⟩ : TagFields))
  let seq := loadBe ((macBits toy (key c (tow + 30))
    (packBytes (storeBe 8 prna ++ storeBe 12 1200 ++ storeBe 20 tow))).take 12)
  let f : MackFields := ⟨tagFor c prna tow st 0 prna 0 fill, seq, 1, tags.drop 1, bitsOf (keyBytes c tow), List.replicate 16 true⟩
  f.bits

/-- Eight subframes without Slow MAC. -/
def noSlow : List Call :=
  (List.range 8).flatMap (fun i => navCalls 1 0x35 (36000 + 30 * i) ++
    pages 1 (36000 + 30 * i) (hdr1 :: BitVec.ofNat 8 (3 * 16 + i % 8) :: (kroot11.drop (13 * (i % 8))).take 13)
      (mackNoSlow (chain 1) 1 2 (36000 + 30 * i) 1 0x35))

/-- A storage that is enough without Slow MAC. -/
def small : Storage := ⟨2, 3, 6, 2, 4⟩

/-- The chains of the TESLA keys accepted have these sizes. -/
def smallChain : KeyEvent toy → Bool
  | .tesla k => k.chain.tagSizeBits == 40 && k.chain.keySizeBytes == 16
  | _ => true

def reportSmall (S : Storage) : Bool :=
  match runLog S (Osnma.new S none (some (pub 1)) false : Osnma toy) noSlow with
  | .panic _ => false
  | .ok (log, o) => got S o .ced 1 == some (40, 36210) && log.all smallChain

theorem small_reports : reportSmall small = true := by decide +kernel
theorem large_reports : reportSmall S = true := by decide +kernel
theorem noSlow_ordered : CallsInOrder noSlow := inOrder_of_times (by decide +kernel)
theorem noSlow_sats : ∀ c ∈ noSlow, (match c with | .inav _ v _ _ => v | .osnma _ v _ => v) = sv 1 := by decide +kernel

/-- The tags of the MACK messages received are dummy tags if they are for Slow MAC. -/
def tagsQuiet : Bool := (receivedOf (pagesOf noSlow)).all (fun r => (mackTags r.mack (chain 1) r.svn).all (fun t => t.adkd != 12 || t.cop == 0))

theorem tags_quiet : tagsQuiet = true := by decide +kernel

theorem mackTags_sizes (msg : MackMessage) {c c' : Chain} (v : Svn) (h1 : c.tagSizeBits = c'.tagSizeBits) (h2 : c.keySizeBytes = c'.keySizeBytes) :
    mackTags msg c v = mackTags msg c' v := by
  unfold mackTags
  rw [h1, h2]

theorem reportSmall_some {S : Storage} (h : reportSmall S = true) :
    ∃ log o, Logs S (Osnma.new S none (some (pub 1)) false : Osnma toy) noSlow log o ∧ got S o .ced 1 = some (40, 36210) ∧ NoSlowTags noSlow log := by
  unfold reportSmall at h
  cases hl : runLog S (Osnma.new S none (some (pub 1)) false : Osnma toy) noSlow with
  | panic w => rw [hl] at h; cases h
  | ok p =>
    obtain ⟨log, o⟩ := p
    rw [hl] at h
    dsimp only at h
    rw [Bool.and_eq_true] at h
    refine ⟨log, o, runLog_logs hl, beq_iff_eq.1 h.1, ?_⟩
    intro rs hrs r hr k hk t ht ha
    obtain rfl := hrs.unique (receivedOf_spec _)
    have hc := List.all_eq_true.1 h.2 _ hk
    unfold smallChain at hc
    rw [Bool.and_eq_true, beq_iff_eq, beq_iff_eq] at hc
    rw [mackTags_sizes (c' := chain 1) _ _ hc.1 hc.2] at ht
    have hq := tags_quiet
    unfold tagsQuiet at hq
    have := List.all_eq_true.1 (List.all_eq_true.1 hq r hr) t ht
    rw [ha] at this
    simpa using this

end Sim

open Sim

/-- **C81, the sizes are needed.**  With 11 subframes of MACK messages, or with 12 of navigation data, a receiver reports nothing where one with 12 and 13 reports data
authenticated with Slow MAC. -/
theorem C81_sizes_are_needed :
    ∃ (hist : List Call) (v : Svn) (o o₁ o₂ : Osnma toy) (d : NavMessageData), CallsInOrder hist ∧
      run ⟨2, 13, 26, 12, 24⟩ (Osnma.new ⟨2, 13, 26, 12, 24⟩ none (some (pub 1)) true) hist = .ok o ∧
      run ⟨2, 13, 26, 11, 22⟩ (Osnma.new ⟨2, 13, 26, 11, 22⟩ none (some (pub 1)) true) hist = .ok o₁ ∧
      run ⟨2, 12, 24, 12, 24⟩ (Osnma.new ⟨2, 12, 24, 12, 24⟩ none (some (pub 1)) true) hist = .ok o₂ ∧
      o.get ⟨2, 13, 26, 12, 24⟩ .ced v = .ok (some d) ∧ (∀ d', o₁.get ⟨2, 13, 26, 11, 22⟩ .ced v ≠ .ok (some d')) ∧
      ∀ d', o₂.get ⟨2, 12, 24, 12, 24⟩ .ced v ≠ .ok (some d') := by
  obtain ⟨_, o, h, g⟩ := reportIn_some slow_same
  obtain ⟨_, o₁, h₁, g₁⟩ := reportIn_some slow_fewer_macks
  obtain ⟨_, o₂, h₂, g₂⟩ := reportIn_some slow_less_data
  obtain ⟨d, hd, _⟩ := got_some g
  refine ⟨nominal 13, sv 1, o, o₁, o₂, d, nominal13_ordered, h.run, h₁.run, h₂.run, hd, ?_, ?_⟩
  · intro d' hd'
    unfold got at g₁
    rw [hd'] at g₁
    cases g₁
  · intro d' hd'
    unfold got at g₂
    rw [hd'] at g₂
    cases g₂

/-- The hypotheses of `C81_documented_sizes_suffice` (and of `C81_more_storage`) are met with Slow MAC. -/
example : ∃ (hist : List Call) (log log' : List (KeyEvent toy)) (o o' : Osnma toy) (d d' : NavMessageData),
    Logs Sim.S (Osnma.new Sim.S none (some (pub 1)) true) hist log o ∧ Logs larger (Osnma.new larger none (some (pub 1)) true) hist log' o' ∧
    Sim.S.Within larger ∧ larger.Consistent ∧ CallsInOrder hist ∧ Fits Sim.S (inavsOf hist) ∧ PagesFit Sim.S hist ∧ Sim.S.Enough hist log ∧
    o.get Sim.S .ced (sv 1) = .ok (some d) ∧ o'.get larger .ced (sv 1) = .ok (some d') ∧ d' = d := by
  obtain ⟨log, o, h, g⟩ := reportIn_some slow_same
  obtain ⟨log', o', h', g'⟩ := reportIn_some slow_larger
  obtain ⟨d, hd, _⟩ := got_some g
  obtain ⟨d', hd', _⟩ := got_some g'
  have hf := fits_of_sats (S := Sim.S) (by decide) nominal13_sats
  have hw : Sim.S.Within larger := ⟨by decide, by decide, by decide⟩
  have hc : larger.Consistent := ⟨by decide, by decide, by decide, by decide, by decide⟩
  have hen : Sim.S.Enough (nominal 13) log := .inl ⟨by decide, by decide⟩
  refine ⟨nominal 13, log, log', o, o', d, d', h, h', hw, hc, nominal13_ordered, hf.1, hf.2, hen, hd, hd', ?_⟩
  rcases (C81_documented_sizes_suffice S_consistent hc hw (.inr ⟨pub 1, true, rfl⟩) (.inr ⟨pub 1, true, rfl⟩) h h' nominal13_ordered hf.1 hf.2 hen hd hd').2
    with e | ⟨e, _⟩
  · exact Option.some.inj e
  · cases e

/-- The same without Slow MAC, with room for 2 and 3 subframes. -/
example : ∃ (hist : List Call) (log log' : List (KeyEvent toy)) (o o' : Osnma toy) (d d' : NavMessageData),
    Logs small (Osnma.new small none (some (pub 1)) false) hist log o ∧ Logs Sim.S (Osnma.new Sim.S none (some (pub 1)) false) hist log' o' ∧
    small.Within Sim.S ∧ CallsInOrder hist ∧ Fits small (inavsOf hist) ∧ PagesFit small hist ∧ small.Enough hist log ∧
    o.get small .ced (sv 1) = .ok (some d) ∧ o'.get Sim.S .ced (sv 1) = .ok (some d') ∧ d' = d := by
  obtain ⟨log, o, h, g, hn⟩ := reportSmall_some small_reports
  obtain ⟨log', o', h', g', _⟩ := reportSmall_some large_reports
  obtain ⟨d, hd, _⟩ := got_some g
  obtain ⟨d', hd', _⟩ := got_some g'
  have hf := fits_of_sats (S := small) (by decide) noSlow_sats
  have hw : small.Within Sim.S := ⟨by decide, by decide, by decide⟩
  have hen : small.Enough noSlow log := .inr ⟨by decide, by decide, hn⟩
  refine ⟨noSlow, log, log', o, o', d, d', h, h', hw, noSlow_ordered, hf.1, hf.2, hen, hd, hd', ?_⟩
  rcases (C81_documented_sizes_suffice (S := small) ⟨by decide, by decide, by decide, by decide, by decide⟩ S_consistent hw
    (.inr ⟨pub 1, false, rfl⟩) (.inr ⟨pub 1, false, rfl⟩) h h' noSlow_ordered hf.1 hf.2 hen hd hd').2 with e | ⟨e, _⟩
  · exact Option.some.inj e
  · cases e

end Verif
