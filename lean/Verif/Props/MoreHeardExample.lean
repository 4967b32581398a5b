import Verif.Props.MoreHeard
import Verif.Props.SpoofingExample
import Verif.Props.StorageSizeExample

/-! # C86: a case that meets the hypotheses; evaluated by the kernel -/

namespace Verif.Sim
open Verif

/-- The last three subframes of `nominal 8`, without the other satellite of `amidNonsense`. -/
def alone : List Call := sentAt 5 ++ sentAt 6 ++ sentAt 7

theorem alone_sublist : alone.Sublist amidNonsense := by
  unfold alone amidNonsense
  exact ((List.sublist_append_right _ _).append (List.sublist_append_right _ _)).append (List.sublist_append_right _ _)

theorem alone_more : HearsMore alone amidNonsense := ⟨alone_sublist, by decide +kernel⟩

/-- The log of a run that accepts the three keys, and what it reports. -/
def threeKeys : List (KeyEvent toy) → Bool
  | [.kroot _ _ _ _ _, .tesla k, .tesla k', .tesla k''] => k == key (chain 1) 36150 && k' == key (chain 1) 36180 && k'' == key (chain 1) 36210
  | _ => false

theorem threeKeys_log {log log₁ : List (KeyEvent toy)} (h : threeKeys log = true) (hlen : log₁.length = 1) :
    SameHeader onAir log₁ log ∧ ¬ ForgedKey onAir log := by
  unfold threeKeys at h
  split at h
  · simp only [Bool.and_eq_true, beq_iff_eq] at h
    obtain ⟨⟨rfl, rfl⟩, rfl⟩ := h
    constructor
    · intro e he
      rw [hlen] at he
      simp only [List.drop_succ_cons, List.drop_zero, List.mem_cons, List.not_mem_nil, or_false] at he
      rcases he with rfl | rfl | rfl <;> exact ⟨(by intro _ _ _ _ _ h; cases h), (by intro _ h; cases h)⟩
    · apply not_forged
      intro k hk
      simp only [List.mem_cons, List.not_mem_nil, or_false, KeyEvent.tesla.injEq, reduceCtorEq, false_or] at hk
      rcases hk with rfl | rfl | rfl
      · exact (by decide +kernel : key (chain 1) 36150 = key (chain 1) (key (chain 1) 36150).gst.tow)
      · exact (by decide +kernel : key (chain 1) 36180 = key (chain 1) (key (chain 1) 36180).gst.tow)
      · exact (by decide +kernel : key (chain 1) 36210 = key (chain 1) (key (chain 1) 36210).gst.tow)
  · cases h

theorem alone_run : ∃ (log : List (KeyEvent toy)) (o : Osnma toy), Logs S withKey (heardKroot ++ alone) log o ∧ threeKeys log = true ∧
    got S o .ced 1 = some (40, 36210) := by
  obtain ⟨log, o, h, hc⟩ := check_some (o0 := withKey) (h := heardKroot ++ alone)
    (f := fun l o => threeKeys l && got S o .ced 1 == some (40, 36210)) (by decide +kernel)
  rw [Bool.and_eq_true, beq_iff_eq] at hc
  exact ⟨log, o, h, hc.1, hc.2⟩

theorem amid_run : ∃ (log : List (KeyEvent toy)) (o : Osnma toy), Logs S withKey (heardKroot ++ amidNonsense) log o ∧ threeKeys log = true ∧
    got S o .ced 1 = some (40, 36210) := by
  obtain ⟨log, o, h, hc⟩ := check_some (o0 := withKey) (h := heardKroot ++ amidNonsense)
    (f := fun l o => threeKeys l && got S o .ced 1 == some (40, 36210)) (by decide +kernel)
  rw [Bool.and_eq_true, beq_iff_eq] at hc
  exact ⟨log, o, h, hc.1, hc.2⟩

theorem alone_genuine : ∀ p ∈ pagesOf alone, p.svn = sv 1 := by
  have : (pagesOf alone).all (fun p => p.svn == sv 1) = true := by decide +kernel
  intro p hp
  exact beq_iff_eq.1 (List.all_eq_true.1 this p hp)

theorem amid_words : ∀ c ∈ inavsOf (heardKroot ++ amidNonsense), c.svn = sv 1 := by decide +kernel

theorem amid_returns : ∀ kd ∈ [NavKind.ced, .timing], ∀ i, i < (inavsOf (heardKroot ++ amidNonsense)).length →
    kd.expected ((inavsOf (heardKroot ++ amidNonsense)).take (i + 1)) (sv 1) ≠ kd.expected ((inavsOf (heardKroot ++ amidNonsense)).take i) (sv 1) →
    ∀ j, j < i + 1 → kd.expected ((inavsOf (heardKroot ++ amidNonsense)).take j) (sv 1) ≠
      kd.expected ((inavsOf (heardKroot ++ amidNonsense)).take (i + 1)) (sv 1) := by decide +kernel

theorem amid_noReturn : NoReturn (heardKroot ++ amidNonsense) := by
  intro x c y he _ kd v hne q hq
  have hw : inavsOf (heardKroot ++ amidNonsense) = inavsOf x ++ [c] ++ inavsOf y := by
    rw [he]
    unfold inavsOf
    rw [List.filterMap_append, List.filterMap_cons]
    simp
  have hc := amid_words c (by rw [hw]; simp)
  by_cases hv : c.svn = v
  · rw [hc] at hv
    subst hv
    have h1 : inavsOf x = (inavsOf (heardKroot ++ amidNonsense)).take (inavsOf x).length := by
      rw [hw, List.append_assoc]; exact (List.take_left' rfl).symm
    have h2 : inavsOf x ++ [c] = (inavsOf (heardKroot ++ amidNonsense)).take ((inavsOf x).length + 1) := by
      rw [hw]; exact (List.take_left' (by simp)).symm
    obtain ⟨r, hr⟩ := hq
    have h3 : q = (inavsOf (heardKroot ++ amidNonsense)).take q.length := by
      rw [hw, ← hr, List.append_assoc, List.append_assoc]; exact (List.take_left' rfl).symm
    have hl : q.length ≤ (inavsOf x).length := by rw [← hr]; simp
    have := amid_returns kd (by cases kd <;> simp) (inavsOf x).length (by rw [hw]; simp) (by rw [← h1, ← h2]; exact hne) q.length (by omega)
    rw [← h2, ← h3] at this
    exact this
  · exact absurd (NavKind.expected_other hv) hne

/-! ## Less room for MACK messages, and Slow MAC -/

/-- Room for the MACK messages of 2 subframes. -/
def twoMacks : Storage := ⟨2, 13, 26, 2, 4⟩

/-- The words of 13 subframes, and the pages of some of them. -/
def someHeard (l : List Nat) : List Call := heardKroot ++ (List.range 13).flatMap (fun i => Sim.navCalls 1 0x35 (36000 + 30 * i) ++
  if i ∈ l then subframe (chain 1) 1 2 (36000 + 30 * i) 1 0x35 hdr1 3 (i % 8) kroot11 else [])

/-- The TESLA keys accepted. -/
def keysIn (log : List (KeyEvent toy)) : List Verif.Key := log.filterMap (fun e => match e with | .tesla k => some k | _ => none)

theorem mem_keysIn {log : List (KeyEvent toy)} {k : Verif.Key} : KeyEvent.tesla k ∈ log ↔ k ∈ keysIn log := by
  unfold keysIn
  rw [List.mem_filterMap]
  constructor
  · intro h; exact ⟨_, h, rfl⟩
  · rintro ⟨e, he, h⟩
    cases e <;> simp at h
    subst h; exact he

/-- What the getters report after a run with the given storage, and the keys accepted. -/
def reportKeys (S : Storage) (h : List Call) : Option (Option (Nat × Nat) × List Verif.Key) :=
  match runLog S (slowIn S) h with
  | .panic _ => none
  | .ok (log, o) => some (got S o .ced 1, keysIn log)

theorem reportKeys_some {S : Storage} {h : List Call} {x : Option (Nat × Nat)} {ks : List Verif.Key} (hr : reportKeys S h = some (x, ks)) :
    ∃ log o, Logs S (slowIn S) h log o ∧ got S o .ced 1 = x ∧ keysIn log = ks := by
  unfold reportKeys at hr
  cases hl : runLog S (slowIn S) h with
  | panic w => rw [hl] at hr; cases hr
  | ok p =>
    obtain ⟨l, o⟩ := p
    rw [hl] at hr
    have := Option.some.inj hr
    exact ⟨l, o, runLog_logs hl, congrArg Prod.fst this, congrArg Prod.snd this⟩

theorem two_heard : reportKeys twoMacks (someHeard [1, 12]) = some (some (40, 36360), [key (chain 1) 36030, key (chain 1) 36360]) := by decide +kernel
theorem three_heard : reportKeys twoMacks (someHeard [1, 6, 12]) =
    some (none, [key (chain 1) 36030, key (chain 1) 36180, key (chain 1) 36360]) := by decide +kernel

theorem heard_more : HearsMore (someHeard [1, 12]) (someHeard [1, 6, 12]) := by
  constructor
  · unfold someHeard
    apply List.Sublist.append (List.Sublist.refl _)
    induction List.range 13 with
    | nil => exact List.Sublist.refl _
    | cons i l ih =>
      rw [List.flatMap_cons, List.flatMap_cons]
      apply List.Sublist.append _ ih
      apply List.Sublist.append (List.Sublist.refl _)
      by_cases h : i ∈ [1, 12]
      · rw [if_pos h, if_pos (by simp at h ⊢; omega)]; exact List.Sublist.refl _
      · rw [if_neg h]; exact List.nil_sublist _
  · decide +kernel

theorem someHeard_order : CallsInOrder (someHeard [1, 6, 12]) := inOrder_of_times (by decide +kernel)

end Verif.Sim

namespace Verif
open Sim

/-- **C86, room for the MACK messages is needed.**  With room for 2 subframes of MACK messages a receiver that uses Slow MAC reports authenticated data after hearing the
pages of subframes 1 and 12; one that also hears those of subframe 6, and accepts its key as well, reports nothing. -/
theorem C86_room_is_needed : ∃ (less more : List Call) (log log' : List (KeyEvent toy)) (o o' : Osnma toy) (d : NavMessageData),
    Logs twoMacks (Osnma.new twoMacks none (some (pub 1)) true) less log o ∧ Logs twoMacks (Osnma.new twoMacks none (some (pub 1)) true) more log' o' ∧
    twoMacks.Consistent ∧ HearsMore less more ∧ CallsInOrder more ∧ (∀ k, KeyEvent.tesla k ∈ log → KeyEvent.tesla k ∈ log') ∧
    o.get twoMacks .ced (sv 1) = .ok (some d) ∧ ∀ d', o'.get twoMacks .ced (sv 1) ≠ .ok (some d') := by
  obtain ⟨log, o, h, g, e⟩ := reportKeys_some two_heard
  obtain ⟨log', o', h', g', e'⟩ := reportKeys_some three_heard
  obtain ⟨d, hd, _⟩ := got_some g
  refine ⟨someHeard [1, 12], someHeard [1, 6, 12], log, log', o, o', d, h, h', ⟨by decide, by decide, by decide, by decide, by decide⟩,
    heard_more, someHeard_order, ?_, hd, ?_⟩
  · intro k hk
    rw [mem_keysIn, e] at hk
    rw [mem_keysIn, e']
    simp only [List.mem_cons, List.not_mem_nil, or_false] at hk ⊢
    rcases hk with hk | hk
    · exact .inl hk
    · exact .inr (.inr hk)
  · intro d' hd'
    unfold got at g'
    rw [hd'] at g'
    cases g'

/-- The hypotheses of `C86_hearing_more` and of `C86_keys` are met: satellite 1 is heard for three subframes, or these and satellite 2, which sends nonsense. -/
example : ∃ (before after after' : List Call) (log₁ log log' : List (KeyEvent toy)) (o₁ o o' : Osnma toy) (d d' : NavMessageData),
    (Osnma.new Sim.S none (some (pub 1)) false : Osnma toy).Fresh Sim.S ∧
    Logs Sim.S (Osnma.new Sim.S none (some (pub 1)) false) before log₁ o₁ ∧ Logs Sim.S (Osnma.new Sim.S none (some (pub 1)) false) (before ++ after) log o ∧
    Logs Sim.S (Osnma.new Sim.S none (some (pub 1)) false) (before ++ after') log' o' ∧
    HearsMore after after' ∧ after ≠ after' ∧ Spoofed onAir (fun v => v = sv 1) before log₁ after' ∧ (∀ p ∈ pagesOf after, p.svn = sv 1) ∧
    SameHeader onAir log₁ log ∧ SameHeader onAir log₁ log' ∧ (∀ q ∈ pagesOf after', NoChangeAfter log₁ (q.sub.abs - 300)) ∧
    CallsInOrder (before ++ after') ∧ Fits Sim.S (inavsOf (before ++ after')) ∧ PagesFit Sim.S (before ++ after') ∧
    Sim.S.MackEnough (before ++ after) log ∧ NoReturn (before ++ after') ∧ ¬ ForgedKey onAir log ∧ ¬ ForgedKey onAir log' ∧
    o.get Sim.S .ced (sv 1) = .ok (some d) ∧ o'.get Sim.S .ced (sv 1) = .ok (some d') ∧ d.gst.abs ≤ d'.gst.abs := by
  obtain ⟨log₁, o₁, h₁, hlen, e1, e2⟩ := heardKroot_log
  obtain ⟨log, o, h, hk, g⟩ := alone_run
  obtain ⟨log', o', h', hk', g'⟩ := amid_run
  obtain ⟨d, hd, _⟩ := got_some g
  obtain ⟨d', hd', _⟩ := got_some g'
  have a := threeKeys_log hk hlen
  have a' := threeKeys_log hk' hlen
  have h0 : (Osnma.new Sim.S none (some (pub 1)) false : Osnma toy).Fresh Sim.S := .inr ⟨pub 1, false, rfl⟩
  have hsp := mixed_spoofed amid_mixed amid_time e1 e2
  have hone : ∀ t, NoChangeAfter log₁ t := by
    intro t l₁ hh data pk key gg l₂ e _ h' hl _
    have := congrArg List.length e
    simp only [List.length_append, List.length_cons] at this
    have : l₁ = [] := List.length_eq_zero_iff.1 (by omega)
    subst this
    cases hl
  have hf : Fits Sim.S (inavsOf (heardKroot ++ amidNonsense)) := ⟨[sv 1], by decide, fun c hc => by rw [amid_words c hc]; simp⟩
  have hp : PagesFit Sim.S (heardKroot ++ amidNonsense) := fun _ =>
    ⟨[sv 1, sv 2], by decide, fun p hp _ => (by decide +kernel : ∀ p ∈ pagesOf (heardKroot ++ amidNonsense), p.svn ∈ [sv 1, sv 2]) p hp⟩
  have hen : Sim.S.MackEnough (heardKroot ++ alone) log := .inl (by decide)
  have hc := C86_hearing_more S_consistent h0 onAir_sound h₁ h h' alone_more hsp alone_genuine a.1 a'.1 (fun _ _ => hone _) amid_order hf hp hen
    amid_noReturn hd hd'
  refine ⟨heardKroot, alone, amidNonsense, log₁, log, log', o₁, o, o', d, d', h0, h₁, h, h', alone_more, ?_, hsp, alone_genuine, a.1, a'.1,
    fun _ _ => hone _, amid_order, hf, hp, hen, amid_noReturn, a.2, a'.2, hd, hd', ?_⟩
  · intro e
    have := congrArg List.length e
    revert this
    decide +kernel
  · rcases hc with ⟨d₂, e, hle, _⟩ | hx | hx
    · rw [Option.some.inj e]; exact hle
    · exact absurd hx a.2
    · exact absurd hx a'.2

end Verif
