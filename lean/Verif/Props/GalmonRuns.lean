import Verif.Props.Reports

/-! # C44, C60: when `galmon-osnma` runs to the end of its input -/

namespace Verif
open GalileoInav GalmonOsnma

variable {C : Crypto} {S : Storage} {N : Navmon}

/-! ## The calls are determined by the packets -/

theorem CallsFor.unique {i : GalileoInav} {s : Nat} {a b : List Call} (ha : i.CallsFor s a) (hb : i.CallsFor s b) : a = b := by
  obtain ⟨w, v, g, bd, h1, h2, h3, h4, h5⟩ := ha
  obtain ⟨w', v', g', bd', k1, k2, k3, k4, k5⟩ := hb
  have e1 : w = w' := Subtype.ext (h1.trans k1.symm)
  have e2 : v = v' := Svn.ext (h2.trans k2.symm)
  have e3 : g = g' := Gst.abs_inj (h3.trans k3.symm)
  have e4 : bd = bd' := by
    cases bd <;> cases bd' <;> simp only [OnBand] at h4 k4
    · rfl
    · rw [h4] at k4; cases k4
    · rw [h4] at k4; cases k4
    · rfl
  subst e1 e2 e3 e4
  cases hr : i.reserved1 with
  | none => rw [hr] at h5 k5; exact h5.trans k5.symm
  | some d =>
    rw [hr] at h5 k5
    obtain ⟨x, hx, rfl⟩ := h5
    obtain ⟨y, hy, rfl⟩ := k5
    rw [show x = y from Subtype.ext (hx.trans hy.symm)]

/-- **C44.**  The packets determine the calls. -/
theorem C44_calls_unique {seen is : List GalileoInav} {a b : List Call} (ha : CallsForAll seen is a) (hb : CallsForAll seen is b) : a = b := by
  induction ha generalizing b with
  | nil => cases hb; rfl
  | used hu hc _ ih =>
    cases hb with
    | used _ hc' hr => rw [CallsFor.unique hc hc', ih hr]
    | dropped hn _ => exact absurd hu hn
  | dropped hn _ ih =>
    cases hb with
    | used hu _ _ => exact absurd hu hn
    | dropped _ hr => exact ih hr

/-- **C44.**  There are such calls whenever no packet is `Fatal`. -/
theorem C44_calls_exist {is : List GalileoInav} : ∀ {seen : List GalileoInav},
    (∀ pre i post, is = pre ++ i :: post → i.sigid.isSome = true ∧ ¬ i.Fatal (seen ++ pre)) → ∃ cs, CallsForAll seen is cs := by
  induction is with
  | nil => intro seen _; exact ⟨_, .nil _⟩
  | cons i is ih =>
    intro seen h
    obtain ⟨later, hl⟩ := ih (seen := seen ++ [i]) (fun pre x post hp => by
      have := h (i :: pre) x post (by rw [hp]; rfl)
      rw [List.append_assoc]; exact this)
    obtain ⟨_, hf⟩ := h [] i is rfl
    rw [List.append_nil] at hf
    by_cases hu : i.Used seen
    · have ht : i.TimeOk := Classical.byContradiction fun h => hf (.inl h)
      have hsv : 1 ≤ i.gnssSv.toNat ∧ i.gnssSv.toNat ≤ 36 := Classical.byContradiction fun h => hf (.inr ⟨hu.2.1, .inl h⟩)
      have hlen : i.contents.length = 16 := Classical.byContradiction fun h => hf (.inr ⟨hu.2.1, .inr ⟨hu, .inl h⟩⟩)
      have hlen5 : ∀ d, i.reserved1 = some d → d.length = 5 :=
        fun d hd => Classical.byContradiction fun h => hf (.inr ⟨hu.2.1, .inr ⟨hu, .inr ⟨d, hd, h⟩⟩⟩)
      obtain ⟨gst, hg⟩ := exists_gst (t := (i.fedSecs seen : Int)) (by
        have := (C44_correction_keeps_subframe seen i).2
        unfold TimeOk at ht
        unfold Representable
        omega)
      obtain ⟨band, hb⟩ : ∃ band, i.OnBand band := by
        rcases hu.1 with h | h
        · exact ⟨.E1B, h⟩
        · exact ⟨.E5B, h⟩
      cases hr : i.reserved1 with
      | none => exact ⟨_, .used hu ⟨⟨i.contents, hlen⟩, ⟨i.gnssSv.toNat, hsv.1, hsv.2⟩, gst, band, rfl, rfl, hg, hb, by rw [hr]⟩ hl⟩
      | some d =>
        exact ⟨_, .used hu ⟨⟨i.contents, hlen⟩, ⟨i.gnssSv.toNat, hsv.1, hsv.2⟩, gst, band, rfl, rfl, hg, hb, by
          rw [hr]; exact ⟨⟨d, hlen5 d hr⟩, rfl, rfl⟩⟩ hl⟩
    · exact ⟨_, .dropped hu hl⟩

/-! ## Forward execution -/

theorem packetTime_returns (checks : Bool) (last : Nat) {i : GalileoInav} (h : i.TimeOk) : ∃ r, packetTime checks last i = .ok r := by
  unfold TimeOk secs at h
  have hw : i.gnssWn.toNat + i.gnssTow.toNat / 604800 < 65536 := by omega
  unfold packetTime wnOf addU16
  rw [if_pos (by omega), if_pos (by omega)]
  simp only [Res.ok_bind]
  rw [if_neg (by simp; omega)]
  simp only [Res.ok_bind]
  unfold Gst.new
  rw [dif_pos]
  · exact ⟨_, rfl⟩
  · split <;> omega

theorem accept_returns (checks : Bool) (s : Selector) {i : GalileoInav} (h : i.TimeOk) : ∃ r, s.accept checks i = .ok r := by
  obtain ⟨⟨g, l⟩, hr⟩ := packetTime_returns checks s.last h
  unfold Selector.accept
  rw [hr, Res.ok_bind]
  dsimp only
  cases s.current with
  | none => exact ⟨_, rfl⟩
  | some c => simp only; split <;> exact ⟨_, rfl⟩

theorem dataBytes_returns {kd : NavKind} {bits : List Bool} (h : bits.length = kd.nbits) {n : Nat} (hn : n = (kd.nbits + 7) / 8) :
    ∃ b, dataBytes n bits = .ok b := by
  unfold dataBytes
  have : (writeSlice (List.replicate (8 * n) false) 0 bits) = .ok _ :=
    writeSlice_eq_ok.2 ⟨by rw [List.length_replicate, h, hn]; cases kd <;> simp [NavKind.nbits], rfl⟩
  rw [this]
  exact ⟨_, rfl⟩

theorem reportStep_returns (hS : S.Consistent) {o0 : Osnma C} (h0 : o0.Fresh S) {g : GalmonOsnma C} (h : ReportInv S o0 g)
    (hweek : ∀ c ∈ inavsOf g.calls, 7650 ≤ c.gst.abs) (svn : Svn) :
    (∃ g', g.reportCed S svn = .ok g') ∧ ∃ g', g.reportTiming S svn = .ok g' := by
  have hcell : ∀ kd, svn.idx < (g.cells kd).length := fun kd => (List.getElem?_eq_some_iff.1 (h.cell kd svn)).1
  constructor
  · obtain ⟨r, hr⟩ := C38_get_returns hS h0 h.run hweek .ced svn
    have hr' : g.osnma.getCedAndStatus S svn = .ok r := hr
    unfold reportCed
    rw [hr', Res.ok_bind]
    cases r with
    | none => exact ⟨_, rfl⟩
    | some d =>
      obtain ⟨b, hb⟩ := dataBytes_returns (kd := .ced) (returned_length hS h0 h.run _ hr) (n := 69) rfl
      have hi : svn.idx < g.ced.length := hcell .ced
      simp only [hb, Res.ok_bind, index, setIndex, if_pos hi, List.getElem?_eq_getElem hi]
      split <;> exact ⟨_, rfl⟩
  · obtain ⟨r, hr⟩ := C38_get_returns hS h0 h.run hweek .timing svn
    have hr' : g.osnma.getTimingParameters S svn = .ok r := hr
    unfold reportTiming
    rw [hr', Res.ok_bind]
    cases r with
    | none => exact ⟨_, rfl⟩
    | some d =>
      obtain ⟨b, hb⟩ := dataBytes_returns (kd := .timing) (returned_length hS h0 h.run _ hr) (n := 18) rfl
      have hi : svn.idx < g.timing.length := hcell .timing
      simp only [hb, Res.ok_bind, index, setIndex, if_pos hi, List.getElem?_eq_getElem hi]
      split <;> exact ⟨_, rfl⟩

theorem report_returns (hS : S.Consistent) {o0 : Osnma C} (h0 : o0.Fresh S) {g : GalmonOsnma C} (h : ReportInv S o0 g)
    (hweek : ∀ c ∈ inavsOf g.calls, 7650 ≤ c.gst.abs) : ∃ g', g.report S = .ok g' := by
  unfold GalmonOsnma.report
  generalize Svn.iter = l
  induction l generalizing g with
  | nil => exact ⟨_, rfl⟩
  | cons sv l ih =>
    rw [loopM_cons]
    obtain ⟨g1, h1⟩ := (reportStep_returns hS h0 h hweek sv).1
    obtain ⟨a1, _⟩ := h.step hS h0 (reportCed_ok h1)
    have e1 := (reportCed_ok h1).same
    obtain ⟨g2, h2⟩ := (reportStep_returns hS h0 a1 (by rw [e1.2.1]; exact hweek) sv).2
    obtain ⟨a2, _⟩ := a1.step hS h0 (reportTiming_ok h2)
    have e2 := (reportTiming_ok h2).same
    rw [h1, Res.ok_bind, h2, Res.ok_bind]
    exact ih a2 (by rw [e2.2.1, e1.2.1]; exact hweek)

/-! ## One packet -/

theorem usedBand {i : GalileoInav} {sigid : BitVec 32} (hs : i.sigid = some sigid) :
    (i.sigid = some 1 ∨ i.sigid = some 5) ↔ ∃ band, bandOf sigid = some band ∧ i.OnBand band := by
  rw [hs]
  rcases bandOf_eq sigid with ⟨k, k1, k2⟩ | ⟨k, rfl⟩ | ⟨k, rfl⟩
  · rw [k]
    constructor
    · rintro (h | h)
      · exact absurd (Option.some.inj h) k1
      · exact absurd (Option.some.inj h) k2
    · rintro ⟨_, h, _⟩; cases h
  · exact ⟨fun _ => ⟨_, k, hs⟩, fun _ => .inl rfl⟩
  · exact ⟨fun _ => ⟨_, k, hs⟩, fun _ => .inr rfl⟩

theorem tryFrom_some {n : Nat} (h : 1 ≤ n ∧ n ≤ 36) : ∃ svn, Svn.tryFrom n = some svn := by
  unfold Svn.tryFrom
  rw [dif_pos (by omega)]
  exact ⟨_, rfl⟩

theorem not_fatal_of_step {checks : Bool} {g g' : GalmonOsnma C} {i : GalileoInav} {seen : List GalileoInav} (hl : g.sel.LastOk seen)
    (hc : g.sel.CurrentOk seen) (ht : checks = true ∨ i.TimeOk) (hsig : i.sigid.isSome = true) (h : g.step S checks (some i) = .ok g') :
    ¬ i.Fatal seen := by
  have time : ∀ {r}, g.sel.accept checks i = .ok r → i.TimeOk := by
    intro r hr
    rcases ht with ht | ht
    · unfold Selector.accept at hr
      obtain ⟨⟨a, b⟩, h1, _⟩ := Res.bind_eq_ok.1 hr
      exact (packetTime_ok h1).2.1 ht
    · exact ht
  cases step_ok h with
  | noSig h _ => rw [h] at hsig; cases hsig
  | @dropped _ sigid sel hi ha hx =>
    obtain ⟨_, _, a3⟩ := Selector.accept_ok ha hl hc ht
    rintro (hf | ⟨hf, _⟩)
    · exact hf (time ha)
    · exact a3 hf
  | @unused _ sigid sel gst hi ha hno hx =>
    obtain ⟨_, _, a3, _⟩ := Selector.accept_ok ha hl hc ht
    have hu : ¬ i.Used seen := by
      rintro ⟨u1, u2, u3⟩
      obtain ⟨band, hb, _⟩ := (usedBand hi).1 u1
      rcases hno with hno | hno
      · rw [hno] at hb; cases hb
      · exact u3 ((firstType_ok hno).1 rfl)
    rintro (hf | ⟨_, hf | ⟨hf, _⟩⟩)
    · exact hf (time ha)
    · refine hf ?_
      unfold GalmonOsnma.step at h
      simp only [hi, ha, Res.ok_bind] at h
      obtain ⟨svn, hsv, _⟩ := Res.bind_eq_ok.1 h
      have hv := tryFrom_val (Res.unwrap_eq_ok.1 hsv)
      have := svn.h1
      have := svn.h36
      omega
    · exact hu hf
  | @used _ sigid sel gst svn band ty g1 hi ha hsv hb hty h63 hfeed hrep =>
    obtain ⟨o', now, _, rfl, word, hword, hnow⟩ := feed_ok hfeed
    rintro (hf | ⟨_, hf | ⟨_, hf | ⟨d, hd, hf⟩⟩⟩)
    · exact hf (time ha)
    · have hv := tryFrom_val hsv
      have := svn.h1
      have := svn.h36
      omega
    · exact hf (by rw [← hword]; exact word.property)
    · rw [hd] at hnow
      obtain ⟨data, hdata, _⟩ := hnow
      exact hf (by rw [← hdata]; exact data.property)

theorem step_forward (hS : S.Consistent) {o0 : Osnma C} (h0 : o0.Fresh S) {checks : Bool} {g : GalmonOsnma C} {i : GalileoInav}
    {seen : List GalileoInav} (hl : g.sel.LastOk seen) (hc : g.sel.CurrentOk seen) (hinv : ReportInv S o0 g)
    (hweek : ∀ c ∈ inavsOf g.calls, 7650 ≤ c.gst.abs) (hti : 7650 ≤ i.secs) (hf : ¬ i.Fatal seen) :
    (¬ i.Used seen → ∃ g', g.step S checks (some i) = .ok g') ∧
    (i.Used seen → ∃ now, i.CallsFor (i.fedSecs seen) now ∧
      ((∃ o', run S g.osnma now = .ok o') → ∃ g', g.step S checks (some i) = .ok g')) := by
  have ht : i.TimeOk := Classical.byContradiction fun h => hf (.inl h)
  obtain ⟨⟨sel, r⟩, ha⟩ := accept_returns checks g.sel ht
  obtain ⟨_, _, a3⟩ := Selector.accept_ok ha hl hc (.inr ht)
  cases hs : i.sigid with
  | none =>
    refine ⟨fun _ => ⟨g, by simp [GalmonOsnma.step, hs]⟩, fun hu => ?_⟩
    have := hu.1
    rw [hs] at this
    simp at this
  | some sigid =>
    cases r with
    | none =>
      refine ⟨fun _ => ?_, fun hu => absurd hu.2.1 a3⟩
      exact ⟨{ g with sel := sel }, by simp [GalmonOsnma.step, hs, ha]⟩
    | some gst =>
      obtain ⟨a3, a4⟩ := a3
      obtain ⟨svn, hsv⟩ := tryFrom_some (n := i.gnssSv.toNat) (Classical.byContradiction fun h => hf (.inr ⟨a3, .inl h⟩))
      have base : g.step S checks (some i) = (match bandOf sigid with
          | none => pure { g with sel := sel }
          | some band => do
            let ty ← firstType i.contents
            if ty = 63 then pure { g with sel := sel }
            else do
              let g ← ({ g with sel := sel } : GalmonOsnma C).feed S i svn gst band
              g.report S) := by
        simp only [GalmonOsnma.step, hs, ha, Res.ok_bind, hsv, Res.unwrap]
        cases bandOf sigid <;> rfl
      rw [base]
      cases hb : bandOf sigid with
      | none =>
        refine ⟨fun _ => ⟨_, rfl⟩, fun hu => ?_⟩
        obtain ⟨band, h, _⟩ := (usedBand hs).1 hu.1
        rw [hb] at h; cases h
      | some band =>
        dsimp only
        have hon : i.OnBand band := by
          rcases bandOf_eq sigid with ⟨k, _⟩ | ⟨k, rfl⟩ | ⟨k, rfl⟩
          · rw [hb] at k; cases k
          · rw [hb] at k; cases k; exact hs
          · rw [hb] at k; cases k; exact hs
        constructor
        · intro hu
          have hd : (bitsOf i.contents).take 6 = List.replicate 6 true :=
            Classical.byContradiction fun h => hu ⟨(usedBand hs).2 ⟨band, hb, hon⟩, a3, h⟩
          have hne : 0 < i.contents.length := by
            rcases Nat.eq_zero_or_pos i.contents.length with h | h
            · rw [List.length_eq_zero_iff.1 h] at hd; cases hd
            · exact h
          have hty : ∃ t, firstType i.contents = .ok t := by
            unfold firstType index
            rw [List.getElem?_eq_getElem hne]
            exact ⟨_, rfl⟩
          obtain ⟨t, hty⟩ := hty
          rw [hty, Res.ok_bind, if_pos ((firstType_ok hty).2 hd)]
          exact ⟨_, rfl⟩
        · intro hu
          have hlen : i.contents.length = 16 := Classical.byContradiction fun h => hf (.inr ⟨a3, .inr ⟨hu, .inl h⟩⟩)
          have hlen5 : ∀ d, i.reserved1 = some d → d.length = 5 :=
            fun d hd => Classical.byContradiction fun h => hf (.inr ⟨a3, .inr ⟨hu, .inr ⟨d, hd, h⟩⟩⟩)
          have hty : ∃ t, firstType i.contents = .ok t := by
            unfold firstType index
            rw [List.getElem?_eq_getElem (by omega)]
            exact ⟨_, rfl⟩
          obtain ⟨t, hty⟩ := hty
          rw [hty, Res.ok_bind, if_neg ((used_iff_not_dummy hty).2 hu.2.2)]
          have hga : 7650 ≤ gst.abs := by
            rw [a4]
            have : i.secs ≤ i.fedSecs seen := by unfold fedSecs; split <;> omega
            omega
          have fin : ∀ (g1 : GalmonOsnma C) (now : List Call) (o' : Osnma C), run S g.osnma now = .ok o' →
              g1 = { g with sel := sel, osnma := o', calls := g.calls ++ now } → (∀ c ∈ inavsOf now, c.gst = gst) →
              ∃ g', g1.report S = .ok g' := by
            rintro _ now o' hrun rfl hg
            refine report_returns hS h0 ⟨?_, ?_, ?_, hinv.norep⟩ ?_
            · have := hinv.run
              unfold Verif.run at this hrun ⊢
              rw [loopM_append, this]; exact hrun
            · intro r hr
              obtain ⟨pre, o, hp, h1, h2⟩ := hinv.src r hr
              exact ⟨pre, o, hp.trans (List.prefix_append _ _), h1, h2⟩
            · intro kd svn
              have := hinv.cell kd svn
              cases kd <;> exact this
            · intro c hcm
              simp only [inavsOf, List.filterMap_append, List.mem_append] at hcm
              rcases hcm with hcm | hcm
              · exact hweek c hcm
              · rw [hg c hcm]; exact hga
          cases hr : i.reserved1 with
          | none =>
            refine ⟨[.inav ⟨i.contents, hlen⟩ svn gst band], ⟨⟨i.contents, hlen⟩, svn, gst, band, rfl, tryFrom_val hsv, a4, hon, by rw [hr]⟩, ?_⟩
            rintro ⟨o', hrun⟩
            have hcall : Call.run S g.osnma (.inav ⟨i.contents, hlen⟩ svn gst band) = .ok o' := by
              unfold Verif.run at hrun
              rw [loopM_cons] at hrun
              obtain ⟨x, hx, h⟩ := Res.bind_eq_ok.1 hrun
              cases h
              exact hx
            have hfeed : ({ g with sel := sel } : GalmonOsnma C).feed S i svn gst band =
                .ok { g with sel := sel, osnma := o', calls := g.calls ++ [.inav ⟨i.contents, hlen⟩ svn gst band] } := by
              simp [GalmonOsnma.feed, toArray, hlen, GalmonOsnma.call, hcall, hr]
            rw [hfeed, Res.ok_bind]
            exact fin _ _ o' hrun rfl (by simp [inavsOf])
          | some d =>
            have h5 := hlen5 d hr
            refine ⟨[.inav ⟨i.contents, hlen⟩ svn gst band, .osnma ⟨d, h5⟩ svn gst],
              ⟨⟨i.contents, hlen⟩, svn, gst, band, rfl, tryFrom_val hsv, a4, hon, by rw [hr]; exact ⟨⟨d, h5⟩, rfl, rfl⟩⟩, ?_⟩
            rintro ⟨o', hrun⟩
            have hcall : ∃ o1, Call.run S g.osnma (.inav ⟨i.contents, hlen⟩ svn gst band) = .ok o1 ∧ Call.run S o1 (.osnma ⟨d, h5⟩ svn gst) = .ok o' := by
              unfold Verif.run at hrun
              rw [loopM_cons] at hrun
              obtain ⟨x, hx, h⟩ := Res.bind_eq_ok.1 hrun
              rw [loopM_cons] at h
              obtain ⟨y, hy, h⟩ := Res.bind_eq_ok.1 h
              cases h
              exact ⟨x, hx, hy⟩
            obtain ⟨o1, c1, c2⟩ := hcall
            have hfeed : ({ g with sel := sel } : GalmonOsnma C).feed S i svn gst band =
                .ok { g with sel := sel, osnma := o', calls := g.calls ++ [.inav ⟨i.contents, hlen⟩ svn gst band, .osnma ⟨d, h5⟩ svn gst] } := by
              simp [GalmonOsnma.feed, toArray, hlen, GalmonOsnma.call, c1, hr, h5, c2]
            rw [hfeed, Res.ok_bind]
            exact fin _ _ o' hrun rfl (by simp [inavsOf])

/-! ## The whole input -/

theorem loop_returns (hS : S.Consistent) {o0 : Osnma C} (h0 : o0.Fresh S) {checks : Bool} {gis : List (Option GalileoInav)} :
    ∀ {seen : List GalileoInav} {g : GalmonOsnma C}, g.sel.LastOk seen → g.sel.CurrentOk seen → ReportInv S o0 g →
      (∀ c ∈ inavsOf g.calls, 7650 ≤ c.gst.abs) →
      (checks = true ∨ ∀ i, some i ∈ gis → i.sigid.isSome = true → i.TimeOk) →
      (∀ i, some i ∈ gis → i.sigid.isSome = true → 7650 ≤ i.secs) →
      ((∃ g', loopM (GalmonOsnma.step S checks) gis g = .ok g') ↔
        (∀ pre i post, (gis.filterMap id).filter (fun i => i.sigid.isSome) = pre ++ i :: post → ¬ i.Fatal (seen ++ pre)) ∧
        ∃ cs, CallsForAll seen ((gis.filterMap id).filter fun i => i.sigid.isSome) cs ∧ ∃ o', run S g.osnma cs = .ok o') := by
  induction gis with
  | nil =>
    intro seen g _ _ _ _ _ _
    refine ⟨fun _ => ⟨?_, [], .nil _, _, rfl⟩, fun _ => ⟨_, rfl⟩⟩
    intro pre i post h
    simp at h
  | cons gi gis ih =>
    intro seen g hl hc hinv hweek ht hsec
    rw [loopM_cons]
    have ht' : checks = true ∨ ∀ i, some i ∈ gis → i.sigid.isSome = true → i.TimeOk := ht.imp id fun h i hi => h i (by simp [hi])
    have hsec' : ∀ i, some i ∈ gis → i.sigid.isSome = true → 7650 ≤ i.secs := fun i hi => hsec i (by simp [hi])
    by_cases hgi : ∃ i, gi = some i ∧ i.sigid.isSome = true
    · obtain ⟨i, rfl, hsig⟩ := hgi
      have hti := ht.imp id fun h => h i (by simp) hsig
      have hsi := hsec i (by simp) hsig
      have hlist : ((some i :: gis).filterMap id).filter (fun i => i.sigid.isSome) = i :: (gis.filterMap id).filter (fun i => i.sigid.isSome) := by
        simp [hsig]
      rw [hlist]
      -- what one step keeps
      have keep : ∀ {g1 : GalmonOsnma C}, g.step S checks (some i) = .ok g1 →
          g1.sel.LastOk (seen ++ [i]) ∧ g1.sel.CurrentOk (seen ++ [i]) ∧ ReportInv S o0 g1 ∧ (∀ c ∈ inavsOf g1.calls, 7650 ≤ c.gst.abs) ∧
          ((¬ i.Used seen ∧ g1.osnma = g.osnma) ∨ (i.Used seen ∧ ∃ now, i.CallsFor (i.fedSecs seen) now ∧ run S g.osnma now = .ok g1.osnma)) := by
        intro g1 hs
        have hinv1 := hinv.packet hS h0 hs
        cases step_ok hs with
        | noSig h _ => rw [h] at hsig; cases hsig
        | dropped hi ha hx =>
          obtain ⟨a1, a2, a3⟩ := Selector.accept_ok ha hl hc hti
          subst hx
          exact ⟨a1, a2, hinv1, hweek, .inl ⟨fun hu => a3 hu.2.1, rfl⟩⟩
        | unused hi ha hno hx =>
          obtain ⟨a1, a2, a3, _⟩ := Selector.accept_ok ha hl hc hti
          subst hx
          refine ⟨a1, a2, hinv1, hweek, .inl ⟨?_, rfl⟩⟩
          rintro ⟨u1, u2, u3⟩
          obtain ⟨band, hb, _⟩ := (usedBand hi).1 u1
          rcases hno with hno | hno
          · rw [hno] at hb; cases hb
          · exact u3 ((firstType_ok hno).1 rfl)
        | @used _ sigid sel gst svn band ty g2 hi ha hsv hb hty h63 hfeed hrep =>
          obtain ⟨a1, a2, a3, a4⟩ := Selector.accept_ok ha hl hc hti
          obtain ⟨o', now, hrun, rfl, word, hword, hnow⟩ := feed_ok hfeed
          obtain ⟨e1, e2, e3⟩ := report_same hrep
          have hon : i.OnBand band := by
            rcases bandOf_eq sigid with ⟨k, _⟩ | ⟨k, rfl⟩ | ⟨k, rfl⟩
            · rw [hb] at k; cases k
            · rw [hb] at k; cases k; exact hi
            · rw [hb] at k; cases k; exact hi
          have hga : 7650 ≤ gst.abs := by
            rw [a4]
            have : i.secs ≤ i.fedSecs seen := by unfold fedSecs; split <;> omega
            omega
          refine ⟨by rw [e3]; exact a1, by rw [e3]; exact a2, hinv1, ?_, .inr ⟨⟨(usedBand hi).2 ⟨band, hb, hon⟩, a3, (used_iff_not_dummy hty).1 h63⟩,
            now, ⟨word, svn, gst, band, hword, tryFrom_val hsv, a4, hon, hnow⟩, by rw [e1]; exact hrun⟩⟩
          intro c hcm
          rw [e2] at hcm
          simp only [inavsOf, List.filterMap_append, List.mem_append] at hcm
          rcases hcm with hcm | hcm
          · exact hweek c hcm
          · have : c.gst = gst := by
              cases hr : i.reserved1 with
              | none => rw [hr] at hnow; simp only at hnow; subst hnow; simp at hcm; rw [hcm]
              | some d => rw [hr] at hnow; obtain ⟨_, _, rfl⟩ := hnow; simp at hcm; rw [hcm]
            rw [this]; exact hga
      constructor
      · rintro ⟨g', h⟩
        obtain ⟨g1, hs, hrest⟩ := Res.bind_eq_ok.1 h
        obtain ⟨k1, k2, k3, k4, k5⟩ := keep hs
        obtain ⟨f1, cs, c1, o', c2⟩ := (ih k1 k2 k3 k4 ht' hsec').1 ⟨g', hrest⟩
        refine ⟨?_, ?_⟩
        · intro pre x post hp
          cases pre with
          | nil =>
            cases hp
            rw [List.append_nil]
            exact not_fatal_of_step hl hc hti hsig hs
          | cons y pre =>
            rw [List.cons_append, List.cons.injEq] at hp
            obtain ⟨rfl, hp⟩ := hp
            have := f1 pre x post hp
            rw [List.append_assoc] at this
            exact this
        · rcases k5 with ⟨hu, ho⟩ | ⟨hu, now, hn, hr⟩
          · exact ⟨cs, .dropped hu c1, o', by rw [← ho]; exact c2⟩
          · refine ⟨now ++ cs, .used hu hn c1, o', ?_⟩
            unfold Verif.run at hr c2 ⊢
            rw [loopM_append, hr]
            exact c2
      · rintro ⟨f1, cs, c1, o', c2⟩
        have hf : ¬ i.Fatal seen := by have := f1 [] i _ rfl; rwa [List.append_nil] at this
        obtain ⟨s1, s2⟩ := step_forward (checks := checks) hS h0 hl hc hinv hweek hsi hf
        have go : ∀ {g1 : GalmonOsnma C} {later : List Call}, g.step S checks (some i) = .ok g1 → CallsForAll (seen ++ [i]) ((gis.filterMap id).filter fun i => i.sigid.isSome) later →
            (∃ o', run S g1.osnma later = .ok o') → ∃ g', (do let s ← g.step S checks (some i); loopM (GalmonOsnma.step S checks) gis s) = .ok g' := by
          intro g1 later hs hlater hrun
          obtain ⟨k1, k2, k3, k4, _⟩ := keep hs
          obtain ⟨g', hg'⟩ := (ih k1 k2 k3 k4 ht' hsec').2 ⟨fun pre x post hp => by
            have := f1 (i :: pre) x post (by rw [hp]; rfl)
            rw [List.append_assoc]
            exact this, later, hlater, hrun⟩
          exact ⟨g', by rw [hs]; exact hg'⟩
        cases c1 with
        | used hu hn c1 =>
          rename_i now later
          obtain ⟨now', hn', hstep⟩ := s2 hu
          obtain rfl := CallsFor.unique hn hn'
          obtain ⟨o1, r1, r2⟩ : ∃ o1, run S g.osnma now = .ok o1 ∧ run S o1 later = .ok o' := by
            unfold Verif.run at c2 ⊢
            rw [loopM_append] at c2
            cases hr : loopM (fun o c => Call.run S o c) now g.osnma with
            | panic w => rw [hr] at c2; cases c2
            | ok o1 => rw [hr] at c2; exact ⟨o1, rfl, c2⟩
          obtain ⟨g1, hs⟩ := hstep ⟨o1, r1⟩
          refine go hs c1 ⟨o', ?_⟩
          obtain ⟨_, _, _, _, k5⟩ := keep hs
          rcases k5 with ⟨hnu, _⟩ | ⟨_, now'', hn'', hr''⟩
          · exact absurd hu hnu
          · obtain rfl := CallsFor.unique hn hn''
            rw [r1] at hr''
            cases hr''
            exact r2
        | dropped hu c1 =>
          obtain ⟨g1, hs⟩ := s1 hu
          refine go hs c1 ⟨o', ?_⟩
          obtain ⟨_, _, _, _, k5⟩ := keep hs
          rcases k5 with ⟨_, ho⟩ | ⟨hu', _⟩
          · rw [ho]; exact c2
          · exact absurd hu' hu
    · have hs : g.step S checks gi = .ok g := by
        cases gi with
        | none => rfl
        | some i =>
          cases hsi : i.sigid with
          | none => simp [GalmonOsnma.step, hsi]
          | some x => exact absurd ⟨i, rfl, by rw [hsi]; rfl⟩ hgi
      have hlist : ((gi :: gis).filterMap id).filter (fun i => i.sigid.isSome) = (gis.filterMap id).filter (fun i => i.sigid.isSome) := by
        cases gi with
        | none => rfl
        | some i =>
          cases hsi : i.sigid with
          | none => simp [hsi]
          | some x => exact absurd ⟨i, rfl, by rw [hsi]; rfl⟩ hgi
      rw [hlist, hs, Res.ok_bind]
      exact ih hl hc hinv hweek ht' hsec'

/-- **C60.**  On an input stream from which the packets `ms` are read, `galmon-osnma` runs to the end (and then exits as the reading ends)
exactly when no packet is `Fatal` and the black box does not panic on the calls that C44 says are made.  In every other case it
panics.  (For packets with a time at least 255 subframes after the GST epoch; without overflow checks, for times that can be represented.) -/
theorem C60_returns_iff (hS : S.Consistent) {o0 : Osnma C} (h0 : o0.Fresh S) {checks : Bool} {input : Source} {ms : List N.Msg} {e : Option IoError}
    (hp : packetsOf N input.bytes input.fails = .ok (ms, e)) (ht : checks = true ∨ ∀ i ∈ inavPackets N ms, i.TimeOk)
    (hsec : ∀ i ∈ inavPackets N ms, 7650 ≤ i.secs) :
    (∃ g, galmonOsnmaMain S N checks o0 input = .ok (g, e)) ↔
      (∀ pre i post, inavPackets N ms = pre ++ i :: post → ¬ i.Fatal pre) ∧
      ∃ cs, CallsForAll [] (inavPackets N ms) cs ∧ (run S o0 cs).Returns := by
  have hm : ∀ i, some i ∈ ms.map N.gi → i.sigid.isSome = true → i ∈ inavPackets N ms := by
    intro i hi hs
    obtain ⟨m, hm, hg⟩ := List.mem_map.1 hi
    exact List.mem_filter.2 ⟨List.mem_filterMap.2 ⟨m, hm, hg⟩, hs⟩
  have key := loop_returns (checks := checks) (gis := ms.map N.gi) hS h0 (seen := []) (g := GalmonOsnma.new o0)
    (by unfold Selector.LastOk; simp [GalmonOsnma.new, Selector.new]) rfl (reportInv_new hS h0).1 (by intro c hc; cases hc)
    (ht.imp id fun h i hi hs => h i (hm i hi hs)) (fun i hi hs => hsec i (hm i hi hs))
  have hlist : ((ms.map N.gi).filterMap id).filter (fun i => i.sigid.isSome) = inavPackets N ms := by
    rw [List.filterMap_map]; rfl
  rw [hlist] at key
  simp only [List.nil_append] at key
  have hmain : galmonOsnmaMain S N checks o0 input = (do
      let g ← loopM (GalmonOsnma.step S checks) (ms.map N.gi) (.new o0)
      pure (g, e)) := by
    unfold galmonOsnmaMain
    have : (ReadTransport.new input).packets N = .ok (ms, e) := hp
    rw [this]; rfl
  rw [hmain]
  refine Iff.trans ?_ key
  constructor
  · rintro ⟨g, hg⟩
    obtain ⟨g', h1, h2⟩ := Res.bind_eq_ok.1 hg
    exact ⟨g', h1⟩
  · rintro ⟨g, hg⟩
    exact ⟨g, by rw [hg]; rfl⟩

/-- One step in any build: the week number of a packet with a `sigid` fits 16 bits. -/
theorem week_of_step {checks : Bool} {g g' : GalmonOsnma C} {i : GalileoInav} (hs : i.sigid.isSome = true)
    (h : g.step S checks (some i) = .ok g') : i.gnssWn.toNat < 65536 := by
  cases hsig : i.sigid with
  | none => rw [hsig] at hs; cases hs
  | some sigid =>
    unfold GalmonOsnma.step at h
    simp only [hsig] at h
    obtain ⟨⟨sel, r⟩, ha, _⟩ := Res.bind_eq_ok.1 h
    unfold Selector.accept at ha
    obtain ⟨⟨a, b⟩, h1, _⟩ := Res.bind_eq_ok.1 ha
    unfold packetTime at h1
    simp only [Res.bind_eq_ok] at h1
    obtain ⟨w0, h0, _⟩ := h1
    unfold wnOf at h0
    split at h0
    · assumption
    · cases h0

/-- **C60.**  In a build with or without overflow checks: if `galmon-osnma` runs to the end, then the week numbers of all the packets that
have a `sigid`, used or not, fit 16 bits; in other words one packet with a larger week number ends the program. -/
theorem C60_week_numbers {checks : Bool} {o0 : Osnma C} {input : Source} {ms : List N.Msg} {e e' : Option IoError} {g : GalmonOsnma C}
    (hp : packetsOf N input.bytes input.fails = .ok (ms, e)) (h : galmonOsnmaMain S N checks o0 input = .ok (g, e')) :
    ∀ i ∈ inavPackets N ms, i.gnssWn.toNat < 65536 := by
  unfold galmonOsnmaMain at h
  have : (ReadTransport.new input).packets N = .ok (ms, e) := hp
  rw [this, Res.ok_bind] at h
  obtain ⟨g', h1, _⟩ := Res.bind_eq_ok.1 h
  have key : ∀ (gis : List (Option GalileoInav)) (g0 : GalmonOsnma C), loopM (GalmonOsnma.step S checks) gis g0 = .ok g' →
      ∀ i, some i ∈ gis → i.sigid.isSome = true → i.gnssWn.toNat < 65536 := by
    intro gis
    induction gis with
    | nil => intro _ _ i hi; cases hi
    | cons x gis ih =>
      intro g0 hl i hi hs
      rw [loopM_cons] at hl
      obtain ⟨g1, h2, h3⟩ := Res.bind_eq_ok.1 hl
      rcases List.mem_cons.1 hi with rfl | hi
      · exact week_of_step hs h2
      · exact ih g1 h3 i hi hs
  intro i hi
  unfold inavPackets at hi
  rw [List.mem_filter, List.mem_filterMap] at hi
  obtain ⟨⟨m, hm, hg⟩, hs⟩ := hi
  exact key _ _ h1 i (List.mem_map.2 ⟨m, hm, hg⟩) hs

end Verif
