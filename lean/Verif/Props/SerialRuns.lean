import Verif.Props.Serial
import Verif.Props.GalmonRuns

/-! # C61: when the client of the serial link runs to the end, and that it is a remote `galmon-osnma` -/

namespace Verif
open GalileoInav

variable {C : Crypto} {S : Storage} {N : Navmon}

/-- One packet of the client: it returns exactly when the packet is not `ClientFatal`. -/
theorem clientStep_returns {checks : Bool} {s : Client} {i : GalileoInav} {seen : List GalileoInav} (hl : s.sel.LastOk seen)
    (hc : s.sel.CurrentOk seen) (ht : checks = true ∨ i.TimeOk) (hsig : i.sigid.isSome = true) :
    ((∃ s', s.step checks (some i) = .ok s') ↔ ¬ i.ClientFatal seen) ∧
    ∀ s', s.step checks (some i) = .ok s' → s'.sel.LastOk (seen ++ [i]) ∧ s'.sel.CurrentOk (seen ++ [i]) := by
  obtain ⟨sigid, hs⟩ := Option.isSome_iff_exists.1 hsig
  by_cases hto : i.TimeOk
  · obtain ⟨⟨sel, r⟩, ha⟩ := accept_returns checks s.sel hto
    obtain ⟨a1, a2, a3⟩ := Selector.accept_ok ha hl hc (.inr hto)
    cases r with
    | none =>
      have hstep : s.step checks (some i) = .ok { s with sel := sel } := by simp [Client.step, hs, ha]
      rw [hstep]
      refine ⟨⟨fun _ => ?_, fun _ => ⟨_, rfl⟩⟩, fun s' h => by cases h; exact ⟨a1, a2⟩⟩
      rintro (h | ⟨h, _⟩)
      · exact h hto
      · exact a3 h.2.1
    | some gst =>
      obtain ⟨a3, a4⟩ := a3
      have base : s.step checks (some i) = (match bandOf sigid with
          | none => pure { s with sel := sel }
          | some band => do
            let ty ← firstType i.contents
            if ty = 63 then pure { s with sel := sel }
            else do
              let word ← toArray 16 i.contents
              match i.reserved1 with
              | none => pure ⟨sel, s.sent ++ [sendInav word i.gnssSv.toNat gst band]⟩
              | some d => do
                let data ← toArray 5 d
                pure ⟨sel, s.sent ++ [sendInav word i.gnssSv.toNat gst band] ++ [sendOsnma data i.gnssSv.toNat gst band]⟩) := by
        simp only [Client.step, hs, ha, Res.ok_bind]
        cases bandOf sigid <;> rfl
      rw [base]
      cases hb : bandOf sigid with
      | none =>
        refine ⟨⟨fun _ => ?_, fun _ => ⟨_, rfl⟩⟩, fun s' h => by cases h; exact ⟨a1, a2⟩⟩
        rintro (h | ⟨h, _⟩)
        · exact h hto
        · obtain ⟨band, h', _⟩ := (usedBand hs).1 h.1
          rw [hb] at h'; cases h'
      | some band =>
        dsimp only
        have hon : i.OnBand band := by
          rcases bandOf_eq sigid with ⟨k, _⟩ | ⟨k, rfl⟩ | ⟨k, rfl⟩
          · rw [hb] at k; cases k
          · rw [hb] at k; cases k; exact hs
          · rw [hb] at k; cases k; exact hs
        by_cases hd : (bitsOf i.contents).take 6 = List.replicate 6 true
        · have hne : 0 < i.contents.length := by
            rcases Nat.eq_zero_or_pos i.contents.length with h | h
            · rw [List.length_eq_zero_iff.1 h] at hd; cases hd
            · exact h
          have hty : ∃ t, firstType i.contents = .ok t := by
            unfold firstType index
            rw [List.getElem?_eq_getElem hne]
            exact ⟨_, rfl⟩
          obtain ⟨t, hty⟩ := hty
          rw [hty, Res.ok_bind, if_pos ((firstType_ok hty).2 hd)]
          refine ⟨⟨fun _ => ?_, fun _ => ⟨_, rfl⟩⟩, fun s' h => by cases h; exact ⟨a1, a2⟩⟩
          rintro (h | ⟨h, _⟩)
          · exact h hto
          · exact h.2.2 hd
        · have hu : i.Used seen := ⟨(usedBand hs).2 ⟨band, hb, hon⟩, a3, hd⟩
          by_cases hlen : i.contents.length = 16
          · have hty : ∃ t, firstType i.contents = .ok t := by
              unfold firstType index
              rw [List.getElem?_eq_getElem (by omega)]
              exact ⟨_, rfl⟩
            obtain ⟨t, hty⟩ := hty
            have hw : toArray 16 i.contents = .ok ⟨i.contents, hlen⟩ := by unfold toArray; rw [dif_pos hlen]
            rw [hty, Res.ok_bind, if_neg ((used_iff_not_dummy hty).2 hd), hw, Res.ok_bind]
            cases hr : i.reserved1 with
            | none =>
              refine ⟨⟨fun _ => ?_, fun _ => ⟨_, rfl⟩⟩, fun s' h => by cases h; exact ⟨a1, a2⟩⟩
              rintro (h | ⟨_, h | ⟨d, h, _⟩⟩)
              · exact h hto
              · exact h hlen
              · rw [hr] at h; cases h
            | some d =>
              dsimp only
              by_cases h5 : d.length = 5
              · have hw5 : toArray 5 d = .ok ⟨d, h5⟩ := by unfold toArray; rw [dif_pos h5]
                rw [hw5, Res.ok_bind]
                refine ⟨⟨fun _ => ?_, fun _ => ⟨_, rfl⟩⟩, fun s' h => by cases h; exact ⟨a1, a2⟩⟩
                rintro (h | ⟨_, h | ⟨d', h, h'⟩⟩)
                · exact h hto
                · exact h hlen
                · rw [hr] at h; cases h; exact h' h5
              · have hw5 : toArray 5 d = .panic "try_into().unwrap()" := by unfold toArray; rw [dif_neg h5]
                rw [hw5]
                refine ⟨⟨(fun ⟨_, h⟩ => by cases h), fun h => ?_⟩, (fun s' h => by cases h)⟩
                exact absurd (.inr ⟨hu, .inr ⟨d, hr, h5⟩⟩) h
          · refine ⟨⟨?_, fun h => absurd (.inr ⟨hu, .inl hlen⟩) h⟩, ?_⟩
            · rintro ⟨s', h⟩
              obtain ⟨t, hty, h⟩ := Res.bind_eq_ok.1 h
              rw [if_neg ((used_iff_not_dummy hty).2 hd)] at h
              obtain ⟨w, hw, _⟩ := Res.bind_eq_ok.1 h
              exact absurd (by rw [← GalmonOsnma.toArray_ok hw]; exact w.property) hlen
            · intro s' h
              obtain ⟨t, hty, h⟩ := Res.bind_eq_ok.1 h
              rw [if_neg ((used_iff_not_dummy hty).2 hd)] at h
              obtain ⟨w, hw, _⟩ := Res.bind_eq_ok.1 h
              exact absurd (by rw [← GalmonOsnma.toArray_ok hw]; exact w.property) hlen
  · have hno : ∀ s', s.step checks (some i) ≠ .ok s' := by
      intro s' h
      simp only [Client.step, hs] at h
      obtain ⟨⟨sel, r⟩, ha, _⟩ := Res.bind_eq_ok.1 h
      unfold Selector.accept at ha
      obtain ⟨⟨a, b⟩, h1, _⟩ := Res.bind_eq_ok.1 ha
      exact hto (ht.elim (packetTime_ok h1).2.1 id)
    refine ⟨⟨fun ⟨s', h⟩ => absurd h (hno s'), fun h => absurd (.inl hto) h⟩, fun s' h => absurd h (hno s')⟩

theorem clientLoop_returns {checks : Bool} {gis : List (Option GalileoInav)} : ∀ {seen : List GalileoInav} {s : Client},
    s.sel.LastOk seen → s.sel.CurrentOk seen → (checks = true ∨ ∀ i, some i ∈ gis → i.sigid.isSome = true → i.TimeOk) →
      ((∃ s', loopM (Client.step checks) gis s = .ok s') ↔
        ∀ pre i post, (gis.filterMap id).filter (fun i => i.sigid.isSome) = pre ++ i :: post → ¬ i.ClientFatal (seen ++ pre)) := by
  induction gis with
  | nil =>
    intro seen s _ _ _
    refine ⟨fun _ => ?_, fun _ => ⟨_, rfl⟩⟩
    intro pre i post h
    simp at h
  | cons gi gis ih =>
    intro seen s hl hc ht
    rw [loopM_cons]
    have ht' : checks = true ∨ ∀ i, some i ∈ gis → i.sigid.isSome = true → i.TimeOk := ht.imp id fun h i hi => h i (by simp [hi])
    by_cases hgi : ∃ i, gi = some i ∧ i.sigid.isSome = true
    · obtain ⟨i, rfl, hsig⟩ := hgi
      have hlist : ((some i :: gis).filterMap id).filter (fun i => i.sigid.isSome) = i :: (gis.filterMap id).filter (fun i => i.sigid.isSome) := by
        simp [hsig]
      rw [hlist]
      obtain ⟨h1, h2⟩ := clientStep_returns hl hc (ht.imp id fun h => h i (by simp) hsig) hsig
      constructor
      · rintro ⟨s', h⟩ pre x post hp
        obtain ⟨s1, hs, hrest⟩ := Res.bind_eq_ok.1 h
        obtain ⟨k1, k2⟩ := h2 _ hs
        cases pre with
        | nil =>
          cases hp
          rw [List.append_nil]
          exact h1.1 ⟨_, hs⟩
        | cons y pre =>
          rw [List.cons_append, List.cons.injEq] at hp
          obtain ⟨rfl, hp⟩ := hp
          have := (ih k1 k2 ht').1 ⟨_, hrest⟩ pre x post hp
          rw [List.append_assoc] at this
          exact this
      · intro h
        have hf := h [] i _ rfl
        rw [List.append_nil] at hf
        obtain ⟨s1, hs⟩ := h1.2 hf
        obtain ⟨k1, k2⟩ := h2 _ hs
        obtain ⟨s', hs'⟩ := (ih k1 k2 ht').2 fun pre x post hp => by
          have := h (i :: pre) x post (by rw [hp]; rfl)
          rw [List.append_assoc]
          exact this
        exact ⟨s', by rw [hs]; exact hs'⟩
    · have hs : s.step checks gi = .ok s := by
        cases gi with
        | none => rfl
        | some i =>
          cases hsi : i.sigid with
          | none => simp [Client.step, hsi]
          | some x => exact absurd ⟨i, rfl, by rw [hsi]; rfl⟩ hgi
      have hlist : ((gi :: gis).filterMap id).filter (fun i => i.sigid.isSome) = (gis.filterMap id).filter (fun i => i.sigid.isSome) := by
        cases gi with
        | none => rfl
        | some i =>
          cases hsi : i.sigid with
          | none => simp [hsi]
          | some x => exact absurd ⟨i, rfl, by rw [hsi]; rfl⟩ hgi
      rw [hlist, hs, Res.ok_bind]
      exact ih hl hc ht'

/-- **C61.**  On an input stream from which the packets `ms` are read, the client runs to the end (and then exits as the reading ends)
exactly when no packet is `ClientFatal`. -/
theorem C61_client_returns_iff {checks : Bool} {input : Source} {ms : List N.Msg} {e : Option IoError}
    (hp : packetsOf N input.bytes input.fails = .ok (ms, e)) (ht : checks = true ∨ ∀ i ∈ inavPackets N ms, i.TimeOk) :
    (∃ s, clientMain N checks input = .ok (s, e)) ↔ ∀ pre i post, inavPackets N ms = pre ++ i :: post → ¬ i.ClientFatal pre := by
  have hm : ∀ i, some i ∈ ms.map N.gi → i.sigid.isSome = true → i ∈ inavPackets N ms := by
    intro i hi hs
    obtain ⟨m, hm, hg⟩ := List.mem_map.1 hi
    exact List.mem_filter.2 ⟨List.mem_filterMap.2 ⟨m, hm, hg⟩, hs⟩
  have key := clientLoop_returns (checks := checks) (gis := ms.map N.gi) (seen := []) (s := ⟨.new, []⟩)
    (by unfold Selector.LastOk; simp [Selector.new]) rfl (ht.imp id fun h i hi hs => h i (hm i hi hs))
  have hlist : ((ms.map N.gi).filterMap id).filter (fun i => i.sigid.isSome) = inavPackets N ms := by
    rw [List.filterMap_map]; rfl
  rw [hlist] at key
  simp only [List.nil_append] at key
  have hmain : clientMain N checks input = (do
      let s ← loopM (Client.step checks) (ms.map N.gi) ⟨.new, []⟩
      pure (s, e)) := by
    unfold clientMain
    have : (ReadTransport.new input).packets N = .ok (ms, e) := hp
    rw [this]; rfl
  rw [hmain]
  refine Iff.trans ?_ key
  constructor
  · rintro ⟨g, hg⟩
    obtain ⟨g', h1, h2⟩ := Res.bind_eq_ok.1 hg
    exact ⟨g', h1⟩
  · rintro ⟨g, hg⟩
    exact ⟨g, by rw [hg]; rfl⟩

theorem not_clientFatal {seen : List GalileoInav} {i : GalileoInav} (h : ¬ i.Fatal seen) : ¬ i.ClientFatal seen := by
  rintro (hf | ⟨hu, hf⟩)
  · exact h (.inl hf)
  · exact h (.inr ⟨hu.2.1, .inr ⟨hu, hf⟩⟩)

theorem LinesFor.exists (cs : List Call) : ∃ lines, LinesFor cs lines := by
  induction cs with
  | nil => exact ⟨_, .nil⟩
  | cons c cs ih =>
    obtain ⟨lines, h⟩ := ih
    cases c with
    | inav w v g b => exact ⟨_, .cons (.of_inav w v g b) h⟩
    | osnma d v g => exact ⟨_, .cons (.of_osnma d v g .E1B) h⟩

theorem LinesFor.length {cs : List Call} {lines : List (List Byte)} (h : LinesFor cs lines) : lines.length = cs.length := by
  induction h with
  | nil => rfl
  | cons _ _ ih => simp [ih]

/-- The words fed for packets late enough are late enough for the getters. -/
theorem callsForAll_late {seen : List GalileoInav} {is : List GalileoInav} {cs : List Call} (h : CallsForAll seen is cs) : (∀ i ∈ is, 7650 ≤ i.secs) → ∀ c ∈ inavsOf cs, 7650 ≤ c.gst.abs := by
  induction h with
  | nil => intro _ c hc; cases hc
  | @used seen rest i now later hu hn _ ih =>
    intro hsec c hc
    simp only [inavsOf, List.filterMap_append, List.mem_append] at hc
    rcases hc with hc | hc
    · obtain ⟨w, v, gg, b, _, _, h3, _, h5⟩ := hn
      have hge : i.secs ≤ i.fedSecs seen := by unfold fedSecs; split <;> omega
      have hi := hsec i (by simp)
      have : c.gst = gg := by
        cases hr : i.reserved1 with
        | none => rw [hr] at h5; simp only at h5; subst h5; simp at hc; rw [hc]
        | some d => rw [hr] at h5; obtain ⟨_, _, rfl⟩ := h5; simp at hc; rw [hc]
      rw [this]
      omega
    · exact ih (fun i hi => hsec i (by simp [hi])) c hc
  | dropped _ _ ih => intro hsec c hc; exact ih (fun i hi => hsec i (by simp [hi])) c hc

/-- **C61.**  The same for a firmware whose black box is another one: of another size, or with other cryptographic functions.  If that black box
does not panic on the calls that `galmon-osnma` made, the firmware makes these calls. -/
theorem C61_remote_other {C' : Crypto} {S' : Storage} (hS : S.Consistent) {o0 : Osnma C} (h0 : o0.Fresh S) {checks : Bool} {input : Source} {ms : List N.Msg} {e : Option IoError}
    (hp : packetsOf N input.bytes input.fails = .ok (ms, e)) (ht : checks = true ∨ ∀ i ∈ inavPackets N ms, i.TimeOk)
    (hv : ∀ i ∈ inavPackets N ms, 1 ≤ i.gnssSv.toNat ∧ i.gnssSv.toNat ≤ 36) (hsec : ∀ i ∈ inavPackets N ms, 7650 ≤ i.secs)
    {g : GalmonOsnma C} (hg : galmonOsnmaMain S N checks o0 input = .ok (g, e))
    (hS' : S'.Consistent) {o0' o1' : Osnma C'} (h0' : o0'.Fresh S') (hrun' : run S' o0' g.calls = .ok o1') :
    ∃ s, clientMain N checks input = .ok (s, e) ∧ LinesFor g.calls s.sent ∧
      ∃ f rest, (Firmware.new o0').spins S' s.sent.length s.sent.flatten = .ok (some (f, rest)) ∧ f.calls = g.calls ∧ f.osnma = o1' := by
  obtain ⟨hnf, cs, hcs, hret⟩ := (C60_returns_iff hS h0 hp ht hsec).1 ⟨g, hg⟩
  obtain ⟨s, hs⟩ := (C61_client_returns_iff (N := N) hp ht).2 fun pre i post h => not_clientFatal (hnf pre i post h)
  obtain ⟨ms', hp', hlines⟩ := C45_client_lines hs
  rw [hp] at hp'
  cases hp'
  obtain ⟨cs', hl, hcs'⟩ := hlines ht hv
  obtain ⟨ms'', hp'', hrun, hcalls⟩ := C44_calls hg
  rw [hp] at hp''
  cases hp''
  have hc := hcalls ht
  obtain rfl := C44_calls_unique hc hcs'
  have hb : (Firmware.new o0').rxBuffer.length = 256 := List.length_replicate
  -- all the calls that are made come from packets late enough for the getters
  have hweek : ∀ c ∈ inavsOf g.calls, 7650 ≤ c.gst.abs := by
    exact callsForAll_late hc hsec
  obtain ⟨f, rest, hf⟩ := C45_session_returns (S := S') hl (Firmware.new o0') hb 0 (by
    intro pre hpre _
    obtain ⟨post, hpost⟩ := hpre
    have hrun'' : run S' o0' (pre ++ post) = .ok o1' := by rw [hpost]; exact hrun'
    obtain ⟨o, ho⟩ : ∃ o, run S' o0' pre = .ok o := by
      unfold Verif.run at hrun'' ⊢
      rw [loopM_append] at hrun''
      cases hx : loopM (fun o c => Call.run S' o c) pre o0' with
      | ok o => exact ⟨o, rfl⟩
      | panic w => rw [hx] at hrun''; cases hrun''
    refine ⟨o, ho, fun kd svn => ?_⟩
    exact C38_get_returns hS' h0' ho (fun c hc => hweek c (by
      rw [← hpost]
      simp only [inavsOf, List.filterMap_append, List.mem_append]
      exact .inl hc)) kd svn)
  rw [List.replicate_zero, List.nil_append] at hf
  obtain ⟨h1, h2, _⟩ := C45_session hl _ hb 0 (f' := f) (rest := rest) (by rw [List.replicate_zero, List.nil_append]; exact hf)
  refine ⟨s, hs, hl, f, rest, by rw [hl.length]; exact hf, ?_, ?_⟩
  · rw [h1]; rfl
  · have h2 : run S' o0' g.calls = .ok f.osnma := h2
    rw [hrun'] at h2
    exact (Res.ok.inj h2).symm

/-- **C61.**  The serial set-up is a remote `galmon-osnma`: if `galmon-osnma` runs to the end on an input stream (all of whose packets are of
existing satellites), then the client does too; the firmware, started with the same black box, processes all the lines that the client sends;
and it makes the same calls and ends with the same black box as `galmon-osnma`. -/
theorem C61_remote (hS : S.Consistent) {o0 : Osnma C} (h0 : o0.Fresh S) {checks : Bool} {input : Source} {ms : List N.Msg} {e : Option IoError}
    (hp : packetsOf N input.bytes input.fails = .ok (ms, e)) (ht : checks = true ∨ ∀ i ∈ inavPackets N ms, i.TimeOk)
    (hv : ∀ i ∈ inavPackets N ms, 1 ≤ i.gnssSv.toNat ∧ i.gnssSv.toNat ≤ 36) (hsec : ∀ i ∈ inavPackets N ms, 7650 ≤ i.secs)
    {g : GalmonOsnma C} (hg : galmonOsnmaMain S N checks o0 input = .ok (g, e)) :
    ∃ s, clientMain N checks input = .ok (s, e) ∧ LinesFor g.calls s.sent ∧
      ∃ f rest, (Firmware.new o0).spins S s.sent.length s.sent.flatten = .ok (some (f, rest)) ∧ f.calls = g.calls ∧ f.osnma = g.osnma := by
  obtain ⟨_, _, hrun, _⟩ := C44_calls hg
  exact C61_remote_other hS h0 hp ht hv hsec hg hS h0 hrun

end Verif
