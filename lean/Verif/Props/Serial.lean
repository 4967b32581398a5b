import Verif.Lemmas.Serial
import Verif.Props.GalmonOsnma

/-! # C45: the serial line protocol, and C59: the status lines of the firmware -/

namespace Verif
open GalileoInav

variable {C : Crypto} {S : Storage} {N : Navmon}

/-- **C45, one line.**  When the firmware (in any state) receives the line that the client writes for a call, after any number of LF left
over from before, it reads exactly the line up to its LF and makes exactly that call on the black box. -/
theorem C45_line (f : Firmware C) (hb : f.rxBuffer.length = 256) {c : Call} {line : List Byte} (hl : LineFor c line) (n : Nat)
    (rest : List Byte) {f' : Firmware C} {rest' : List Byte}
    (h : f.spin S (List.replicate n 0x0a#8 ++ line ++ rest) = .ok (some (f', rest'))) :
    rest' = 0x0a#8 :: rest ∧ c.run S f.osnma = .ok f'.osnma ∧ f'.calls = f.calls ++ [c] ∧ f'.rxBuffer.length = 256 := by
  obtain ⟨len, buffer', h1, h2, h3⟩ := rx_line (C := C) (S := S) hb hl n rest
  unfold Firmware.spin at h
  simp only [Firmware.write] at h
  rw [h1] at h
  simp only at h
  obtain ⟨text, _, ht⟩ := h3 { f with tx := f.tx ++ ascii "READY\r\n", rxBuffer := buffer' } rfl
  simp only [Res.bind_eq_ok, Res.pure_eq, Res.ok.injEq, Option.some.injEq, Prod.mk.injEq] at h
  obtain ⟨f1, hf1, f2, hf2, rfl, rfl⟩ := h
  rw [ht] at hf1
  simp only [Firmware.call, Firmware.write, Res.bind_eq_ok, Res.pure_eq, Res.ok.injEq] at hf1
  obtain ⟨o, ho, rfl⟩ := hf1
  obtain ⟨_, l4, l0, _, _, rfl⟩ := printAuthStatus_ok hf2
  exact ⟨rfl, ho, rfl, h2⟩

/-- **C45.**  The firmware does not wait or panic on such a line unless the black box panics. -/
theorem C45_line_returns (f : Firmware C) (hb : f.rxBuffer.length = 256) {c : Call} {line : List Byte} (hl : LineFor c line) (n : Nat)
    (rest : List Byte) {o : Osnma C} (hc : c.run S f.osnma = .ok o) (hg : GettersReturn S o) :
    ∃ f', f.spin S (List.replicate n 0x0a#8 ++ line ++ rest) = .ok (some (f', 0x0a#8 :: rest)) := by
  obtain ⟨len, buffer', h1, h2, h3⟩ := rx_line (C := C) (S := S) hb hl n rest
  obtain ⟨text, _, ht⟩ := h3 { f with tx := f.tx ++ ascii "READY\r\n", rxBuffer := buffer' } rfl
  unfold Firmware.spin
  simp only [Firmware.write]
  rw [h1]
  simp only
  rw [ht]
  simp only [Firmware.call, Firmware.write, hc, Res.ok_bind, Res.pure_eq]
  obtain ⟨f', hf'⟩ := printAuthStatus_returns (S := S)
    (f := { f with osnma := o, tx := f.tx ++ ascii "READY\r\n" ++ text, rxBuffer := buffer', calls := f.calls ++ [c] }) hg
  rw [hf']
  exact ⟨f', rfl⟩

/-- **C45.**  Every line, with its CR LF, fits the 256-byte buffer of the firmware. -/
theorem C45_fits {c : Call} {line : List Byte} (hl : LineFor c line) : line.length ≤ 60 := by
  obtain ⟨svn, gst, band, data, hc, rfl, hlen⟩ := hl.parts
  have := content_length gst band data (svn := svn.val) (by have := svn.h36; omega)
  simp only [List.length_append, List.length_cons, List.length_nil]
  omega

/-- **C45, sequences.**  Fed with the lines for a sequence of calls, one after the other, the firmware makes
exactly these calls, in order; only the LF of the last line is left. -/
theorem C45_session {cs : List Call} {lines : List (List Byte)} (hl : LinesFor cs lines) : ∀ (f : Firmware C), f.rxBuffer.length = 256 →
    ∀ (n : Nat) {f' : Firmware C} {rest : List Byte},
    f.spins S cs.length (List.replicate n 0x0a#8 ++ lines.flatten) = .ok (some (f', rest)) →
    f'.calls = f.calls ++ cs ∧ run S f.osnma cs = .ok f'.osnma ∧ (cs ≠ [] → rest = [0x0a#8]) := by
  induction hl with
  | nil =>
    intro f hb n f' rest h
    simp only [List.length_nil, Firmware.spins, Res.ok.injEq, Option.some.injEq, Prod.mk.injEq] at h
    obtain ⟨rfl, _⟩ := h
    exact ⟨by simp, rfl, fun h => absurd rfl h⟩
  | @cons c line cs lines hline hrest ih =>
    intro f hb n f' rest h
    simp only [List.length_cons, Firmware.spins, Res.bind_eq_ok, List.flatten_cons] at h
    obtain ⟨r, hr, h⟩ := h
    rw [← List.append_assoc] at hr
    cases r with
    | none => cases h
    | some p =>
      obtain ⟨f1, rest1⟩ := p
      obtain ⟨rfl, hc, hcalls, hb1⟩ := C45_line f hb hline n lines.flatten hr
      obtain ⟨e1, e2, e3⟩ := ih f1 hb1 1 h
      refine ⟨by rw [e1, hcalls]; simp, ?_, fun _ => ?_⟩
      · unfold run at e2 ⊢
        rw [loopM_cons, hc]; exact e2
      · cases hrest with
        | nil =>
          simp only [List.length_nil, Firmware.spins, Res.ok.injEq, Option.some.injEq, Prod.mk.injEq] at h
          exact h.2.symm
        | cons _ _ => exact e3 (by simp)

/-- **C45, sequences.**  And it does process all of them, unless the black box panics. -/
theorem C45_session_returns {cs : List Call} {lines : List (List Byte)} (hl : LinesFor cs lines) : ∀ (f : Firmware C), f.rxBuffer.length = 256 →
    ∀ (n : Nat), (∀ pre, pre <+: cs → pre ≠ [] → ∃ o, run S f.osnma pre = .ok o ∧ GettersReturn S o) →
    ∃ f' rest, f.spins S cs.length (List.replicate n 0x0a#8 ++ lines.flatten) = .ok (some (f', rest)) := by
  induction hl with
  | nil => intro f hb n h; exact ⟨f, _, rfl⟩
  | @cons c line cs lines hline hrest ih =>
    intro f hb n h
    obtain ⟨o, ho, hg⟩ := h [c] (by simp) (by simp)
    have hc : c.run S f.osnma = .ok o := by
      unfold run at ho
      rw [loopM_cons] at ho
      obtain ⟨o', h1, h2⟩ := Res.bind_eq_ok.1 ho
      cases h2; exact h1
    obtain ⟨f1, h1⟩ := C45_line_returns f hb hline n lines.flatten hc hg
    obtain ⟨_, hc1, _, hb1⟩ := C45_line f hb hline n lines.flatten h1
    obtain ⟨f', rest, h2⟩ := ih f1 hb1 1 (by
      intro pre hp hne
      obtain ⟨o2, h3, h4⟩ := h (c :: pre) (List.cons_prefix_cons.2 ⟨rfl, hp⟩) (by simp)
      refine ⟨o2, ?_, h4⟩
      unfold run at h3 ⊢
      rw [loopM_cons, hc1] at h3
      exact h3)
    refine ⟨f', rest, ?_⟩
    simp only [List.length_cons, Firmware.spins, List.flatten_cons]
    rw [← List.append_assoc, h1]
    exact h2

/-! ## The client -/

/-- The lines sent for packets after those `seen`. -/
theorem client_loop {checks : Bool} {gis : List (Option GalileoInav)} :
    ∀ {seen : List GalileoInav} {s s' : Client}, s.sel.LastOk seen → s.sel.CurrentOk seen →
      (checks = true ∨ ∀ i, some i ∈ gis → i.sigid.isSome = true → i.TimeOk) →
      (∀ i, some i ∈ gis → i.sigid.isSome = true → 1 ≤ i.gnssSv.toNat ∧ i.gnssSv.toNat ≤ 36) →
      loopM (Client.step checks) gis s = .ok s' →
      ∃ cs lines, s'.sent = s.sent ++ lines ∧ LinesFor cs lines ∧ CallsForAll seen ((gis.filterMap id).filter fun i => i.sigid.isSome) cs := by
  induction gis with
  | nil =>
    intro seen s s' hl hc ht hv h
    cases h
    exact ⟨[], [], by simp, .nil, .nil _⟩
  | cons gi gis ih =>
    intro seen s s' hl hc ht hv h
    rw [loopM_cons] at h
    obtain ⟨x, hs, hrest⟩ := Res.bind_eq_ok.1 h
    clear h
    have ht' : checks = true ∨ ∀ i, some i ∈ gis → i.sigid.isSome = true → i.TimeOk := ht.imp id fun h i hi => h i (by simp [hi])
    have hv' : ∀ i, some i ∈ gis → i.sigid.isSome = true → 1 ≤ i.gnssSv.toNat ∧ i.gnssSv.toNat ≤ 36 := fun i hi => hv i (by simp [hi])
    unfold Client.step at hs
    cases gi with
    | none =>
      cases hs
      obtain ⟨cs, lines, h1, h2, h3⟩ := ih hl hc ht' hv' hrest
      exact ⟨cs, lines, h1, h2, by simpa using h3⟩
    | some i =>
      cases hi : i.sigid with
      | none =>
        simp only [hi] at hs
        cases hs
        obtain ⟨cs, lines, h1, h2, h3⟩ := ih hl hc ht' hv' hrest
        exact ⟨cs, lines, h1, h2, by simpa [hi] using h3⟩
      | some sigid =>
        simp only [hi, Res.bind_eq_ok] at hs
        obtain ⟨⟨sel, r⟩, ha, hs⟩ := hs
        have hti : checks = true ∨ i.TimeOk := ht.imp id fun h => h i (by simp) (by rw [hi]; rfl)
        have hvi := hv i (by simp) (by rw [hi]; rfl)
        have e : ((some i :: gis).filterMap id).filter (fun i => i.sigid.isSome) = i :: ((gis.filterMap id).filter fun i => i.sigid.isSome) := by
          simp [hi]
        rw [e]
        cases r with
        | none =>
          simp only at hs
          cases hs
          obtain ⟨a1, a2, a3⟩ := Selector.accept_ok ha hl hc hti
          obtain ⟨cs, lines, h1, h2, h3⟩ := ih (s := { s with sel := sel }) a1 a2 ht' hv' hrest
          exact ⟨cs, lines, h1, h2, .dropped (fun hu => a3 hu.2.1) h3⟩
        | some gst =>
          simp only at hs
          obtain ⟨a1, a2, a3, a4⟩ := Selector.accept_ok ha hl hc hti
          have unused : ∀ {s' : Client}, loopM (Client.step checks) gis { s with sel := sel } = .ok s' → ¬ i.Used seen →
              ∃ cs lines, s'.sent = s.sent ++ lines ∧ LinesFor cs lines ∧
                CallsForAll seen (i :: ((gis.filterMap id).filter fun i => i.sigid.isSome)) cs := by
            intro s' hrest hn
            obtain ⟨cs, lines, h1, h2, h3⟩ := ih (s := { s with sel := sel }) a1 a2 ht' hv' hrest
            exact ⟨cs, lines, h1, h2, .dropped hn h3⟩
          cases hb : bandOf sigid with
          | none =>
            rw [hb] at hs
            cases hs
            refine unused hrest fun hu => ?_
            obtain ⟨hbd, _⟩ := hu
            rw [hi] at hbd
            rcases bandOf_eq sigid with ⟨_, k1, k2⟩ | ⟨k, _⟩ | ⟨k, _⟩
            · rcases hbd with hbd | hbd
              · exact k1 (Option.some.inj hbd)
              · exact k2 (Option.some.inj hbd)
            · rw [hb] at k; cases k
            · rw [hb] at k; cases k
          | some band =>
            rw [hb] at hs
            simp only [Res.bind_eq_ok] at hs
            obtain ⟨ty, hty, hs⟩ := hs
            split at hs
            · rename_i h63
              cases hs
              subst h63
              exact unused hrest fun hu => hu.2.2 ((firstType_ok hty).1 rfl)
            · rename_i h63
              simp only [Res.bind_eq_ok] at hs
              obtain ⟨word, hword, hs⟩ := hs
              have hword := GalmonOsnma.toArray_ok hword
              have hband : i.OnBand band ∧ (i.sigid = some 1 ∨ i.sigid = some 5) := by
                rw [hi]
                rcases bandOf_eq sigid with ⟨k, _⟩ | ⟨k, rfl⟩ | ⟨k, rfl⟩
                · rw [hb] at k; cases k
                · rw [hb] at k; cases k; exact ⟨hi, .inl rfl⟩
                · rw [hb] at k; cases k; exact ⟨hi, .inr rfl⟩
              have hused : i.Used seen := ⟨hband.2, a3, (used_iff_not_dummy hty).1 h63⟩
              let svn : Svn := ⟨i.gnssSv.toNat, hvi.1, hvi.2⟩
              cases hres : i.reserved1 with
              | none =>
                rw [hres] at hs
                cases hs
                obtain ⟨cs, lines, h1, h2, h3⟩ := ih (s := ⟨sel, s.sent ++ [sendInav word i.gnssSv.toNat gst band]⟩) a1 a2 ht' hv' hrest
                refine ⟨[.inav word svn gst band] ++ cs, sendInav word i.gnssSv.toNat gst band :: lines, by rw [h1]; simp,
                  .cons (.of_inav word svn gst band) h2, ?_⟩
                refine .used hused ⟨word, svn, gst, band, hword, rfl, a4, hband.1, ?_⟩ h3
                rw [hres]
              | some d =>
                rw [hres] at hs
                simp only [Res.bind_eq_ok, Res.pure_eq, Res.ok.injEq] at hs
                obtain ⟨data, hdata, rfl⟩ := hs
                have hdata := GalmonOsnma.toArray_ok hdata
                obtain ⟨cs, lines, h1, h2, h3⟩ := ih (s := ⟨sel, s.sent ++ [sendInav word i.gnssSv.toNat gst band] ++
                  [sendOsnma data i.gnssSv.toNat gst band]⟩) a1 a2 ht' hv' hrest
                refine ⟨[.inav word svn gst band, .osnma data svn gst] ++ cs, sendInav word i.gnssSv.toNat gst band ::
                  sendOsnma data i.gnssSv.toNat gst band :: lines, by rw [h1]; simp,
                  .cons (.of_inav word svn gst band) (.cons (.of_osnma data svn gst band) h2), ?_⟩
                refine .used hused ⟨word, svn, gst, band, hword, rfl, a4, hband.1, ?_⟩ h3
                rw [hres]
                exact ⟨data, hdata, rfl⟩

/-- **C44 and C45 for the client.**  For every stream of packets of satellites 1..36, the lines sent are those of exactly the
calls that `galmon-osnma` would make for that stream (`C44_calls`). -/
theorem C45_client_lines {checks : Bool} {input : Source} {s : Client} {e : Option IoError}
    (h : clientMain N checks input = .ok (s, e)) :
    ∃ ms, packetsOf N input.bytes input.fails = .ok (ms, e) ∧
      ((checks = true ∨ ∀ i ∈ inavPackets N ms, i.TimeOk) → (∀ i ∈ inavPackets N ms, 1 ≤ i.gnssSv.toNat ∧ i.gnssSv.toNat ≤ 36) →
        ∃ cs, LinesFor cs s.sent ∧ CallsForAll [] (inavPackets N ms) cs) := by
  unfold clientMain at h
  simp only [Res.bind_eq_ok] at h
  obtain ⟨⟨ms, e'⟩, hp, s', h, h'⟩ := h
  cases h'
  refine ⟨ms, hp, fun ht hv => ?_⟩
  have hl : Selector.new.LastOk [] := by unfold Selector.LastOk; simp [Selector.new]
  have hc : Selector.new.CurrentOk [] := rfl
  have hm : ∀ i, some i ∈ ms.map N.gi → i.sigid.isSome = true → i ∈ inavPackets N ms := by
    intro i hi hs
    obtain ⟨m, hm, hg⟩ := List.mem_map.1 hi
    exact List.mem_filter.2 ⟨List.mem_filterMap.2 ⟨m, hm, hg⟩, hs⟩
  obtain ⟨cs, lines, h1, h2, h3⟩ := client_loop (s := ⟨.new, []⟩) hl hc (ht.imp id fun ht i hi hs => ht i (hm i hi hs))
    (fun i hi hs => hv i (hm i hi hs)) h
  refine ⟨cs, by rw [h1]; simpa using h2, ?_⟩
  rw [List.filterMap_map] at h3
  exact h3

/-- **C45, end to end.**  For every stream of packets of satellites 1..36, the firmware, fed with everything the client sends for it,
makes exactly the calls that `galmon-osnma` would make (`C44_calls`), and leaves the black box in that state. -/
theorem C45_end_to_end {checks : Bool} {input : Source} {s : Client} {e : Option IoError} {ms : List N.Msg} {o : Osnma C} {f : Firmware C}
    {rest : List Byte} (h : clientMain N checks input = .ok (s, e)) (hp : packetsOf N input.bytes input.fails = .ok (ms, e))
    (ht : checks = true ∨ ∀ i ∈ inavPackets N ms, i.TimeOk) (hv : ∀ i ∈ inavPackets N ms, 1 ≤ i.gnssSv.toNat ∧ i.gnssSv.toNat ≤ 36)
    (hf : (Firmware.new o).spins S s.sent.length s.sent.flatten = .ok (some (f, rest))) :
    CallsForAll [] (inavPackets N ms) f.calls ∧ run S o f.calls = .ok f.osnma := by
  obtain ⟨ms', hp', hx⟩ := C45_client_lines h
  rw [hp] at hp'
  cases hp'
  obtain ⟨cs, h1, h2⟩ := hx ht hv
  have hlen : s.sent.length = cs.length := by
    clear hx h2 hf h
    generalize s.sent = l at h1
    induction h1 with
    | nil => rfl
    | cons _ _ ih => simp [ih]
  rw [hlen] at hf
  obtain ⟨e1, e2, _⟩ := C45_session h1 (Firmware.new o) List.length_replicate 0 (by simpa using hf)
  rw [show f.calls = cs from e1]
  exact ⟨h2, e2⟩

/-! ## C59: what the firmware reports -/

/-- **C59.**  After each line of the client the firmware has printed `READY`, the echo of the call and two lines that list, in order,
exactly the satellites for which the black box now has authenticated data, with the time of week of the data. -/
theorem C59_status (f : Firmware C) (hb : f.rxBuffer.length = 256) {c : Call} {line : List Byte} (hl : LineFor c line) (n : Nat)
    (rest : List Byte) {f' : Firmware C} {rest' : List Byte}
    (h : f.spin S (List.replicate n 0x0a#8 ++ line ++ rest) = .ok (some (f', rest'))) :
    ∃ echo l4 l0, EchoOf c echo ∧ StatusLine S f'.osnma .timing l4 ∧ StatusLine S f'.osnma .ced l0 ∧
      f'.tx = f.tx ++ ascii "READY\r\n" ++ echo ++ l4 ++ l0 := by
  obtain ⟨len, buffer', h1, h2, h3⟩ := rx_line (C := C) (S := S) hb hl n rest
  unfold Firmware.spin at h
  simp only [Firmware.write] at h
  rw [h1] at h
  simp only at h
  obtain ⟨text, he, ht⟩ := h3 { f with tx := f.tx ++ ascii "READY\r\n", rxBuffer := buffer' } rfl
  simp only [Res.bind_eq_ok, Res.pure_eq, Res.ok.injEq, Option.some.injEq, Prod.mk.injEq] at h
  obtain ⟨f1, hf1, f2, hf2, rfl, rfl⟩ := h
  rw [ht] at hf1
  simp only [Firmware.call, Firmware.write, Res.bind_eq_ok, Res.pure_eq, Res.ok.injEq] at hf1
  obtain ⟨o, ho, rfl⟩ := hf1
  obtain ⟨_, l4, l0, h4, h0, rfl⟩ := printAuthStatus_ok hf2
  exact ⟨text, l4, l0, he, h4, h0, by simp [Firmware.write]⟩

end Verif
