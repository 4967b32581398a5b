import Verif.Lemmas.SerialExact
import Verif.Props.Serial

/-! # C64: what the firmware does with any bytes on its serial port -/

namespace Verif

variable {C : Crypto} {S : Storage}

/-- **C64, waiting.**  The firmware waits for more bytes exactly as long as there is no complete line. -/
theorem C64_waits (f : Firmware C) (hb : f.rxBuffer.length = 256) (input : List Byte) :
    f.spin S input = .ok none ↔ ¬ ∃ line rest, BeginsWithLine input line rest := by
  unfold Firmware.spin
  simp only [Firmware.write]
  constructor
  · rintro h ⟨line, rest, hl⟩
    rw [hl.rx hb] at h
    simp only at h
    obtain ⟨_, _, h⟩ := Res.bind_eq_ok.1 h
    obtain ⟨_, _, h⟩ := Res.bind_eq_ok.1 h
    cases h
  · intro h
    cases hx : rxLineFrom f.rxBuffer 0 input with
    | none => rfl
    | some x =>
      obtain ⟨len, buffer', rest⟩ := x
      obtain ⟨line, hl, _⟩ := (rxLineFrom_iff input hb (by omega)).1 hx
      exact absurd ⟨line, rest, lineFrom_zero.1 hl⟩ h

/-- **C64, no misreading.**  Whatever the bytes on the serial port: if the firmware gets through a line then the line is valid UTF-8 text that asks for a call
and exactly that call was made, or it has data of another length and no call was made.  The rest of the bytes is left for the next line. -/
theorem C64_no_misreading (f : Firmware C) (hb : f.rxBuffer.length = 256) {input rest : List Byte} {f' : Firmware C}
    (h : f.spin S input = .ok (some (f', rest))) :
    ∃ line s, BeginsWithLine input line rest ∧ Utf8Of line s ∧ f'.rxBuffer.length = 256 ∧
      ((∃ c, AsksFor s c ∧ c.run S f.osnma = .ok f'.osnma ∧ f'.calls = f.calls ++ [c]) ∨
       (AsksNothing s ∧ f'.osnma = f.osnma ∧ f'.calls = f.calls)) := by
  unfold Firmware.spin at h
  simp only [Firmware.write] at h
  cases hx : rxLineFrom f.rxBuffer 0 input with
  | none => rw [hx] at h; cases h
  | some x =>
    obtain ⟨len, buffer', rest'⟩ := x
    rw [hx] at h
    simp only [Res.bind_eq_ok, Res.pure_eq, Res.ok.injEq, Option.some.injEq, Prod.mk.injEq] at h
    obtain ⟨f1, h1, f2, h2, rfl, rfl⟩ := h
    obtain ⟨line, hl, hlen, hbuf⟩ := (rxLineFrom_iff input hb (by omega)).1 hx
    rw [Nat.zero_add] at hlen hbuf
    rw [List.take_zero, List.nil_append] at hbuf
    subst hlen hbuf
    have hl := lineFrom_zero.1 hl
    obtain ⟨s, hs, hrx, hc⟩ := processLine_exact ⟨_, rfl⟩ h1
    obtain ⟨_, l4, l0, _, _, rfl⟩ := printAuthStatus_ok h2
    refine ⟨line, s, hl, hs, ?_, hc⟩
    simp only [Firmware.write]
    rw [hrx]
    have := hl.length
    simp only [List.length_append, List.length_drop, hb]
    omega

/-- **C64, which lines are survived.**  When a complete line is there the firmware gets through it exactly when it is valid UTF-8 text and either asks for a call
on which the black box does not panic, or has data of another length.  On every other line it panics (the board has to be reset). -/
theorem C64_returns_iff (f : Firmware C) (hb : f.rxBuffer.length = 256) {input line rest : List Byte} (hl : BeginsWithLine input line rest) :
    (∃ f', f.spin S input = .ok (some (f', rest))) ↔
      ∃ s, Utf8Of line s ∧ ((∃ c o, AsksFor s c ∧ c.run S f.osnma = .ok o ∧ GettersReturn S o) ∨ (AsksNothing s ∧ GettersReturn S f.osnma)) := by
  unfold Firmware.spin
  simp only [Firmware.write, hl.rx hb]
  constructor
  · rintro ⟨f', h⟩
    simp only [Res.bind_eq_ok, Res.pure_eq, Res.ok.injEq, Option.some.injEq, Prod.mk.injEq] at h
    obtain ⟨f1, h1, f2, h2, rfl, _⟩ := h
    obtain ⟨s, hs, hrx, hc⟩ := processLine_exact ⟨_, rfl⟩ h1
    have hg := (printAuthStatus_ok h2).1
    refine ⟨s, hs, ?_⟩
    rcases hc with ⟨c, h1, h2, _⟩ | ⟨h1, h2, _⟩
    · exact .inl ⟨c, _, h1, h2, hg⟩
    · exact .inr ⟨h1, by rw [h2] at hg; exact hg⟩
  · rintro ⟨s, hs, ⟨c, o, hc, ho, hg⟩ | ⟨hn, hg⟩⟩
    · obtain ⟨f1, h1, h2⟩ := processLine_asksFor (S := S)
        (f := { f with tx := f.tx ++ ascii "READY\r\n", rxBuffer := line ++ f.rxBuffer.drop line.length }) ⟨_, rfl⟩ hs hc ho
      rw [h1, Res.ok_bind]
      obtain ⟨f2, h3⟩ := printAuthStatus_returns (S := S) (f := f1) (by rw [h2]; exact hg)
      rw [h3]
      exact ⟨f2, rfl⟩
    · obtain ⟨f1, h1, h2⟩ := processLine_asksNothing (S := S)
        (f := { f with tx := f.tx ++ ascii "READY\r\n", rxBuffer := line ++ f.rxBuffer.drop line.length }) ⟨_, rfl⟩ hs hn
      rw [h1, Res.ok_bind]
      obtain ⟨f2, h3⟩ := printAuthStatus_returns (S := S) (f := f1) (by rw [h2]; exact hg)
      rw [h3]
      exact ⟨f2, rfl⟩

/-- **C64, no ambiguity.**  Bytes begin with at most one line, which is at most one text, which asks for at most one call, or for nothing. -/
theorem C64_unambiguous {input line line' rest rest' : List Byte} {s s' : List Char} (h : BeginsWithLine input line rest)
    (h' : BeginsWithLine input line' rest') (hs : Utf8Of line s) (hs' : Utf8Of line' s') :
    line = line' ∧ rest = rest' ∧ s = s' ∧ (∀ c c', AsksFor s c → AsksFor s' c' → c = c') ∧ ∀ c, AsksFor s c → ¬ AsksNothing s' := by
  obtain ⟨rfl, rfl⟩ := h.unique h'
  obtain rfl := hs.unique hs'
  exact ⟨rfl, rfl, rfl, fun _ _ h1 h2 => h1.unique h2, fun _ h1 => h1.not_nothing⟩

theorem exists_chars {l : List Byte} (h : Plain l) : ∃ w : List Char, points w = codes l := by
  obtain ⟨s, _, h2⟩ := utf8_iff.1 (utf8_ascii (l := l) (fun b hb => by have := h b hb; omega))
  exact ⟨s, h2.symm⟩

/-- **C64 and C45.**  The lines of the client are among those that the firmware understands, and ask for the call that the client means. -/
theorem C64_client_line {c : Call} {line : List Byte} (hl : LineFor c line) (rest : List Byte) :
    ∃ content s, BeginsWithLine (line ++ rest) content (0x0a#8 :: rest) ∧ Utf8Of content s ∧ AsksFor s c := by
  obtain ⟨svn, gst, band, data, hc, rfl, hlen⟩ := hl.parts
  have hp := content_plain svn.val gst band data
  have hcont := content_length gst band data (svn := svn.val) (by have := svn.h36; omega)
  obtain ⟨s, hs, hcodes⟩ := utf8_iff.1 (utf8_ascii (l := content svn.val gst band data) (fun b hb => by have := hp b hb; omega))
  have hnot := plain_not_cr hp
  have hd : data ≠ [] := by
    rintro rfl
    rcases hc with ⟨w, hw, _⟩ | ⟨d, hd, _⟩
    · have := w.property; rw [hw] at this; cases this
    · have := d.property; rw [hd] at this; cases this
  have hdl : data.length ≤ 16 := by
    rcases hc with ⟨w, hw, _⟩ | ⟨d, hd, _⟩
    · rw [← hw, w.property]; omega
    · rw [← hd, d.property]; omega
  refine ⟨content svn.val gst band data, s, ⟨content svn.val gst band data, fun h => (hnot _ h).2 rfl, ?_, .inl ⟨by omega, ?_⟩⟩, hs, ?_⟩
  · rw [List.filter_eq_self.2]
    intro b hb
    simpa using (hnot b hb).1
  · simp
  · have plainDec : ∀ n, Plain (decimal n) := fun n b hb => by have := decimal_digits n b hb; omega
    obtain ⟨w1, e1⟩ := exists_chars (plainDec svn.val)
    obtain ⟨w2, e2⟩ := exists_chars (plainDec gst.wn)
    obtain ⟨w3, e3⟩ := exists_chars (plainDec gst.tow)
    obtain ⟨w4, e4⟩ := exists_chars (plainDec (bandDigit band))
    obtain ⟨w5, e5⟩ := exists_chars (hexEncode_plain data)
    have hreq : Request s svn gst band w5 := by
      refine request_iff.2 ⟨w1, w2, w3, w4, [], ?_, ?_, ?_, ?_, ?_⟩
      · rw [← hcodes, content_words svn.val gst band hd, e1, e2, e3, e4, e5]
      · rw [e1]; exact parseUint_decimal (by have := svn.h36; omega)
      · rw [e2]; exact parseUint_decimal gst.hwn
      · rw [e3]; exact parseUint_decimal (Nat.lt_trans gst.htow (by decide))
      · rw [e4]; exact parseUint_decimal (by cases band <;> decide)
    have hhex : HexOf w5 data := hexDecode_iff.1 (by rw [e5]; exact hexDecode_encode data)
    rcases hc with ⟨w, hw, rfl⟩ | ⟨d, hd, rfl⟩
    · exact ⟨w5, hreq, by rw [hw]; exact hhex⟩
    · exact ⟨band, w5, hreq, by rw [hd]; exact hhex⟩

/-! ## Examples -/

/-- The line that was written by hand: tabs, a plus sign, upper case and a further word are accepted. -/
example : AsksFor "+07\t1251  345601 1 00ffABCDEF later".toList
    (.osnma ⟨[0x00#8, 0xff#8, 0xab#8, 0xcd#8, 0xef#8], rfl⟩ ⟨7, by decide, by decide⟩ ⟨1251, 345601, by decide, by decide⟩) := by
  refine ⟨.E1B, "00ffABCDEF".toList, request_iff.2 ⟨"+07".toList, "1251".toList, "345601".toList, "1".toList, [points "later".toList], ?_, ?_, ?_, ?_, ?_⟩, hexDecode_iff.1 ?_⟩
  all_goals decide +kernel

/-- A CR after a CR is an empty line, on which the firmware panics (so does every line without five words). -/
theorem C64_empty_line_panics (f : Firmware C) (hb : f.rxBuffer.length = 256) (rest : List Byte) :
    (f.spin S (0x0d#8 :: rest)).Panics := by
  have hl : BeginsWithLine (0x0d#8 :: rest) [] rest := ⟨[], by simp, rfl, .inl ⟨by decide, rfl⟩⟩
  cases hx : f.spin S (0x0d#8 :: rest) with
  | panic w => exact ⟨w, rfl⟩
  | ok r =>
    exfalso
    cases r with
    | none => exact (C64_waits f hb _).1 hx ⟨_, _, hl⟩
    | some p =>
      obtain ⟨f', rest'⟩ := p
      obtain ⟨line, s, h1, hs, _, h2⟩ := C64_no_misreading f hb hx
      obtain ⟨rfl, rfl⟩ := hl.unique h1
      have : s = [] := hs.unique rfl
      subst this
      have nope : ∀ svn gst band data, ¬ Request [] svn gst band data := by
        rintro svn gst band data ⟨w1, w2, w3, w4, more, hw, _⟩
        have := hw.unique (.nil (by simp))
        cases this
      rcases h2 with ⟨c, hc, _⟩ | ⟨⟨svn, gst, band, data, hr, _⟩, _⟩
      · cases c with
        | inav w svn gst band => obtain ⟨data, hr, _⟩ := hc; exact nope _ _ _ _ hr
        | osnma d svn gst => obtain ⟨band, data, hr, _⟩ := hc; exact nope _ _ _ _ hr
      · exact nope _ _ _ _ hr

end Verif
