import Verif.Lemmas.Serial
import Verif.Lemmas.TextExact

/-! # The firmware on any bytes -/

namespace Verif

variable {C : Crypto} {S : Storage}

/-! ## Lines -/

/-- `BeginsWithLine` when `j` bytes of the line were already read. -/
def LineFrom (j : Nat) (input line rest : List Byte) : Prop :=
  ∃ raw : List Byte, 0x0d#8 ∉ raw ∧ line = raw.filter (fun b => b ≠ 0x0a#8) ∧
    ((j + line.length < 256 ∧ input = raw ++ 0x0d#8 :: rest) ∨
     (j + line.length = 256 ∧ raw.getLast? ≠ some 0x0a#8 ∧ input = raw ++ rest))

theorem lineFrom_zero {input line rest : List Byte} : LineFrom 0 input line rest ↔ BeginsWithLine input line rest := by
  unfold LineFrom BeginsWithLine
  simp only [Nat.zero_add]

theorem lineFrom_full {input line rest : List Byte} : LineFrom 256 input line rest ↔ line = [] ∧ rest = input := by
  constructor
  · rintro ⟨raw, hcr, hl, h | ⟨h1, h2, h3⟩⟩
    · omega
    · have hl0 : line = [] := List.length_eq_zero_iff.1 (by omega)
      refine ⟨hl0, ?_⟩
      rw [hl0] at hl
      rcases List.eq_nil_or_concat raw with rfl | ⟨l, b, rfl⟩
      · simpa using h3.symm
      · exfalso
        apply h2
        have := List.filter_eq_nil_iff.1 hl.symm b (by simp)
        simp only [ne_eq, decide_not, Bool.not_eq_true', decide_eq_false_iff_not, Decidable.not_not] at this
        rw [List.concat_eq_append, List.getLast?_append]
        simp [this]
  · rintro ⟨rfl, rfl⟩
    exact ⟨[], by simp, rfl, .inr ⟨rfl, by simp, rfl⟩⟩

theorem lineFrom_nil {j : Nat} (hj : j < 256) {line rest : List Byte} : ¬ LineFrom j [] line rest := by
  rintro ⟨raw, hcr, hl, ⟨_, h⟩ | ⟨h1, h2, h3⟩⟩
  · simp at h
  · have : raw = [] := (List.append_eq_nil_iff.1 h3.symm).1
    subst this
    subst hl
    simp at h1
    omega

theorem lineFrom_lf {j : Nat} (hj : j < 256) {input line rest : List Byte} :
    LineFrom j (0x0a#8 :: input) line rest ↔ LineFrom j input line rest := by
  constructor
  · rintro ⟨raw, hcr, hl, ⟨h1, h2⟩ | ⟨h1, h2, h3⟩⟩
    · cases raw with
      | nil => simp at h2
      | cons b raw =>
        rw [List.cons_append, List.cons.injEq] at h2
        obtain ⟨rfl, h2⟩ := h2
        exact ⟨raw, fun h => hcr (by simp [h]), by simpa using hl, .inl ⟨h1, h2⟩⟩
    · cases raw with
      | nil => subst hl; simp at h1; omega
      | cons b raw =>
        rw [List.cons_append, List.cons.injEq] at h3
        obtain ⟨rfl, h3⟩ := h3
        refine ⟨raw, fun h => hcr (by simp [h]), by simpa using hl, .inr ⟨h1, ?_, h3⟩⟩
        cases raw with
        | nil => simp
        | cons b raw => rwa [List.getLast?_cons_cons] at h2
  · rintro ⟨raw, hcr, hl, ⟨h1, h2⟩ | ⟨h1, h2, h3⟩⟩
    · exact ⟨0x0a#8 :: raw, by simpa using hcr, by simpa using hl, .inl ⟨h1, by rw [h2]; rfl⟩⟩
    · refine ⟨0x0a#8 :: raw, by simpa using hcr, by simpa using hl, .inr ⟨h1, ?_, by rw [h3]; rfl⟩⟩
      cases raw with
      | nil => subst hl; simp at h1; omega
      | cons b raw => rwa [List.getLast?_cons_cons]

theorem lineFrom_cr {j : Nat} (hj : j < 256) {input line rest : List Byte} :
    LineFrom j (0x0d#8 :: input) line rest ↔ line = [] ∧ rest = input := by
  constructor
  · rintro ⟨raw, hcr, hl, ⟨h1, h2⟩ | ⟨h1, h2, h3⟩⟩
    · cases raw with
      | nil => subst hl; exact ⟨rfl, by simpa using h2.symm⟩
      | cons b raw =>
        rw [List.cons_append, List.cons.injEq] at h2
        exact absurd (by rw [h2.1]; simp) hcr
    · cases raw with
      | nil => subst hl; simp at h1; omega
      | cons b raw =>
        rw [List.cons_append, List.cons.injEq] at h3
        exact absurd (by rw [h3.1]; simp) hcr
  · rintro ⟨rfl, rfl⟩
    exact ⟨[], by simp, rfl, .inl ⟨by simpa using hj, rfl⟩⟩

theorem lineFrom_cons {j : Nat} (hj : j < 256) {c : Byte} (h1 : c ≠ 0x0a#8) (h2 : c ≠ 0x0d#8) {input line rest : List Byte} :
    LineFrom j (c :: input) line rest ↔ ∃ line', line = c :: line' ∧ LineFrom (j + 1) input line' rest := by
  constructor
  · rintro ⟨raw, hcr, hl, ⟨h3, h4⟩ | ⟨h3, h4, h5⟩⟩
    · cases raw with
      | nil => rw [List.nil_append, List.cons.injEq] at h4; exact absurd h4.1 h2
      | cons b raw =>
        rw [List.cons_append, List.cons.injEq] at h4
        obtain ⟨rfl, h4⟩ := h4
        rw [List.filter_cons_of_pos (by simpa using h1)] at hl
        subst hl
        exact ⟨_, rfl, raw, fun h => hcr (by simp [h]), rfl, .inl ⟨by rw [List.length_cons] at h3; omega, h4⟩⟩
    · cases raw with
      | nil => subst hl; simp at h3; omega
      | cons b raw =>
        rw [List.cons_append, List.cons.injEq] at h5
        obtain ⟨rfl, h5⟩ := h5
        rw [List.filter_cons_of_pos (by simpa using h1)] at hl
        subst hl
        refine ⟨_, rfl, raw, fun h => hcr (by simp [h]), rfl, .inr ⟨by rw [List.length_cons] at h3; omega, ?_, h5⟩⟩
        cases raw with
        | nil => simp
        | cons b raw => rwa [List.getLast?_cons_cons] at h4
  · rintro ⟨line', rfl, raw, hcr, hl, ⟨h3, h4⟩ | ⟨h3, h4, h5⟩⟩
    · refine ⟨c :: raw, ?_, ?_, .inl ⟨by rw [List.length_cons]; omega, by rw [h4]; rfl⟩⟩
      · intro h
        rcases List.mem_cons.1 h with h | h
        · exact h2 h.symm
        · exact hcr h
      · rw [List.filter_cons_of_pos (by simpa using h1), hl]
    · refine ⟨c :: raw, ?_, ?_, .inr ⟨by rw [List.length_cons]; omega, ?_, by rw [h5]; rfl⟩⟩
      · intro h
        rcases List.mem_cons.1 h with h | h
        · exact h2 h.symm
        · exact hcr h
      · rw [List.filter_cons_of_pos (by simpa using h1), hl]
      · cases raw with
        | nil => simpa using h1
        | cons b raw => rwa [List.getLast?_cons_cons]

theorem set_take_drop {buffer : List Byte} {j : Nat} (hb : buffer.length = 256) {c : Byte} {line : List Byte} (hj : j + 1 + line.length ≤ 256) :
    (buffer.set j c).take (j + 1) ++ line ++ (buffer.set j c).drop (j + 1 + line.length) =
      buffer.take j ++ c :: line ++ buffer.drop (j + (line.length + 1)) := by
  apply List.ext_getElem?
  intro k
  simp only [List.getElem?_append, List.length_append, List.length_take, List.length_set, hb, List.getElem?_drop,
    List.getElem?_take, List.getElem?_set, List.length_cons]
  rw [Nat.min_eq_left (by omega), Nat.min_eq_left (by omega)]
  by_cases h1 : k < j
  · rw [if_pos (by omega), if_pos (by omega), if_pos (by omega), if_neg (by omega), if_pos (by omega), if_pos h1, if_pos h1]
  · by_cases h2 : k = j
    · subst h2
      rw [if_pos (by omega), if_pos (by omega), if_pos (by omega), if_pos rfl, if_pos (by omega), if_pos (by omega), if_neg (by omega)]
      simp
    · by_cases h3 : k < j + 1 + line.length
      · rw [if_pos (by omega), if_neg (by omega), if_pos (by omega), if_neg (by omega)]
        rw [show k - j = (k - (j + 1)) + 1 by omega, List.getElem?_cons_succ]
      · rw [if_neg (by omega), if_neg (by omega), if_neg (by omega)]
        congr 1; omega

/-- `rx_line` is exact. -/
theorem rxLineFrom_iff : ∀ (input : List Byte) {buffer : List Byte} {j : Nat}, buffer.length = 256 → j ≤ 256 →
    ∀ {len : Nat} {buffer' rest : List Byte}, rxLineFrom buffer j input = some (len, buffer', rest) ↔
      ∃ line, LineFrom j input line rest ∧ len = j + line.length ∧ buffer' = buffer.take j ++ line ++ buffer.drop (j + line.length) := by
  have full : ∀ {input buffer : List Byte} {j : Nat}, j = 256 → 
      ∀ {len : Nat} {buffer' rest : List Byte}, rxLineFrom buffer j input = some (len, buffer', rest) ↔
      ∃ line, LineFrom j input line rest ∧ len = j + line.length ∧ buffer' = buffer.take j ++ line ++ buffer.drop (j + line.length) := by
    intro input buffer j hj len buffer' rest
    subst hj
    unfold rxLineFrom
    rw [if_pos rfl]
    simp only [lineFrom_full, Option.some.injEq, Prod.mk.injEq]
    constructor
    · rintro ⟨rfl, rfl, rfl⟩; exact ⟨[], ⟨rfl, rfl⟩, rfl, by simp⟩
    · rintro ⟨_, ⟨rfl, rfl⟩, rfl, rfl⟩; simp
  intro input
  induction input with
  | nil =>
    intro buffer j hb hj len buffer' rest
    by_cases h : j = 256
    · exact full h
    · unfold rxLineFrom
      rw [if_neg h]
      constructor
      · intro h; cases h
      · rintro ⟨line, hl, _⟩
        exact absurd hl (lineFrom_nil (by omega))
  | cons c input ih =>
    intro buffer j hb hj len buffer' rest
    by_cases h : j = 256
    · exact full h
    · have hj' : j < 256 := by omega
      unfold rxLineFrom
      rw [if_neg h]
      dsimp only
      by_cases h1 : c = 0x0a#8
      · subst h1
        rw [if_pos rfl, ih hb hj]
        simp only [lineFrom_lf hj']
      · rw [if_neg h1]
        by_cases h2 : c = 0x0d#8
        · subst h2
          rw [if_pos rfl]
          simp only [lineFrom_cr hj', Option.some.injEq, Prod.mk.injEq]
          constructor
          · rintro ⟨rfl, rfl, rfl⟩; exact ⟨[], ⟨rfl, rfl⟩, rfl, by simp⟩
          · rintro ⟨_, ⟨rfl, rfl⟩, rfl, rfl⟩; simp
        · rw [if_neg h2, ih (by simpa using hb) (by omega)]
          simp only [lineFrom_cons hj' h1 h2]
          constructor
          · rintro ⟨line, hl, rfl, rfl⟩
            have hlen : j + 1 + line.length ≤ 256 := by
              obtain ⟨_, _, _, ⟨h, _⟩ | ⟨h, _⟩⟩ := hl <;> omega
            exact ⟨c :: line, ⟨line, rfl, hl⟩, by rw [List.length_cons]; omega, by rw [set_take_drop hb hlen]; rfl⟩
          · rintro ⟨_, ⟨line, rfl, hl⟩, rfl, rfl⟩
            have hlen : j + 1 + line.length ≤ 256 := by
              obtain ⟨_, _, _, ⟨h, _⟩ | ⟨h, _⟩⟩ := hl <;> omega
            exact ⟨line, hl, by rw [List.length_cons]; omega, by rw [set_take_drop hb hlen]; rfl⟩

theorem BeginsWithLine.length {input line rest : List Byte} (h : BeginsWithLine input line rest) : line.length ≤ 256 := by
  obtain ⟨_, _, _, ⟨h, _⟩ | ⟨h, _⟩⟩ := h <;> omega

theorem BeginsWithLine.rx {buffer input line rest : List Byte} (hb : buffer.length = 256) (h : BeginsWithLine input line rest) :
    rxLineFrom buffer 0 input = some (line.length, line ++ buffer.drop line.length, rest) := by
  refine (rxLineFrom_iff input hb (by omega)).2 ⟨line, lineFrom_zero.2 h, by omega, by simp⟩

theorem BeginsWithLine.unique {input line line' rest rest' : List Byte} (h : BeginsWithLine input line rest)
    (h' : BeginsWithLine input line' rest') : line = line' ∧ rest = rest' := by
  have hb : (List.replicate 256 0#8 : List Byte).length = 256 := List.length_replicate
  have h1 := h.rx hb
  rw [h'.rx hb] at h1
  simp only [Option.some.injEq, Prod.mk.injEq] at h1
  obtain ⟨h2, h3, h4⟩ := h1
  have := congrArg (List.take line.length) h3
  rw [List.take_left, ← h2, List.take_left] at this
  exact ⟨this.symm, h4.symm⟩

/-! ## What is done on a line -/

theorem request_iff {s : List Char} {svn : Svn} {gst : Gst} {band : InavBand} {data : List Char} :
    Request s svn gst band data ↔ ∃ w1 w2 w3 w4 more, splitWhitespace [] (points s) = points w1 :: points w2 :: points w3 :: points w4 :: points data :: more ∧
      parseUint (2 ^ 32) (points w1) = some svn.val ∧ parseUint (2 ^ 16) (points w2) = some gst.wn ∧ parseUint (2 ^ 32) (points w3) = some gst.tow ∧
      parseUint (2 ^ 8) (points w4) = some (bandDigit band) := by
  unfold Request
  constructor
  · rintro ⟨w1, w2, w3, w4, more, h, h1, h2, h3, h4⟩
    exact ⟨w1, w2, w3, w4, more.map points, splitWhitespace_iff.2 h, (parseUint_iff (by decide)).2 h1, (parseUint_iff (by decide)).2 h2,
      (parseUint_iff (by decide)).2 h3, by cases band <;> exact (parseUint_iff (by decide)).2 h4⟩
  · rintro ⟨w1, w2, w3, w4, more, h, h1, h2, h3, h4⟩
    obtain ⟨ws, hw1, hw2⟩ := splitWhitespace_words s [] (by simp)
    rw [points_nil, h] at hw1
    rw [List.nil_append] at hw2
    match ws, hw1, hw2 with
    | [], hw1, _ => simp at hw1
    | [_], hw1, _ => simp at hw1
    | [_, _], hw1, _ => simp at hw1
    | [_, _, _], hw1, _ => simp at hw1
    | [_, _, _, _], hw1, _ => simp at hw1
    | a1 :: a2 :: a3 :: a4 :: a5 :: ws, hw1, hw2 =>
      simp only [List.map_cons, List.cons.injEq] at hw1
      obtain ⟨e1, e2, e3, e4, e5, _⟩ := hw1
      cases points_inj e1; cases points_inj e2; cases points_inj e3; cases points_inj e4; cases points_inj e5
      exact ⟨w1, w2, w3, w4, ws, hw2, (parseUint_iff (by decide)).1 h1, (parseUint_iff (by decide)).1 h2,
        (parseUint_iff (by decide)).1 h3, by cases band <;> exact (parseUint_iff (by decide)).1 h4⟩

theorem Request.unique {s : List Char} {svn svn' : Svn} {gst gst' : Gst} {band band' : InavBand} {data data' : List Char}
    (h : Request s svn gst band data) (h' : Request s svn' gst' band' data') : svn = svn' ∧ gst = gst' ∧ band = band' ∧ data = data' := by
  obtain ⟨w1, w2, w3, w4, more, h, h1, h2, h3, h4⟩ := h
  obtain ⟨w1', w2', w3', w4', more', h', h1', h2', h3', h4'⟩ := h'
  have := h.unique h'
  simp only [List.cons.injEq] at this
  obtain ⟨rfl, rfl, rfl, rfl, rfl, rfl⟩ := this
  have e1 := h1.unique h1'
  have e2 := h2.unique h2'
  have e3 := h3.unique h3'
  have e4 := h4.unique h4'
  refine ⟨?_, ?_, ?_, rfl⟩
  · cases svn; cases svn'; simp_all
  · cases gst; cases gst'; simp_all
  · cases band <;> cases band' <;> simp_all

/-- What is written and done after the header of a line was read. -/
theorem processLine_request {f : Firmware C} {line : List Byte} {s : List Char} (hu : Utf8Of line s) (hbuf : ∃ t, f.rxBuffer = line ++ t)
    {svn : Svn} {gst : Gst} {band : InavBand} {data : List Char} (h : Request s svn gst band data) :
    f.processLine S line.length =
      (let f := f.write (svn.text ++ ascii " WN " ++ decimal gst.wn ++ ascii " TOW " ++ decimal gst.tow ++ ascii " E" ++ decimal (bandDigit band) ++ ascii "B ")
      if strLen (points data) = 16 * 2 then do
        let inav ← hexDecodeTo 16 (points data)
        let f := f.write (ascii "INAV\r\n")
        f.call S (.inav inav svn gst band)
      else if strLen (points data) = (1 + 4) * 2 then do
        let osnma ← hexDecodeTo (1 + 4) (points data)
        let f := f.write (ascii "OSNMA\r\n")
        f.call S (.osnma osnma svn gst)
      else pure f) := by
  obtain ⟨t, ht⟩ := hbuf
  obtain ⟨w1, w2, w3, w4, more, hw, h1, h2, h3, h4⟩ := request_iff.1 h
  have hsl : slice f.rxBuffer 0 line.length = .ok line := by
    rw [ht]; unfold slice; rw [if_pos ⟨by omega, by simp⟩]; simp
  have hsvn : Svn.tryFrom svn.val = some svn := Svn.tryFrom_val svn
  unfold Firmware.processLine
  simp only [hsl, Res.ok_bind, utf8_iff.2 ⟨s, hu, rfl⟩, hw, nextWord, h1, h2, h3, h4, hsvn, Res.unwrap]
  cases band
  · rw [if_pos (show bandDigit .E1B = 1 from rfl), dif_pos gst.hwn, Gst.new_self, Res.ok_bind]
  · rw [if_neg (by decide), if_pos (show bandDigit .E5B = 5 from rfl), dif_pos gst.hwn, Gst.new_self, Res.ok_bind]

theorem nextWord_ok {ws ws' : List (List Nat)} {w : List Nat} (h : nextWord ws = .ok (w, ws')) : ws = w :: ws' := by
  cases ws with
  | nil => cases h
  | cons a l => simp only [nextWord, Res.ok.injEq, Prod.mk.injEq] at h; rw [h.1, h.2]

/-- A line on which `process_line` returns has a header. -/
theorem processLine_ok {f f' : Firmware C} {line : List Byte} (hbuf : ∃ t, f.rxBuffer = line ++ t) (h : f.processLine S line.length = .ok f') :
    ∃ s svn gst band data, Utf8Of line s ∧ Request s svn gst band data := by
  obtain ⟨t, ht⟩ := hbuf
  have hsl : slice f.rxBuffer 0 line.length = .ok line := by
    rw [ht]; unfold slice; rw [if_pos ⟨by omega, by simp⟩]; simp
  unfold Firmware.processLine at h
  rw [hsl, Res.ok_bind] at h
  obtain ⟨text, htext, h0⟩ := Res.bind_eq_ok.1 h
  clear h
  obtain ⟨s, hs, rfl⟩ := utf8_iff.1 (Res.unwrap_eq_ok.1 htext)
  obtain ⟨⟨w1, ws1⟩, hw1, h⟩ := Res.bind_eq_ok.1 h0
  obtain ⟨n, hn, h⟩ := Res.bind_eq_ok.1 h
  obtain ⟨svn, hsvn, h⟩ := Res.bind_eq_ok.1 h
  obtain ⟨⟨w2, ws2⟩, hw2, h⟩ := Res.bind_eq_ok.1 h
  obtain ⟨wn, hwn, h⟩ := Res.bind_eq_ok.1 h
  obtain ⟨⟨w3, ws3⟩, hw3, h⟩ := Res.bind_eq_ok.1 h
  obtain ⟨tow, htow, h⟩ := Res.bind_eq_ok.1 h
  obtain ⟨⟨w4, ws4⟩, hw4, h⟩ := Res.bind_eq_ok.1 h
  obtain ⟨bn, hbn, h⟩ := Res.bind_eq_ok.1 h
  have e1 := nextWord_ok hw1
  have e2 := nextWord_ok hw2
  have e3 := nextWord_ok hw3
  have e4 := nextWord_ok hw4
  have hn := Res.unwrap_eq_ok.1 hn
  have hsvn := Svn.tryFrom_eq_some.1 (Res.unwrap_eq_ok.1 hsvn)
  have hwn := Res.unwrap_eq_ok.1 hwn
  have htow := Res.unwrap_eq_ok.1 htow
  have hbn := Res.unwrap_eq_ok.1 hbn
  -- the band, the GST and the data
  have key : ∀ band : InavBand, bn = bandDigit band → (∃ gst, ∃ hw : wn < 65536, Gst.new wn tow hw = Res.ok gst ∧ ∃ r, nextWord ws4 = .ok r) →
      ∃ s svn gst band data, Utf8Of line s ∧ Request s svn gst band data := by
    rintro band rfl ⟨gst, hw, hg, ⟨data, more⟩, hd⟩
    have e5 := nextWord_ok hd
    have hg' : gst.wn = wn ∧ gst.tow = tow := by
      unfold Gst.new at hg
      split at hg
      · cases hg; exact ⟨rfl, rfl⟩
      · cases hg
    obtain ⟨rfl, rfl⟩ := hg'
    rw [e2, e3, e4, e5] at e1
    obtain ⟨wsx, hx1, hx2⟩ := splitWhitespace_words s [] (by simp)
    rw [points_nil, e1] at hx1
    have hsv : n = svn.val := by omega
    subst hsv
    match wsx, hx1 with
    | [], hx1 => simp at hx1
    | [_], hx1 => simp at hx1
    | [_, _], hx1 => simp at hx1
    | [_, _, _], hx1 => simp at hx1
    | [_, _, _, _], hx1 => simp at hx1
    | a1 :: a2 :: a3 :: a4 :: a5 :: wsx, hx1 =>
      simp only [List.map_cons, List.cons.injEq] at hx1
      obtain ⟨rfl, rfl, rfl, rfl, rfl, rfl⟩ := hx1
      exact ⟨s, svn, gst, band, a5, hs, request_iff.2 ⟨a1, a2, a3, a4, _, e1, hn, hwn, htow, hbn⟩⟩
  dsimp only at h
  split at h
  · rename_i hb1
    rw [Res.ok_bind] at h
    split at h
    · rename_i hw
      obtain ⟨gst, hg, h⟩ := Res.bind_eq_ok.1 h
      obtain ⟨r, hr, h⟩ := Res.bind_eq_ok.1 h
      exact key .E1B hb1 ⟨gst, hw, hg, r, hr⟩
    · cases h
  · split at h
    · rename_i hb5
      rw [Res.ok_bind] at h
      split at h
      · rename_i hw
        obtain ⟨gst, hg, h⟩ := Res.bind_eq_ok.1 h
        obtain ⟨r, hr, h⟩ := Res.bind_eq_ok.1 h
        exact key .E5B hb5 ⟨gst, hw, hg, r, hr⟩
      · cases h
    · cases h

theorem hexDecodeTo_iff {n : Nat} {w : List Char} {l : Bytes n} : hexDecodeTo n (points w) = .ok l ↔ HexOf w l.val := by
  unfold hexDecodeTo
  constructor
  · intro h
    split at h
    · rename_i l' hl'
      split at h
      · cases h; exact hexDecode_iff.1 hl'
      · cases h
    · cases h
  · intro h
    rw [hexDecode_iff.2 h]
    dsimp only
    rw [dif_pos l.property]

/-- `process_line` is exact: what the line asks for is done, and it panics on other lines. -/
theorem processLine_exact {f : Firmware C} {line : List Byte} (hbuf : ∃ t, f.rxBuffer = line ++ t) {f' : Firmware C} :
    f.processLine S line.length = .ok f' → ∃ s, Utf8Of line s ∧ f'.rxBuffer = f.rxBuffer ∧
      ((∃ c, AsksFor s c ∧ c.run S f.osnma = .ok f'.osnma ∧ f'.calls = f.calls ++ [c]) ∨
       (AsksNothing s ∧ f'.osnma = f.osnma ∧ f'.calls = f.calls)) := by
  intro h
  obtain ⟨s, svn, gst, band, data, hs, hr⟩ := processLine_ok hbuf h
  rw [processLine_request hs hbuf hr] at h
  dsimp only at h
  refine ⟨s, hs, ?_⟩
  split at h
  · obtain ⟨w, hw, h⟩ := Res.bind_eq_ok.1 h
    unfold Firmware.call at h
    obtain ⟨o, ho, h⟩ := Res.bind_eq_ok.1 h
    cases h
    exact ⟨rfl, .inl ⟨.inav w svn gst band, ⟨data, hr, hexDecodeTo_iff.1 hw⟩, ho, rfl⟩⟩
  · rename_i h1
    split at h
    · obtain ⟨w, hw, h⟩ := Res.bind_eq_ok.1 h
      unfold Firmware.call at h
      obtain ⟨o, ho, h⟩ := Res.bind_eq_ok.1 h
      cases h
      exact ⟨rfl, .inl ⟨.osnma w svn gst, ⟨band, data, hr, hexDecodeTo_iff.1 hw⟩, ho, rfl⟩⟩
    · rename_i h2
      cases h
      rw [strLen_points] at h1 h2
      exact ⟨rfl, .inr ⟨⟨svn, gst, band, data, hr, h1, h2⟩, rfl, rfl⟩⟩

theorem processLine_asksFor {f : Firmware C} {line : List Byte} (hbuf : ∃ t, f.rxBuffer = line ++ t) {s : List Char} (hs : Utf8Of line s)
    {c : Call} (hc : AsksFor s c) {o : Osnma C} (ho : c.run S f.osnma = .ok o) :
    ∃ f', f.processLine S line.length = .ok f' ∧ f'.osnma = o := by
  cases c with
  | inav word svn gst band =>
    obtain ⟨data, hr, hh⟩ := hc
    rw [processLine_request hs hbuf hr]
    dsimp only
    rw [strLen_points, hh.size, word.property, if_pos rfl, hexDecodeTo_iff.2 hh, Res.ok_bind]
    unfold Firmware.call
    simp only [Firmware.write, ho, Res.ok_bind, Res.pure_eq]
    exact ⟨_, rfl, rfl⟩
  | osnma d svn gst =>
    obtain ⟨band, data, hr, hh⟩ := hc
    rw [processLine_request hs hbuf hr]
    dsimp only
    rw [strLen_points, hh.size, d.property, if_neg (by decide), if_pos rfl, hexDecodeTo_iff.2 hh, Res.ok_bind]
    unfold Firmware.call
    simp only [Firmware.write, ho, Res.ok_bind, Res.pure_eq]
    exact ⟨_, rfl, rfl⟩

theorem processLine_asksNothing {f : Firmware C} {line : List Byte} (hbuf : ∃ t, f.rxBuffer = line ++ t) {s : List Char} (hs : Utf8Of line s)
    (hc : AsksNothing s) : ∃ f', f.processLine S line.length = .ok f' ∧ f'.osnma = f.osnma := by
  obtain ⟨svn, gst, band, data, hr, h1, h2⟩ := hc
  rw [processLine_request hs hbuf hr]
  dsimp only
  rw [strLen_points, if_neg h1, if_neg h2]
  exact ⟨_, rfl, rfl⟩

theorem AsksFor.unique {s : List Char} {c c' : Call} (h : AsksFor s c) (h' : AsksFor s c') : c = c' := by
  cases c with
  | inav word svn gst band =>
    obtain ⟨data, hr, hh⟩ := h
    cases c' with
    | inav word' svn' gst' band' =>
      obtain ⟨data', hr', hh'⟩ := h'
      obtain ⟨rfl, rfl, rfl, rfl⟩ := hr.unique hr'
      have : word = word' := Subtype.ext (hh.unique hh')
      rw [this]
    | osnma d svn' gst' =>
      obtain ⟨band', data', hr', hh'⟩ := h'
      obtain ⟨rfl, rfl, rfl, rfl⟩ := hr.unique hr'
      have h1 := hh.length
      rw [hh'.length, word.property, d.property] at h1
      omega
  | osnma d svn gst =>
    obtain ⟨band, data, hr, hh⟩ := h
    cases c' with
    | inav word' svn' gst' band' =>
      obtain ⟨data', hr', hh'⟩ := h'
      obtain ⟨rfl, rfl, rfl, rfl⟩ := hr.unique hr'
      have h1 := hh.length
      rw [hh'.length, word'.property, d.property] at h1
      omega
    | osnma d' svn' gst' =>
      obtain ⟨band', data', hr', hh'⟩ := h'
      obtain ⟨rfl, rfl, rfl, rfl⟩ := hr.unique hr'
      have : d = d' := Subtype.ext (hh.unique hh')
      rw [this]

theorem AsksFor.not_nothing {s : List Char} {c : Call} (h : AsksFor s c) : ¬ AsksNothing s := by
  rintro ⟨svn', gst', band', data', hr', h1, h2⟩
  cases c with
  | inav word svn gst band =>
    obtain ⟨data, hr, hh⟩ := h
    obtain ⟨rfl, rfl, rfl, rfl⟩ := hr.unique hr'
    exact h1 (by rw [hh.size, word.property])
  | osnma d svn gst =>
    obtain ⟨band, data, hr, hh⟩ := h
    obtain ⟨rfl, rfl, rfl, rfl⟩ := hr.unique hr'
    exact h2 (by rw [hh.size, d.property])

end Verif
