import Verif.Spec.SerialSpec
import Verif.Lemmas.Text
import Verif.Lemmas.Svn
import Verif.Lemmas.OsnmaRun

namespace Verif

variable {C : Crypto} {S : Storage}

/-! ## Lines -/

theorem rxLineFrom_lf {buffer : List Byte} {j : Nat} (h : j < 256) (input : List Byte) :
    rxLineFrom buffer j (0x0a#8 :: input) = rxLineFrom buffer j input := by
  conv => lhs; unfold rxLineFrom
  rw [if_neg (by omega)]
  simp

theorem rxLineFrom_line {rest : List Byte} : ∀ {content buffer : List Byte} {j : Nat},
    (∀ b ∈ content, b ≠ 0x0a#8 ∧ b ≠ 0x0d#8) → j + content.length < 256 → buffer.length = 256 →
    rxLineFrom buffer j (content ++ 0x0d#8 :: rest) =
      some (j + content.length, buffer.take j ++ content ++ buffer.drop (j + content.length), rest) := by
  intro content
  induction content with
  | nil =>
    intro buffer j _ hj hb
    unfold rxLineFrom
    simp only [List.length_nil, Nat.add_zero] at hj
    rw [if_neg (by omega)]
    simp
  | cons c content ih =>
    intro buffer j hc hj hb
    simp only [List.length_cons] at hj
    have hcc := hc c (by simp)
    unfold rxLineFrom
    rw [if_neg (by omega)]
    simp only [List.cons_append]
    rw [if_neg hcc.1, if_neg hcc.2, ih (fun b hb => hc b (by simp [hb])) (by omega) (by simpa using hb)]
    simp only [List.length_cons, Option.some.injEq, Prod.mk.injEq, and_true]
    refine ⟨by omega, ?_⟩
    apply List.ext_getElem?
    intro k
    simp only [List.getElem?_append, List.length_append, List.length_take, List.length_set, hb, List.getElem?_drop,
      List.getElem?_take, List.getElem?_set, List.length_cons]
    rw [Nat.min_eq_left (by omega), Nat.min_eq_left (by omega)]
    by_cases h1 : k < j
    · rw [if_pos (by omega), if_pos (by omega), if_pos (by omega), if_neg (by omega), if_pos (by omega), if_pos h1, if_pos h1]
    · by_cases h2 : k = j
      · subst h2
        rw [if_pos (by omega), if_pos (by omega), if_pos (by omega), if_pos rfl, if_pos (by omega), if_pos (by omega), if_neg (by omega)]
        simp
      · by_cases h3 : k < j + 1 + content.length
        · rw [if_pos (by omega), if_neg (by omega), if_pos (by omega), if_neg (by omega)]
          rw [show k - j = (k - (j + 1)) + 1 by omega, List.getElem?_cons_succ]
        · rw [if_neg (by omega), if_neg (by omega), if_neg (by omega)]
          congr 1; omega

/-! ## Numbers and bytes as text -/

theorem ascii_append (a b : String) : ascii (a ++ b) = ascii a ++ ascii b := by
  unfold ascii; rw [String.toList_append, List.map_append]

theorem digitChar_byte : ∀ n, n < 16 → BitVec.ofNat 8 (Nat.digitChar n).toNat = hexDigit n := by decide

theorem dec_eq (n : Nat) : dec n = decimal n := by
  have hd : ∀ m, m < 10 → BitVec.ofNat 8 (Nat.digitChar m).toNat = BitVec.ofNat 8 (48 + m) := by decide
  unfold dec
  rw [Nat.toString_eq_repr]
  induction n using Nat.strongRecOn with
  | _ n ih =>
    unfold decimal
    by_cases h : n < 10
    · rw [if_pos h, Nat.repr_of_lt h]
      unfold ascii
      rw [String.toList_singleton, List.map_cons, List.map_nil, hd n h]
    · rw [if_neg h, Nat.repr_of_ge (by omega), ascii_append, ih (n / 10) (by omega)]
      congr 1
      unfold ascii
      rw [String.toList_singleton, List.map_cons, List.map_nil, hd _ (Nat.mod_lt _ (by decide))]

theorem dec_eq' : dec = decimal := funext dec_eq

theorem dec2_eq (n : Nat) : dec2 n = decimal02 n := by
  have h := dec_eq n
  unfold dec at h
  unfold dec2 decimal02
  rw [ascii_append, h]
  rfl

theorem dec2_eq' : dec2 = decimal02 := funext dec2_eq

theorem hexText_eq (l : List Byte) : hexText l = hexEncode l := by
  unfold hexText hexEncode
  congr 1
  funext b
  have hb : b.toNat < 256 := b.isLt
  rw [Nat.toDigits_of_base_le (by decide) (by omega), Nat.toDigits_of_base_le (by decide) (by omega), Nat.toDigits_of_lt_base (by omega)]
  simp only [List.cons_append, List.nil_append, List.drop_succ_cons, List.drop_zero, List.map_cons, List.map_nil]
  rw [digitChar_byte _ (Nat.mod_lt _ (by decide)), digitChar_byte _ (Nat.mod_lt _ (by decide))]
  congr 2
  · omega
  · congr 1; omega

theorem hexText_eq' : hexText = hexEncode := funext hexText_eq

/-- The line that the client writes. -/
theorem LineFor.of_inav (word : InavWord) (svn : Svn) (gst : Gst) (band : InavBand) :
    LineFor (.inav word svn gst band) (sendInav word svn.val gst band) := by
  unfold LineFor sendInav sendCommon
  rw [dec_eq', hexText_eq']
  cases band <;> simp [show ascii " 1 " = ascii " " ++ ascii "1" ++ ascii " " from rfl, show ascii " 5 " = ascii " " ++ ascii "5" ++ ascii " " from rfl]

theorem LineFor.of_osnma (data : OsnmaDataMessage) (svn : Svn) (gst : Gst) (band : InavBand) :
    LineFor (.osnma data svn gst) (sendOsnma data svn.val gst band) := by
  refine ⟨band, ?_⟩
  unfold sendOsnma sendCommon
  rw [dec_eq', hexText_eq']
  cases band <;> simp [show ascii " 1 " = ascii " " ++ ascii "1" ++ ascii " " from rfl, show ascii " 5 " = ascii " " ++ ascii "5" ++ ascii " " from rfl]

theorem LineFor.to_inav {word : InavWord} {svn : Svn} {gst : Gst} {band : InavBand} {line : List Byte}
    (h : LineFor (.inav word svn gst band) line) : line = sendInav word svn.val gst band := by
  have h' := LineFor.of_inav word svn gst band
  unfold LineFor at h h'
  rw [h, h']

theorem LineFor.to_osnma {data : OsnmaDataMessage} {svn : Svn} {gst : Gst} {line : List Byte}
    (h : LineFor (.osnma data svn gst) line) : ∃ band, line = sendOsnma data svn.val gst band := by
  obtain ⟨band, h⟩ := h
  refine ⟨band, ?_⟩
  rw [h]
  unfold sendOsnma sendCommon
  rw [dec_eq', hexText_eq']
  cases band <;> simp [show ascii " 1 " = ascii " " ++ ascii "1" ++ ascii " " from rfl, show ascii " 5 " = ascii " " ++ ascii "5" ++ ascii " " from rfl]

/-- Characters of a line. -/
theorem plain_not_cr {l : List Byte} (h : ∀ b ∈ l, 32 ≤ b.toNat ∧ b.toNat < 127) : ∀ b ∈ l, b ≠ 0x0a#8 ∧ b ≠ 0x0d#8 := by
  intro b hb
  have := h b hb
  exact ⟨fun h => by subst h; simp at this, fun h => by subst h; simp at this⟩

/-- A line without its CR LF: four numbers and a word, separated by one space. -/
def content (svn : Nat) (gst : Gst) (band : InavBand) (data : List Byte) : List Byte :=
  sendCommon svn gst band ++ hexEncode data

/-- The digit of the band. -/
def bandDigit : InavBand → Nat
  | .E1B => 1
  | .E5B => 5

theorem content_eq (svn : Nat) (gst : Gst) (band : InavBand) (data : List Byte) :
    content svn gst band data = decimal svn ++ 32#8 :: (decimal gst.wn ++ 32#8 :: (decimal gst.tow ++ 32#8 ::
      (decimal (bandDigit band) ++ 32#8 :: hexEncode data))) := by
  unfold content sendCommon
  have h1 : ascii " " = [32#8] := by decide
  have h2 : ascii "1" = decimal 1 := by unfold decimal; decide
  have h3 : ascii "5" = decimal 5 := by unfold decimal; decide
  rw [h1, h2, h3]
  cases band <;> simp [bandDigit]

theorem content_plain (svn : Nat) (gst : Gst) (band : InavBand) (data : List Byte) :
    ∀ b ∈ content svn gst band data, 32 ≤ b.toNat ∧ b.toNat < 127 := by
  have hd : ∀ n, ∀ b ∈ decimal n, 32 ≤ b.toNat ∧ b.toNat < 127 := fun n b hb => by
    have := decimal_digits n b hb; omega
  have hx : ∀ b ∈ hexEncode data, 32 ≤ b.toNat ∧ b.toNat < 127 := fun b hb => by
    have := hexEncode_plain data b hb; omega
  rw [content_eq]
  intro b hb
  simp only [List.mem_append, List.mem_cons] at hb
  rcases hb with h | h | h | h | h | h | h | h | h
  · exact hd _ _ h
  · subst h; decide
  · exact hd _ _ h
  · subst h; decide
  · exact hd _ _ h
  · subst h; decide
  · exact hd _ _ h
  · subst h; decide
  · exact hx _ h

theorem content_length {svn : Nat} (gst : Gst) (band : InavBand) (data : List Byte) (hs : svn < 10 ^ 10) :
    (content svn gst band data).length ≤ 26 + 2 * data.length := by
  have h1 := decimal_length (k := 9) hs
  have h2 := decimal_length (k := 4) (n := gst.wn) (Nat.lt_trans gst.hwn (by decide))
  have h3 := decimal_length (k := 5) (n := gst.tow) (Nat.lt_trans gst.htow (by decide))
  have h4 : (decimal (bandDigit band)).length ≤ 1 := decimal_length (k := 0) (by cases band <;> decide)
  rw [content_eq]
  simp only [List.length_append, List.length_cons, hexEncode_length]
  omega

/-- The words of a line. -/
theorem content_words (svn : Nat) (gst : Gst) (band : InavBand) {data : List Byte} (hd : data ≠ []) :
    splitWhitespace [] (codes (content svn gst band data)) =
      [codes (decimal svn), codes (decimal gst.wn), codes (decimal gst.tow), codes (decimal (bandDigit band)), codes (hexEncode data)] := by
  rw [content_eq]
  simp only [codes_append, codes_cons, show (32#8 : Byte).toNat = 32 from rfl]
  have hd' : ∀ n, Plain (decimal n) := fun n => (decimal_digits n).plain
  rw [splitWhitespace_word (hd' _) (decimal_ne_nil _), splitWhitespace_word (hd' _) (decimal_ne_nil _),
    splitWhitespace_word (hd' _) (decimal_ne_nil _), splitWhitespace_word (hd' _) (decimal_ne_nil _),
    splitWhitespace_last (hexEncode_plain _)]
  intro h
  have := congrArg List.length h
  rw [hexEncode_length] at this
  simp only [List.length_nil] at this
  exact hd (List.length_eq_zero_iff.1 (by omega))

/-- The echo up to the kind of message. -/
def echo (svn : Svn) (gst : Gst) (band : InavBand) : List Byte :=
  svn.text ++ ascii " WN " ++ decimal gst.wn ++ ascii " TOW " ++ decimal gst.tow ++ ascii " E" ++ decimal (bandDigit band) ++ ascii "B "

theorem Gst.new_self (g : Gst) : Gst.new g.wn g.tow g.hwn = .ok g := by
  unfold Gst.new; rw [dif_pos g.htow]

/-- `processLine` on a line of the client, up to the data. -/
theorem processLine_content {f : Firmware C} {svn : Svn} {gst : Gst} {band : InavBand} {data : List Byte} {len : Nat}
    (hd : data ≠ []) (hl : slice f.rxBuffer 0 len = .ok (content svn.val gst band data)) :
    f.processLine S len =
      let f := f.write (echo svn gst band)
      if strLen (codes (hexEncode data)) = 16 * 2 then do
        let inav ← hexDecodeTo 16 (codes (hexEncode data))
        let f := f.write (ascii "INAV\r\n")
        f.call S (.inav inav svn gst band)
      else if strLen (codes (hexEncode data)) = (1 + 4) * 2 then do
        let osnma ← hexDecodeTo (1 + 4) (codes (hexEncode data))
        let f := f.write (ascii "OSNMA\r\n")
        f.call S (.osnma osnma svn gst)
      else pure f := by
  have hsv : svn.val < 2 ^ 32 := by have := svn.h36; omega
  have htw : gst.tow < 2 ^ 32 := Nat.lt_trans gst.htow (by decide)
  have hbd : bandDigit band < 2 ^ 8 := by cases band <;> decide
  unfold Firmware.processLine
  rw [hl, Res.ok_bind, utf8_ascii (fun b hb => by have := content_plain _ _ _ _ b hb; omega)]
  simp only [Res.unwrap, Res.ok_bind, content_words svn.val gst band hd, nextWord]
  rw [parseUint_decimal hsv]
  simp only [Res.ok_bind]
  rw [Svn.tryFrom_val]
  simp only [Res.ok_bind]
  rw [parseUint_decimal (show gst.wn < 2 ^ 16 from gst.hwn)]
  simp only [Res.ok_bind]
  rw [parseUint_decimal htw]
  simp only [Res.ok_bind]
  rw [parseUint_decimal hbd]
  simp only [Res.ok_bind]
  cases band
  · rw [if_pos (show bandDigit .E1B = 1 from rfl), dif_pos gst.hwn, Gst.new_self, Res.ok_bind]; rfl
  · rw [if_neg (by decide), if_pos (show bandDigit .E5B = 5 from rfl), dif_pos gst.hwn, Gst.new_self, Res.ok_bind]; rfl

/-- `processLine` on the line of a call. -/
theorem processLine_line {f : Firmware C} {c : Call} {svn : Svn} {gst : Gst} {band : InavBand} {data : List Byte} {len : Nat}
    (hc : (∃ w : InavWord, w.val = data ∧ c = .inav w svn gst band) ∨ (∃ d : OsnmaDataMessage, d.val = data ∧ c = .osnma d svn gst))
    (hl : slice f.rxBuffer 0 len = .ok (content svn.val gst band data)) :
    f.processLine S len = (f.write (echo svn gst band ++ (match c with | .inav .. => ascii "INAV\r\n" | .osnma .. => ascii "OSNMA\r\n"))).call S c := by
  have hne : data ≠ [] := by
    rcases hc with ⟨w, rfl, _⟩ | ⟨w, rfl, _⟩ <;> intro h <;> have := w.property <;> simp [h] at this
  have hlen : strLen (codes (hexEncode data)) = 2 * data.length := by
    rw [strLen_ascii (fun b hb => by have := hexEncode_plain data b hb; omega), hexEncode_length]
  rw [processLine_content hne hl]
  dsimp only
  rw [hlen]
  rcases hc with ⟨w, rfl, rfl⟩ | ⟨d, rfl, rfl⟩
  · rw [if_pos (by rw [w.property]), hexDecodeTo_encode, Res.ok_bind]
    simp [Firmware.write]
  · have := d.property
    rw [if_neg (by rw [this]; decide), if_pos (by rw [this]), hexDecodeTo_encode d, Res.ok_bind]
    simp [Firmware.write]

/-- The parts of a line. -/
theorem LineFor.parts {c : Call} {line : List Byte} (h : LineFor c line) :
    ∃ svn gst band data, ((∃ w : InavWord, w.val = data ∧ c = .inav w svn gst band) ∨ (∃ d : OsnmaDataMessage, d.val = data ∧ c = .osnma d svn gst)) ∧
      line = content svn.val gst band data ++ [0x0d#8, 0x0a#8] ∧ data.length ≤ 16 := by
  have hcr : ascii "\r\n" = [0x0d#8, 0x0a#8] := by decide
  cases c with
  | inav w svn gst band =>
    refine ⟨svn, gst, band, w.val, .inl ⟨w, rfl, rfl⟩, ?_, by rw [w.property]; decide⟩
    rw [h.to_inav, sendInav, content, hcr]
  | osnma d svn gst =>
    obtain ⟨band, h⟩ := h.to_osnma
    refine ⟨svn, gst, band, d.val, .inr ⟨d, rfl, rfl⟩, ?_, by rw [d.property]; decide⟩
    rw [h, sendOsnma, content, hcr]

/-! ## The status lines -/

/-- What is printed about the data of a satellite. -/
def statusOf (r : Res (Option NavMessageData)) (svn : Svn) : List Byte :=
  match r with
  | .ok (some d) => ascii " " ++ svn.text ++ ascii " TOW " ++ decimal d.gst.tow
  | _ => []

theorem authStatus_ok {get : Svn → Res (Option NavMessageData)} {text : List Byte} {b : Bool} :
    authStatus get = .ok (text, b) ↔ (∀ svn, ∃ r, get svn = .ok r) ∧ text = Svn.iter.flatMap (fun s => statusOf (get s) s) ∧
      (b = true ↔ ∃ svn d, get svn = .ok (some d)) := by
  have key : ∀ (l : List Svn) (s s' : List Byte × Bool),
      loopM (fun (s : List Byte × Bool) svn => do
        match ← get svn with
        | some data => pure (s.1 ++ ascii " " ++ svn.text ++ ascii " TOW " ++ decimal data.gst.tow, true)
        | none => pure s) l s = .ok s' ↔ (∀ svn ∈ l, ∃ r, get svn = .ok r) ∧ s'.1 = s.1 ++ l.flatMap (fun s => statusOf (get s) s) ∧
          (s'.2 = true ↔ s.2 = true ∨ ∃ svn ∈ l, ∃ d, get svn = .ok (some d)) := by
    intro l
    induction l with
    | nil =>
      intro s s'
      rw [loopM_nil]
      simp only [Res.ok.injEq]
      constructor
      · rintro rfl; simp
      · rintro ⟨_, h1, h2⟩
        refine Prod.ext ?_ ?_
        · simpa using h1.symm
        · have : s'.2 = true ↔ s.2 = true := by simpa using h2
          cases hs : s.2 <;> cases hs' : s'.2 <;> simp_all
    | cons svn l ih =>
      intro s s'
      rw [loopM_cons]
      cases hg : get svn with
      | panic w => simp [hg]
      | ok r =>
        cases r with
        | none =>
          refine Iff.trans (ih _ _) ?_
          simp only [List.mem_cons, forall_eq_or_imp, hg, List.flatMap_cons, statusOf, List.nil_append, exists_eq_or_imp]
          simp
        | some d =>
          refine Iff.trans (ih _ _) ?_
          simp only [List.mem_cons, forall_eq_or_imp, hg, List.flatMap_cons, statusOf, exists_eq_or_imp]
          simp
  unfold authStatus
  refine Iff.trans (key _ _ _) ?_
  simp [Svn.mem_iter]

/-- The satellites with data. -/
def withData (get : Svn → Res (Option NavMessageData)) : List (Svn × NavMessageData) :=
  Svn.iter.filterMap fun s => match get s with
    | .ok (some d) => some (s, d)
    | _ => none

theorem mem_withData {get : Svn → Res (Option NavMessageData)} {svn : Svn} {d : NavMessageData} :
    (svn, d) ∈ withData get ↔ get svn = .ok (some d) := by
  unfold withData
  rw [List.mem_filterMap]
  constructor
  · rintro ⟨s, _, h⟩
    split at h
    · rename_i hg
      simp only [Option.some.injEq, Prod.mk.injEq] at h
      obtain ⟨rfl, rfl⟩ := h
      exact hg
    · cases h
  · intro h
    exact ⟨svn, Svn.mem_iter svn, by rw [h]⟩

theorem Svn.iter_sorted : Svn.iter.Pairwise fun a b => a.val < b.val := by
  decide

theorem withData_sorted (get : Svn → Res (Option NavMessageData)) : (withData get).Pairwise fun a b => a.1.val < b.1.val := by
  unfold withData
  rw [List.pairwise_filterMap]
  refine Svn.iter_sorted.imp ?_
  intro a b h x hx y hy
  split at hx <;> cases hx
  split at hy <;> cases hy
  exact h

theorem status_text (get : Svn → Res (Option NavMessageData)) :
    Svn.iter.flatMap (fun s => statusOf (get s) s) =
      (withData get).flatMap fun x => ascii " E" ++ decimal02 x.1.val ++ ascii " TOW " ++ decimal x.2.gst.tow := by
  unfold withData
  induction Svn.iter with
  | nil => rfl
  | cons s l ih =>
    have hs : ascii " " ++ s.text = ascii " E" ++ decimal02 s.val := by
      unfold Svn.text; rw [← List.append_assoc]; rfl
    rw [List.flatMap_cons, ih, List.filterMap_cons]
    cases hg : get s with
    | panic w => simp [statusOf]
    | ok r =>
      cases r with
      | none => simp [statusOf]
      | some d =>
        simp only [statusOf, List.flatMap_cons]
        rw [hs]

/-- What `print_auth_status` prints. -/
theorem printAuthStatus_ok {f f' : Firmware C} (h : f.printAuthStatus S = .ok f') :
    GettersReturn S f.osnma ∧ ∃ l4 l0, StatusLine S f.osnma .timing l4 ∧ StatusLine S f.osnma .ced l0 ∧ f' = f.write (l4 ++ l0) := by
  have line : ∀ (get : Svn → Res (Option NavMessageData)) (text : List Byte) (b : Bool), authStatus get = .ok (text, b) →
      text ++ (if b then [] else ascii " NONE") = if withData get = [] then ascii " NONE" else
        (withData get).flatMap fun x => ascii " E" ++ decimal02 x.1.val ++ ascii " TOW " ++ decimal x.2.gst.tow := by
    intro get text b h
    obtain ⟨_, rfl, hb⟩ := authStatus_ok.1 h
    rw [status_text]
    by_cases hw : withData get = []
    · rw [if_pos hw, hw, if_neg]
      · simp
      · intro h
        obtain ⟨s, d, h⟩ := hb.1 h
        have := mem_withData.2 h
        rw [hw] at this; cases this
    · rw [if_neg hw, if_pos]
      · simp
      · obtain ⟨⟨s, d⟩, hx⟩ := List.exists_mem_of_ne_nil _ hw
        exact hb.2 ⟨s, d, mem_withData.1 hx⟩
  unfold Firmware.printAuthStatus at h
  simp only [Res.bind_eq_ok, Res.pure_eq, Res.ok.injEq] at h
  obtain ⟨⟨t4, b4⟩, h4, ⟨t0, b0⟩, h0, rfl⟩ := h
  simp only [Firmware.write] at h4 h0
  refine ⟨?_, _, _, ⟨withData (f.osnma.getTimingParameters S), withData_sorted _, fun _ _ => mem_withData, rfl⟩,
    ⟨withData (f.osnma.getCedAndStatus S), withData_sorted _, fun _ _ => mem_withData, rfl⟩, ?_⟩
  · intro kd svn
    cases kd
    · exact (authStatus_ok.1 h0).1 svn
    · exact (authStatus_ok.1 h4).1 svn
  · simp only [Firmware.write]
    rw [line _ _ _ h4, line _ _ _ h0]
    simp only [List.append_assoc, dec_eq, dec2_eq]

open Classical in
theorem printAuthStatus_returns {f : Firmware C} (h : GettersReturn S f.osnma) : ∃ f', f.printAuthStatus S = .ok f' := by
  have ex : ∀ get : Svn → Res (Option NavMessageData), (∀ svn, ∃ r, get svn = .ok r) → ∃ x, authStatus get = .ok x := by
    intro get hg
    refine ⟨(_, decide (∃ svn d, get svn = .ok (some d))), authStatus_ok.2 ⟨hg, rfl, ?_⟩⟩
    simp
  unfold Firmware.printAuthStatus
  obtain ⟨x4, h4⟩ := ex (f.osnma.getTimingParameters S) (h .timing)
  obtain ⟨x0, h0⟩ := ex (f.osnma.getCedAndStatus S) (h .ced)
  simp only [Firmware.write, h4, h0, Res.ok_bind]
  exact ⟨_, rfl⟩

/-! ## One pass of the loop -/

theorem echoOf_line {c : Call} {svn : Svn} {gst : Gst} {band : InavBand} {data : List Byte}
    (hc : (∃ w : InavWord, w.val = data ∧ c = .inav w svn gst band) ∨ (∃ d : OsnmaDataMessage, d.val = data ∧ c = .osnma d svn gst)) :
    EchoOf c (echo svn gst band ++ (match c with | .inav .. => ascii "INAV\r\n" | .osnma .. => ascii "OSNMA\r\n")) := by
  have d1 : decimal 1 = ascii "1" := by unfold decimal; decide
  have d5 : decimal 5 = ascii "5" := by unfold decimal; decide
  have e1 : ascii " E" ++ (ascii "1" ++ (ascii "B " ++ ascii "INAV\r\n")) = ascii " E1B INAV\r\n" := by decide
  have e2 : ascii " E" ++ (ascii "5" ++ (ascii "B " ++ ascii "INAV\r\n")) = ascii " E5B INAV\r\n" := by decide
  have e3 : ascii " E" ++ (ascii "1" ++ (ascii "B " ++ ascii "OSNMA\r\n")) = ascii " E1B OSNMA\r\n" := by decide
  have e4 : ascii " E" ++ (ascii "5" ++ (ascii "B " ++ ascii "OSNMA\r\n")) = ascii " E5B OSNMA\r\n" := by decide
  rcases hc with ⟨w, _, rfl⟩ | ⟨w, _, rfl⟩
  · cases band <;> simp only [EchoOf, echo, bandDigit, Svn.text, List.append_assoc, dec_eq, dec2_eq, d1, d5, e1, e2]
  · refine ⟨band, ?_⟩
    cases band <;> simp only [echo, bandDigit, Svn.text, List.append_assoc, dec_eq, dec2_eq, d1, d5, e3, e4]

/-- Running `rx_line` and `process_line` on a line of the client, after any number of LF. -/
theorem rx_line {buffer : List Byte} {c : Call} {line : List Byte} (hb : buffer.length = 256) (hl : LineFor c line) (n : Nat)
    (rest : List Byte) : ∃ len buffer', rxLineFrom buffer 0 (List.replicate n 0x0a#8 ++ line ++ rest) = some (len, buffer', 0x0a#8 :: rest) ∧
      buffer'.length = 256 ∧ ∀ f : Firmware C, f.rxBuffer = buffer' →
        ∃ text, EchoOf c text ∧ f.processLine S len = (f.write text).call S c := by
  obtain ⟨svn, gst, band, data, hc, rfl, hlen⟩ := hl.parts
  have hlt : (content svn.val gst band data).length < 256 := by
    have := content_length gst band data (svn := svn.val) (by have := svn.h36; omega)
    omega
  refine ⟨(content svn.val gst band data).length, content svn.val gst band data ++ buffer.drop (content svn.val gst band data).length, ?_, ?_, ?_⟩
  · induction n with
    | zero =>
      have := rxLineFrom_line (rest := 0x0a#8 :: rest) (plain_not_cr (content_plain svn.val gst band data)) (j := 0) (by omega) hb
      simpa using this
    | succ n ih =>
      rw [List.replicate_succ, List.cons_append, List.cons_append, rxLineFrom_lf (by omega)]
      exact ih
  · simp only [List.length_append, List.length_drop, hb]; omega
  · intro f hf
    refine ⟨_, echoOf_line hc, processLine_line hc ?_⟩
    rw [hf, slice_ok (Nat.zero_le _) (by simp)]
    simp

end Verif
