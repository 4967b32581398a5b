import Verif.Spec.CsvSpec
import Verif.Lemmas.Vectors
import Verif.Lemmas.TextExact
import Verif.Props.Vectors

/-! # The parser of the converter reads exactly the files of `Spec/CsvSpec.lean` -/

namespace Verif

theorem point_eq {c d : Char} (h : c.toNat = d.toNat) : c = d := by
  apply Char.ext
  exact UInt32.toNat_inj.1 h

theorem mem_points {c : Char} {s : List Char} : c.toNat ∈ points s ↔ c ∈ s := by
  unfold points
  rw [List.mem_map]
  constructor
  · rintro ⟨d, hd, he⟩; rw [← point_eq he]; exact hd
  · intro h; exact ⟨c, h, rfl⟩

theorem getLast_points {c : Char} {s : List Char} : (points s).getLast? = some c.toNat ↔ s.getLast? = some c := by
  unfold points
  rw [List.getLast?_map, Option.map_eq_some_iff]
  constructor
  · rintro ⟨d, hd, he⟩; rw [← point_eq he]; exact hd
  · intro h; exact ⟨c, h, rfl⟩

/-! ## Lines -/

theorem TextLines.eq {s : List Char} {ls : List (List Char)} (h : TextLines s ls) : textLines [] (points s) = ls.map points := by
  induction h with
  | nil => rfl
  | @last w hne hn =>
    have key : ∀ (w cur : List Char), '\n' ∉ w → cur ++ w ≠ [] → textLines (points cur) (points w) = [points (cur ++ w)] := by
      intro w
      induction w with
      | nil =>
        intro cur _ h2
        rw [List.append_nil] at h2 ⊢
        simp only [points_nil, textLines]
        rw [if_neg]
        intro hc
        exact h2 (points_inj hc)
      | cons c w ih =>
        intro cur h1 h2
        rw [points_cons, textLines, if_neg (fun e => h1 (by rw [point_eq (d := '\n') e]; simp))]
        have := ih (cur ++ [c]) (fun hm => h1 (by simp [hm])) (by simp)
        rw [points_append, points_cons, points_nil] at this
        rw [this]
        simp
    have := key w [] hn (by simpa using hne)
    simpa using this
  | @lf w rest ls hn hr _ ih =>
    rw [points_append, points_cons, show ('\n' : Char).toNat = 10 from rfl,
      textLines_line (fun hm => hn (mem_points (c := '\n').1 hm)), ih, List.nil_append, if_neg, List.map_cons]
    exact fun he => hr (getLast_points (c := '\r').1 he)
  | @crlf w rest ls hn _ ih =>
    have e : points (w ++ '\r' :: '\n' :: rest) = points (w ++ ['\r']) ++ 10 :: points rest := by
      rw [show w ++ '\r' :: '\n' :: rest = (w ++ ['\r']) ++ '\n' :: rest by simp, points_append, points_cons]
      rfl
    have hm : 10 ∉ points (w ++ ['\r']) := by
      intro hm
      have := mem_points (c := '\n').1 hm
      simp at this
      exact hn this
    rw [e, textLines_line hm, ih, List.nil_append, if_pos, List.map_cons]
    · congr 1
      rw [points_append]
      simp
    · exact getLast_points (c := '\r').2 (by simp)

theorem first_mem {c : Char} {s : List Char} (h : c ∈ s) : ∃ w rest, s = w ++ c :: rest ∧ c ∉ w := by
  induction s with
  | nil => cases h
  | cons d s ih =>
    by_cases hc : d = c
    · exact ⟨[], s, by simp [hc], by simp⟩
    · rcases List.mem_cons.1 h with h | h
      · exact absurd h.symm hc
      · obtain ⟨w, rest, rfl, hw⟩ := ih h
        refine ⟨d :: w, rest, by simp, fun hm => ?_⟩
        rcases List.mem_cons.1 hm with hm | hm
        · exact hc hm.symm
        · exact hw hm

theorem exists_lines (s : List Char) : ∃ ls, TextLines s ls := by
  suffices h : ∀ (n : Nat) (s : List Char), s.length ≤ n → ∃ ls, TextLines s ls from h _ s (Nat.le_refl _)
  intro n
  induction n with
  | zero =>
    intro s hs
    have : s = [] := List.length_eq_zero_iff.1 (by omega)
    subst this
    exact ⟨[], .nil⟩
  | succ n ih =>
    intro s hs
    by_cases hnil : s = []
    · subst hnil; exact ⟨[], .nil⟩
    by_cases hm : '\n' ∈ s
    · obtain ⟨w, rest, rfl, hw⟩ := first_mem hm
      rw [List.length_append, List.length_cons] at hs
      obtain ⟨ls, hls⟩ := ih rest (by omega)
      by_cases hr : w.getLast? = some '\r'
      · obtain ⟨w', rfl⟩ := List.getLast?_eq_some_iff.1 hr
        refine ⟨w' :: ls, ?_⟩
        rw [show w' ++ ['\r'] ++ '\n' :: rest = w' ++ '\r' :: '\n' :: rest by simp]
        exact .crlf (fun h => hw (by simp [h])) hls
      · exact ⟨w :: ls, .lf hw hr hls⟩
    · exact ⟨[s], .last hnil hm⟩

theorem TextLines.unique {s : List Char} {ls ls' : List (List Char)} (h : TextLines s ls) (h' : TextLines s ls') : ls = ls' := by
  have := h.eq.symm.trans h'.eq
  exact List.map_inj_right (fun _ _ h => points_inj h) |>.1 this

/-! ## Fields -/

/-- The fields of a line. -/
inductive Split : List Char → List (List Char) → Prop
  | last {w : List Char} : ',' ∉ w → Split w [w]
  | cons {w rest : List Char} {ws : List (List Char)} : ',' ∉ w → Split rest ws → Split (w ++ ',' :: rest) (w :: ws)

theorem Split.eq {s : List Char} {ws : List (List Char)} (h : Split s ws) : splitChar 44 [] (points s) = ws.map points := by
  induction h with
  | last hn =>
    rw [splitChar_last (c := 44) (fun hm => hn (mem_points (c := ',').1 hm))]
    rfl
  | cons hn _ ih =>
    rw [points_append, points_cons, show (',' : Char).toNat = 44 from rfl, splitChar_field (c := 44) (fun hm => hn (mem_points (c := ',').1 hm)), ih]
    rfl

theorem exists_split (s : List Char) : ∃ ws, Split s ws := by
  have : ∃ w ws, Split s (w :: ws) := by
    induction s with
    | nil => exact ⟨[], [], .last (by simp)⟩
    | cons c s ih =>
      obtain ⟨w, ws, h⟩ := ih
      by_cases hc : c = ','
      · subst hc
        exact ⟨[], w :: ws, .cons (w := []) (by simp) h⟩
      · have hc' : ∀ {w : List Char}, ',' ∉ w → ',' ∉ c :: w := by
          intro w hw hm
          rcases List.mem_cons.1 hm with h | h
          · exact hc h.symm
          · exact hw h
        cases h with
        | last hn => exact ⟨c :: s, [], .last (hc' hn)⟩
        | @cons _ rest ws hn hr => exact ⟨c :: w, ws, .cons (w := c :: w) (hc' hn) hr⟩
  obtain ⟨w, ws, h⟩ := this
  exact ⟨_, h⟩

theorem Split.unique {s : List Char} {ws ws' : List (List Char)} (h : Split s ws) (h' : Split s ws') : ws = ws' :=
  List.map_inj_right (fun _ _ h => points_inj h) |>.1 (h.eq.symm.trans h'.eq)

theorem text_iff {v : CsvLine} {text : List Char} :
    v.Text text ↔ ∃ a b c more bytes, Split text (a :: b :: c :: more) ∧ Number (2 ^ 32) a v.sat ∧ HexOf c bytes ∧
      bitsOf bytes = v.pages.flatMap InavPage.bits := by
  constructor
  · rintro ⟨a, b, c, rest, bytes, rfl, ha, hb, hc, hr, h1, h2, h3⟩
    rcases hr with rfl | hr
    · refine ⟨a, b, c, [], bytes, ?_, h1, h2, h3⟩
      rw [show a ++ ',' :: b ++ ',' :: c ++ [] = a ++ ',' :: (b ++ ',' :: c) by simp]
      exact .cons ha (.cons hb (.last hc))
    · cases rest with
      | nil => cases hr
      | cons x rest =>
        cases hr
        obtain ⟨ws, hws⟩ := exists_split rest
        refine ⟨a, b, c, ws, bytes, ?_, h1, h2, h3⟩
        rw [show a ++ ',' :: b ++ ',' :: c ++ ',' :: rest = a ++ ',' :: (b ++ ',' :: (c ++ ',' :: rest)) by simp]
        exact .cons ha (.cons hb (.cons hc hws))
  · rintro ⟨a, b, c, more, bytes, hs, h1, h2, h3⟩
    cases hs with
    | cons ha hs =>
      cases hs with
      | cons hb hs =>
        cases hs with
        | last hc => exact ⟨a, b, c, [], bytes, by simp, ha, hb, hc, .inl rfl, h1, h2, h3⟩
        | @cons _ rest _ hc _ => exact ⟨a, b, c, ',' :: rest, bytes, by simp, ha, hb, hc, .inr rfl, h1, h2, h3⟩

theorem pages_iff (bytes : List Byte) : (∃ pages : List InavPage, bitsOf bytes = pages.flatMap InavPage.bits) ↔ bytes.length % 30 = 0 := by
  constructor
  · rintro ⟨pages, h⟩; exact (chunks_pages h).1
  · suffices h : ∀ (n : Nat) (bytes : List Byte), bytes.length = 30 * n → ∃ pages : List InavPage, bitsOf bytes = pages.flatMap InavPage.bits by
      intro hm
      exact h (bytes.length / 30) bytes (by omega)
    intro n
    induction n with
    | zero =>
      intro bytes h
      have : bytes = [] := List.length_eq_zero_iff.1 (by omega)
      subst this
      exact ⟨[], rfl⟩
    | succ n ih =>
      intro bytes h
      obtain ⟨p, hp⟩ := C46_every_page (bytes.take 30) (by simp; omega)
      obtain ⟨ps, hps⟩ := ih (bytes.drop 30) (by simp; omega)
      refine ⟨p :: ps, ?_⟩
      rw [List.flatMap_cons, ← hp, ← hps, ← bitsOf_append, List.take_append_drop]

theorem pagePackets_long (start : Gst) {svn : Nat} (hsvn : svn < 2 ^ 32) : ∀ (pages : List InavPage) (chunks : List (List Byte)) (k : Nat) (gst : Gst),
    gst.abs = start.abs + 2 * k → chunks.map bitsOf = pages.map InavPage.bits →
    ¬ start.abs + 2 * (k + pages.length) < 65536 * 604800 → (pagePackets svn gst chunks).Panics := by
  intro pages
  induction pages with
  | nil =>
    intro chunks k gst hg hc ht
    have := gst.abs_representable
    unfold Representable at this
    simp only [List.length_nil] at ht
    omega
  | cons p pages ih =>
    intro chunks k gst hg hc ht
    cases chunks with
    | nil => simp at hc
    | cons c chunks =>
      simp only [List.map_cons, List.cons.injEq] at hc
      simp only [List.length_cons] at ht
      obtain ⟨i, hi, _⟩ := pagePacket_page hsvn gst p hc.1
      rw [pagePackets]
      cases hn : gst.addSeconds 2 with
      | panic m => exact ⟨m, rfl⟩
      | ok next =>
        obtain ⟨_, hnext⟩ := (Gst.addSeconds_eq_ok (by omega)).1 hn
        obtain ⟨m, hm⟩ := ih chunks (k + 1) next (by rw [hnext, hg]; omega) hc.2 (by omega)
        refine ⟨m, ?_⟩
        rw [Res.ok_bind, hi, Res.ok_bind, hm]
        rfl

/-! ## A line -/

variable {start : Gst}

theorem csvLine_eq {v : CsvLine} {text : List Char} (h : v.Text text) : v.sat < 2 ^ 32 ∧ ∃ chunks, chunks.map bitsOf = v.pages.map InavPage.bits ∧
    csvLineToPages (points text) start = (do let l ← pagePackets v.sat start chunks; pure (.ok l)) := by
  obtain ⟨a, b, c, more, bytes, hs, h1, h2, h3⟩ := text_iff.1 h
  refine ⟨h1.choose_spec.2.2.2, chunksExact 30 bytes, (chunks_pages h3).2, ?_⟩
  unfold csvLineToPages
  rw [hs.eq]
  simp only [List.map_cons]
  rw [(parseUint_iff (by decide)).2 h1]
  simp only
  rw [hexDecode_iff.2 h2]
  simp only
  rw [if_neg (by have := (chunks_pages h3).1; omega)]

theorem csvLine_fits {v : CsvLine} {text : List Char} (h : v.Text text) (hf : v.Fits start.abs) :
    ∃ is, csvLineToPages (points text) start = .ok (.ok is) ∧ is.length = v.pages.length ∧
      ∀ (j : Nat) (p : InavPage) (i : GalileoInav), v.pages[j]? = some p → is[j]? = some i → PacketFor start v.sat j p i := by
  obtain ⟨hs, chunks, hc, he⟩ := csvLine_eq (start := start) h
  obtain ⟨is, h1, h2, h3⟩ := pagePackets_pages start hs v.pages chunks 0 start (by simp) hc (by unfold CsvLine.Fits at hf; omega)
  refine ⟨is, ?_, h2, fun j p i hp hi => by simpa using h3 j p i hp hi⟩
  rw [he, h1]
  rfl

theorem csvLine_long {v : CsvLine} {text : List Char} (h : v.Text text) (hf : ¬ v.Fits start.abs) :
    (csvLineToPages (points text) start).Panics := by
  obtain ⟨hs, chunks, hc, he⟩ := csvLine_eq (start := start) h
  obtain ⟨m, hm⟩ := pagePackets_long start hs v.pages chunks 0 start (by simp) hc (by unfold CsvLine.Fits at hf; omega)
  exact ⟨m, by rw [he, hm]; rfl⟩

theorem csvLine_bad {text : List Char} (h : ¬ ∃ v : CsvLine, v.Text text) : csvLineToPages (points text) start = .ok (.error ()) := by
  obtain ⟨ws, hs⟩ := exists_split text
  unfold csvLineToPages
  rw [hs.eq]
  match ws, hs with
  | [], _ => rfl
  | a :: ws, hs =>
    simp only [List.map_cons]
    cases hn : parseUint (2 ^ 32) (points a) with
    | none => rfl
    | some n =>
      match ws, hs with
      | [], _ => rfl
      | [_], _ => rfl
      | b :: c :: more, hs =>
        simp only [List.map_cons]
        cases hx : hexDecode (points c) with
        | none => rfl
        | some bytes =>
          simp only
          by_cases hl : bytes.length % 30 = 0
          · exfalso
            obtain ⟨pages, hp⟩ := (pages_iff bytes).2 hl
            exact h ⟨⟨n, pages⟩, text_iff.2 ⟨a, b, c, more, bytes, hs, (parseUint_iff (by decide)).1 hn, hexDecode_iff.1 hx, hp⟩⟩
          · rw [if_pos hl]

/-! ## All lines -/

/-- The packets of each line are those for its pages. -/
def LinesOk (start : Gst) (vs : List CsvLine) (iss : List (List GalileoInav)) : Prop :=
  iss.length = vs.length ∧ ∀ (n : Nat) (v : CsvLine) (is : List GalileoInav), vs[n]? = some v → iss[n]? = some is → is.length = v.pages.length ∧
    ∀ (j : Nat) (p : InavPage) (i : GalileoInav), v.pages[j]? = some p → is[j]? = some i → PacketFor start v.sat j p i

theorem AllText.nil_iff {vs : List CsvLine} : AllText vs [] ↔ vs = [] := by
  constructor
  · rintro ⟨h, _⟩; exact List.length_eq_zero_iff.1 h
  · rintro rfl; exact ⟨rfl, by simp⟩

theorem AllText.cons_iff {v : CsvLine} {vs : List CsvLine} {t : List Char} {ts : List (List Char)} :
    AllText (v :: vs) (t :: ts) ↔ v.Text t ∧ AllText vs ts := by
  unfold AllText
  simp only [List.length_cons, List.zip_cons_cons, List.mem_cons]
  constructor
  · rintro ⟨h1, h2⟩; exact ⟨h2 (v, t) (.inl rfl), by omega, fun x hx => h2 x (.inr hx)⟩
  · rintro ⟨h1, h2, h3⟩
    refine ⟨by omega, fun x hx => ?_⟩
    rcases hx with rfl | hx
    · exact h1
    · exact h3 x hx

theorem csvPages_good : ∀ {vs : List CsvLine} {texts : List (List Char)}, AllText vs texts → (∀ v ∈ vs, v.Fits start.abs) →
    ∃ iss, csvPages start (texts.map points) = .ok (.ok iss) ∧ LinesOk start vs iss := by
  intro vs
  induction vs with
  | nil =>
    intro texts h _
    have : texts = [] := List.length_eq_zero_iff.1 h.1.symm
    subst this
    exact ⟨[], rfl, rfl, by simp⟩
  | cons v vs ih =>
    intro texts h hf
    cases texts with
    | nil => cases h.1
    | cons t texts =>
      obtain ⟨h1, h2⟩ := AllText.cons_iff.1 h
      obtain ⟨is, a1, a2, a3⟩ := csvLine_fits h1 (hf v (by simp))
      obtain ⟨iss, b1, b2, b3⟩ := ih h2 (fun v hv => hf v (by simp [hv]))
      refine ⟨is :: iss, ?_, by simp [b2], ?_⟩
      · rw [List.map_cons, csvPages, a1, Res.ok_bind]
        simp only
        rw [b1]
        rfl
      · intro n v' is' hv hi
        cases n with
        | zero =>
          simp only [List.getElem?_cons_zero, Option.some.injEq] at hv hi
          subst hv hi
          exact ⟨a2, a3⟩
        | succ n =>
          simp only [List.getElem?_cons_succ] at hv hi
          exact b3 n v' is' hv hi

theorem csvPages_after {vs : List CsvLine} {line : List Char} {post : List (List Char)} {r : Res (Except Unit (List GalileoInav))}
    (hr : csvLineToPages (points line) start = r) : ∀ {pre : List (List Char)}, AllText vs pre → (∀ v ∈ vs, v.Fits start.abs) →
    (r = .ok (.error ()) → csvPages start ((pre ++ line :: post).map points) = .ok (.error ())) ∧
    (r.Panics → (csvPages start ((pre ++ line :: post).map points)).Panics) := by
  induction vs with
  | nil =>
    intro pre h _
    have : pre = [] := List.length_eq_zero_iff.1 h.1.symm
    subst this
    rw [List.nil_append, List.map_cons, csvPages, hr]
    constructor
    · rintro rfl; rfl
    · rintro ⟨m, rfl⟩; exact ⟨m, rfl⟩
  | cons v vs ih =>
    intro pre h hf
    cases pre with
    | nil => cases h.1
    | cons t pre =>
      obtain ⟨h1, h2⟩ := AllText.cons_iff.1 h
      obtain ⟨is, a1, _⟩ := csvLine_fits h1 (hf v (by simp))
      obtain ⟨i1, i2⟩ := ih h2 (fun v hv => hf v (by simp [hv]))
      rw [List.cons_append, List.map_cons, csvPages, a1, Res.ok_bind]
      simp only
      constructor
      · intro e; rw [i1 e]; rfl
      · intro e
        obtain ⟨m, hm⟩ := i2 e
        exact ⟨m, by rw [hm]; rfl⟩

/-- There is a first line that is not as it should be, or none. -/
theorem lines_cases (start : Int) (texts : List (List Char)) :
    (∃ vs, AllText vs texts ∧ ∀ v ∈ vs, v.Fits start) ∨
    ∃ vs pre line post, texts = pre ++ line :: post ∧ AllText vs pre ∧ (∀ v ∈ vs, v.Fits start) ∧
      ((¬ ∃ v : CsvLine, v.Text line) ∨ ∃ v : CsvLine, v.Text line ∧ ¬ v.Fits start) := by
  induction texts with
  | nil => exact .inl ⟨[], ⟨rfl, by simp⟩, by simp⟩
  | cons t texts ih =>
    by_cases hv : ∃ v : CsvLine, v.Text t
    · obtain ⟨v, hv⟩ := hv
      by_cases hf : v.Fits start
      · rcases ih with ⟨vs, h1, h2⟩ | ⟨vs, pre, line, post, rfl, h1, h2, h3⟩
        · refine .inl ⟨v :: vs, AllText.cons_iff.2 ⟨hv, h1⟩, fun w hw => ?_⟩
          rcases List.mem_cons.1 hw with rfl | hw
          · exact hf
          · exact h2 w hw
        · refine .inr ⟨v :: vs, t :: pre, line, post, rfl, AllText.cons_iff.2 ⟨hv, h1⟩, fun w hw => ?_, h3⟩
          rcases List.mem_cons.1 hw with rfl | hw
          · exact hf
          · exact h2 w hw
      · exact .inr ⟨[], [], t, texts, rfl, ⟨rfl, by simp⟩, by simp, .inr ⟨v, hv, hf⟩⟩
    · exact .inr ⟨[], [], t, texts, rfl, ⟨rfl, by simp⟩, by simp, .inl hv⟩

/-! ## Order -/

theorem Packets.nil : Packets start [] [] := ⟨rfl, by simp⟩

theorem Packets.cons {x : Nat × Nat × InavPage} {xs : List (Nat × Nat × InavPage)} {i : GalileoInav} {is : List GalileoInav}
    (h : PacketFor start x.1 x.2.1 x.2.2 i) (hs : Packets start xs is) : Packets start (x :: xs) (i :: is) := by
  refine ⟨by simp [hs.1], fun n y j hy hj => ?_⟩
  cases n with
  | zero =>
    simp only [List.getElem?_cons_zero, Option.some.injEq] at hy hj
    subst hy hj
    exact h
  | succ n =>
    simp only [List.getElem?_cons_succ] at hy hj
    exact hs.2 n y j hy hj

theorem Packets.append {a c : List (Nat × Nat × InavPage)} {b d : List GalileoInav} (h1 : Packets start a b) (h2 : Packets start c d) :
    Packets start (a ++ c) (b ++ d) := by
  induction a generalizing b with
  | nil =>
    have : b = [] := List.length_eq_zero_iff.1 h1.1
    subst this
    exact h2
  | cons x a ih =>
    cases b with
    | nil => cases h1.1
    | cons i b =>
      refine .cons (h1.2 0 x i rfl rfl) (ih ⟨by have := h1.1; simpa using this, fun n y j hy hj => h1.2 (n + 1) y j hy hj⟩)

theorem round_packets (k : Nat) : ∀ {vs : List CsvLine} {iss : List (List GalileoInav)}, LinesOk start vs iss →
    Packets start (vs.filterMap fun v => v.pages[k]?.map fun p => (v.sat, k, p)) (roundOf iss k) := by
  intro vs
  induction vs with
  | nil =>
    rintro iss ⟨hl, _⟩
    have : iss = [] := by simpa using hl
    subst this
    exact .nil
  | cons v vs ih =>
    rintro iss ⟨hl, h⟩
    cases iss with
    | nil => simp at hl
    | cons is iss =>
      have ih := ih (iss := iss) ⟨by simpa using hl, fun n v' is' hv hi => h (n + 1) v' is' (by simpa using hv) (by simpa using hi)⟩
      obtain ⟨h1, h2⟩ := h 0 v is rfl rfl
      unfold roundOf at ih ⊢
      rw [List.filterMap_cons, List.filterMap_cons]
      by_cases hk : k < v.pages.length
      · have e1 : v.pages[k]? = some v.pages[k] := List.getElem?_eq_getElem hk
        have e2 : is[k]? = some (is[k]'(by omega)) := List.getElem?_eq_getElem (by omega)
        rw [e1, e2]
        exact .cons (h2 k _ _ e1 e2) ih
      · have e1 : v.pages[k]? = none := List.getElem?_eq_none (by omega)
        have e2 : is[k]? = none := List.getElem?_eq_none (by omega)
        rw [e1, e2]
        exact ih

theorem rounds_packets {vs : List CsvLine} {iss : List (List GalileoInav)} (h : LinesOk start vs iss) : Packets start (byTime vs) (rounds iss 0) := by
  have hl := h.1
  have hlen : iss.map List.length = vs.map fun v => v.pages.length := by
    apply List.ext_getElem?
    intro n
    rw [List.getElem?_map, List.getElem?_map]
    by_cases hn : n < vs.length
    · have e1 : vs[n]? = some vs[n] := List.getElem?_eq_getElem hn
      have e2 : iss[n]? = some (iss[n]'(by omega)) := List.getElem?_eq_getElem (by omega)
      rw [e1, e2]
      simp [(h.2 n _ _ e1 e2).1]
    · rw [List.getElem?_eq_none (by omega), List.getElem?_eq_none (by omega)]; rfl
  rw [rounds_eq iss _ 0 (by rw [Nat.zero_add, hlen])]
  unfold byTime
  rw [List.range_eq_range']
  generalize (vs.map fun v => v.pages.length).foldr max 0 = m
  generalize 0 = k0
  induction m generalizing k0 with
  | zero => exact .nil
  | succ m ih =>
    rw [List.range'_succ, List.flatMap_cons, List.flatMap_cons]
    exact (round_packets k0 h).append (ih _)

/-! ## Uniqueness -/

theorem InavPage.bits_inj {p q : InavPage} (h : p.bits = q.bits) : p = q := by
  obtain ⟨a1, a2, a3, a4, a5, a6, a7, a8, a9, a10, a11, a12, a13, h1, h2, h3, h4, h5, h6, h7, h8, h9⟩ := p
  obtain ⟨b1, b2, b3, b4, b5, b6, b7, b8, b9, b10, b11, b12, b13, k1, k2, k3, k4, k5, k6, k7, k8, k9⟩ := q
  simp only [InavPage.bits, List.append_assoc, List.cons_append, List.nil_append, List.cons.injEq] at h
  obtain ⟨e1, e2, g1⟩ := h
  obtain ⟨e3, g2⟩ := List.append_inj g1 (by rw [h1, k1])
  obtain ⟨e4, g3⟩ := List.append_inj g2 (by rw [h2, k2])
  simp only [List.cons.injEq] at g3
  obtain ⟨e5, e6, g4⟩ := g3
  obtain ⟨e7, g5⟩ := List.append_inj g4 (by rw [h3, k3])
  obtain ⟨e8, g6⟩ := List.append_inj g5 (by rw [h4, k4])
  obtain ⟨e9, g7⟩ := List.append_inj g6 (by rw [h5, k5])
  obtain ⟨e10, g8⟩ := List.append_inj g7 (by rw [h6, k6])
  obtain ⟨e11, g9⟩ := List.append_inj g8 (by rw [h7, k7])
  obtain ⟨e12, e13⟩ := List.append_inj g9 (by rw [h8, k8])
  subst e1 e2 e3 e4 e5 e6 e7 e8 e9 e10 e11 e12 e13
  rfl

theorem pages_inj : ∀ {ps qs : List InavPage}, ps.flatMap InavPage.bits = qs.flatMap InavPage.bits → ps = qs := by
  intro ps
  induction ps with
  | nil =>
    intro qs h
    cases qs with
    | nil => rfl
    | cons q qs =>
      have := congrArg List.length h
      rw [List.flatMap_cons, List.length_append, q.bits_length] at this
      simp only [List.flatMap_nil, List.length_nil] at this
      omega
  | cons p ps ih =>
    intro qs h
    cases qs with
    | nil =>
      have := congrArg List.length h
      rw [List.flatMap_cons, List.length_append, p.bits_length] at this
      simp only [List.flatMap_nil, List.length_nil] at this
      omega
    | cons q qs =>
      rw [List.flatMap_cons, List.flatMap_cons] at h
      obtain ⟨h1, h2⟩ := List.append_inj h (by rw [p.bits_length, q.bits_length])
      rw [InavPage.bits_inj h1, ih h2]

theorem CsvLine.Text.unique {v w : CsvLine} {text : List Char} (h : v.Text text) (h' : w.Text text) : v = w := by
  obtain ⟨a, b, c, more, bytes, hs, h1, h2, h3⟩ := text_iff.1 h
  obtain ⟨a', b', c', more', bytes', hs', h1', h2', h3'⟩ := text_iff.1 h'
  have := hs.unique hs'
  simp only [List.cons.injEq] at this
  obtain ⟨rfl, rfl, rfl, rfl⟩ := this
  obtain rfl := h2.unique h2'
  obtain ⟨sat, pages⟩ := v
  obtain ⟨sat', pages'⟩ := w
  rw [show sat = sat' from h1.unique h1', show pages = pages' from pages_inj (h3.symm.trans h3')]

theorem AllText.unique {vs ws : List CsvLine} : ∀ {texts : List (List Char)}, AllText vs texts → AllText ws texts → vs = ws := by
  induction vs generalizing ws with
  | nil =>
    intro texts h h'
    have : texts = [] := List.length_eq_zero_iff.1 h.1.symm
    subst this
    exact (AllText.nil_iff.1 h').symm
  | cons v vs ih =>
    intro texts h h'
    cases texts with
    | nil => cases h.1
    | cons t texts =>
      cases ws with
      | nil => cases h'.1
      | cons w ws =>
        obtain ⟨h1, h2⟩ := AllText.cons_iff.1 h
        obtain ⟨h1', h2'⟩ := AllText.cons_iff.1 h'
        rw [h1.unique h1', ih h2 h2']

theorem PacketFor.unique {k svn : Nat} {p : InavPage} {i j : GalileoInav} (h : PacketFor start svn k p i) (h' : PacketFor start svn k p j) : i = j := by
  have ob : ∀ {a b : Option (List Byte)} {l : List Bool}, a.map bitsOf = some l → b.map bitsOf = some l → a = b := by
    intro a b l ha hb
    obtain ⟨x, rfl, hx⟩ := Option.map_eq_some_iff.1 ha
    obtain ⟨y, rfl, hy⟩ := Option.map_eq_some_iff.1 hb
    rw [bitsOf_inj (hx.trans hy.symm)]
  have h1 : i.gnssWn = j.gnssWn ∧ i.gnssTow = j.gnssTow := by
    have a := h.time.trans h'.time.symm
    have b := h.wnTow
    have c := h'.wnTow
    unfold GalileoInav.secs at a
    exact ⟨BitVec.eq_of_toNat_eq (by omega), BitVec.eq_of_toNat_eq (by omega)⟩
  have h2 : i.gnssSv = j.gnssSv := BitVec.eq_of_toNat_eq (h.sv.trans h'.sv.symm)
  have h3 : i.contents = j.contents := bitsOf_inj (h.contents.trans h'.contents.symm)
  have h4 : i.reserved1 = j.reserved1 := by
    obtain ⟨d, hd, hx⟩ := h.osnma
    obtain ⟨d', hd', hx'⟩ := h'.osnma
    rw [hd, hd', bitsOf_inj (hx.trans hx'.symm)]
  have h5 : i.ssp = j.ssp := by
    obtain ⟨x, hx, ex⟩ := Option.map_eq_some_iff.1 h.ssp.1
    obtain ⟨y, hy, ey⟩ := Option.map_eq_some_iff.1 h'.ssp.1
    rw [hx, hy, BitVec.eq_of_toNat_eq (ex.trans ey.symm)]
  have h6 : i.spare = j.spare := by
    obtain ⟨x, hx, ex⟩ := Option.map_eq_some_iff.1 h.spare
    obtain ⟨y, hy, ey⟩ := Option.map_eq_some_iff.1 h'.spare
    rw [hx, hy, List.map_inj_right (fun _ _ h => BitVec.eq_of_toNat_eq h) |>.1 (ex.trans ey.symm)]
  have h7 := ob h.ssp.2 h'.ssp.2
  have h8 := ob h.sar h'.sar
  have h9 := ob h.crc h'.crc
  have h10 := h.sigid.trans h'.sigid.symm
  have h11 := h.gnssId.trans h'.gnssId.symm
  cases i
  cases j
  simp only [GalileoInav.mk.injEq]
  exact ⟨h1.1, h1.2, h11, h2, h3, h10, h4, h7, h8, h6, h9, h5⟩

theorem Packets.unique {xs : List (Nat × Nat × InavPage)} {is js : List GalileoInav} (h : Packets start xs is) (h' : Packets start xs js) : is = js := by
  apply List.ext_getElem?
  intro n
  by_cases hn : n < xs.length
  · have e1 : xs[n]? = some xs[n] := List.getElem?_eq_getElem hn
    have e2 : is[n]? = some (is[n]'(by rw [h.1]; exact hn)) := List.getElem?_eq_getElem _
    have e3 : js[n]? = some (js[n]'(by rw [h'.1]; exact hn)) := List.getElem?_eq_getElem _
    rw [e2, e3, (h.2 n _ _ e1 e2).unique (h'.2 n _ _ e1 e3)]
  · rw [List.getElem?_eq_none (by rw [h.1]; omega), List.getElem?_eq_none (by rw [h'.1]; omega)]

end Verif
