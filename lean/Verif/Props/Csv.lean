import Verif.Lemmas.Csv

/-! # C68: exactly which files the converter accepts -/

namespace Verif

variable {N : Navmon}

/-- The time is in the range of GST: from 1999-08-22 00:00:00 on (Unix time 935280000), for 65536 weeks. -/
def TimeIn (t : Int) : Prop := 935280000 ≤ t ∧ t < 935280000 + 65536 * 604800

/-- The file is as it should be. -/
def FileGood (t : Int) (file : List Byte) (vs : List CsvLine) : Prop :=
  ∃ s, Utf8Of file s ∧ CsvFile vs s ∧ ∀ v ∈ vs, v.Fits (t - 935280000)

/-- The lines before this one are as they should be. -/
def FirstBad (t : Int) (file : List Byte) (line : List Char) : Prop :=
  ∃ s header vs pre post, Utf8Of file s ∧ TextLines s (header :: (pre ++ line :: post)) ∧ AllText vs pre ∧ ∀ v ∈ vs, v.Fits (t - 935280000)

theorem convert_good (hN : ∀ i : GalileoInav, i.payload ≤ 60000 → Framable (N.encode (N.ofInav i))) {t : Int} {start : Gst} {file : List Byte}
    {vs : List CsvLine} (ht : (start.abs : Int) = t - 935280000) (h : FileGood t file vs) :
    ∃ is, Packets start (byTime vs) is ∧ convertFile N t file = .ok (.ok ⟨frames N (is.map N.ofInav), none⟩) := by
  obtain ⟨s, hu, ⟨header, texts, hl, ha⟩, hf⟩ := h
  rw [← ht] at hf
  obtain ⟨iss, h1, h2⟩ := csvPages_good ha hf
  have hp := rounds_packets h2
  refine ⟨rounds iss 0, hp, ?_⟩
  unfold convertFile
  rw [((C46_time t).1 start).2 ht, Res.ok_bind, utf8_iff.2 ⟨s, hu, rfl⟩]
  simp only
  unfold convertMain
  rw [((C46_time t).1 start).2 ht, Res.ok_bind, hl.eq]
  simp only [List.map_cons]
  rw [h1, Res.ok_bind]
  refine convert_writes (rounds iss 0) [] (fun i hi => hN i ?_)
  obtain ⟨n, hn⟩ := List.mem_iff_getElem?.1 hi
  have hlt : n < (byTime vs).length := by rw [← hp.1]; exact (List.getElem?_eq_some_iff.1 hn).1
  exact (hp.2 n _ i (List.getElem?_eq_getElem hlt) hn).payload

theorem convert_bad {t : Int} (ht : TimeIn t) {file : List Byte}
    (h : (¬ ∃ s, Utf8Of file s) ∨ file = [] ∨ ∃ line, FirstBad t file line ∧ ¬ ∃ v : CsvLine, v.Text line) : convertFile N t file = .ok (.error ()) := by
  obtain ⟨start, hs⟩ := (C46_time t).2.2 ht
  have hst := ((C46_time t).1 start).1 hs
  unfold convertFile
  rw [hs, Res.ok_bind]
  rcases h with h | rfl | ⟨line, ⟨s, header, vs, pre, post, hu, hl, ha, hf⟩, hb⟩
  · have : utf8 file = none := by
      cases hx : utf8 file with
      | none => rfl
      | some cs =>
        obtain ⟨s, hs, _⟩ := utf8_iff.1 hx
        exact absurd ⟨s, hs⟩ h
    rw [this]
    rfl
  · have : utf8 [] = some [] := rfl
    rw [this]
    simp only
    unfold convertMain
    rw [hs]
    rfl
  · rw [utf8_iff.2 ⟨s, hu, rfl⟩]
    simp only
    unfold convertMain
    rw [hs, Res.ok_bind, hl.eq]
    simp only [List.map_cons]
    rw [← hst] at hf
    rw [(csvPages_after (post := post) (csvLine_bad hb) ha hf).1 rfl]
    rfl

theorem convert_panics {t : Int} {file : List Byte}
    (h : ¬ TimeIn t ∨ ∃ line, FirstBad t file line ∧ ∃ v : CsvLine, v.Text line ∧ ¬ v.Fits (t - 935280000)) : (convertFile N t file).Panics := by
  by_cases ht : TimeIn t
  · rcases h with h | ⟨line, ⟨s, header, vs, pre, post, hu, hl, ha, hf⟩, v, hv, hb⟩
    · exact absurd ht h
    · obtain ⟨start, hs⟩ := (C46_time t).2.2 ht
      have hst := ((C46_time t).1 start).1 hs
      unfold convertFile
      rw [hs, Res.ok_bind, utf8_iff.2 ⟨s, hu, rfl⟩]
      simp only
      unfold convertMain
      rw [hs, Res.ok_bind, hl.eq]
      simp only [List.map_cons]
      rw [← hst] at hf hb
      obtain ⟨m, hm⟩ := (csvPages_after (post := post) rfl ha hf).2 (csvLine_long hv hb)
      exact ⟨m, by rw [hm]; rfl⟩
  · unfold convertFile
    cases hx : timestampToGst t with
    | ok g => exact absurd ((C46_time t).2.1 ⟨g, hx⟩) ht
    | panic m => exact ⟨m, rfl⟩

theorem convert_cases (t : Int) (file : List Byte) :
    (TimeIn t ∧ ∃ vs, FileGood t file vs) ∨
    (TimeIn t ∧ ((¬ ∃ s, Utf8Of file s) ∨ file = [] ∨ ∃ line, FirstBad t file line ∧ ¬ ∃ v : CsvLine, v.Text line)) ∨
    (¬ TimeIn t ∨ ∃ line, FirstBad t file line ∧ ∃ v : CsvLine, v.Text line ∧ ¬ v.Fits (t - 935280000)) := by
  by_cases ht : TimeIn t
  · by_cases hu : ∃ s, Utf8Of file s
    · obtain ⟨s, hu⟩ := hu
      obtain ⟨ls, hl⟩ := exists_lines s
      cases ls with
      | nil =>
        cases hl
        have : file = [] := by unfold Utf8Of at hu; simpa using hu
        exact .inr (.inl ⟨ht, .inr (.inl this)⟩)
      | cons header texts =>
        rcases lines_cases (t - 935280000) texts with ⟨vs, h1, h2⟩ | ⟨vs, pre, line, post, rfl, h1, h2, h3 | h3⟩
        · exact .inl ⟨ht, vs, s, hu, ⟨header, texts, hl, h1⟩, h2⟩
        · exact .inr (.inl ⟨ht, .inr (.inr ⟨line, ⟨s, header, vs, pre, post, hu, hl, h1, h2⟩, h3⟩)⟩)
        · exact .inr (.inr (.inr ⟨line, ⟨s, header, vs, pre, post, hu, hl, h1, h2⟩, h3⟩))
    · exact .inr (.inl ⟨ht, .inl hu⟩)
  · exact .inr (.inr (.inl ht))

section
variable (hN : ∀ i : GalileoInav, i.payload ≤ 60000 → Framable (N.encode (N.ofInav i)))
include hN

/-- **C68, success.**  The converter succeeds exactly on files of UTF-8 text with a header line and then lines with a number below 2³², a field that is
ignored and any number of 30-byte pages in hexadecimal, that start at a time of GST and end in its range. -/
theorem C68_succeeds (t : Int) (file : List Byte) :
    (∃ w, convertFile N t file = .ok (.ok w)) ↔ TimeIn t ∧ ∃ vs, FileGood t file vs := by
  constructor
  · rintro ⟨w, hw⟩
    rcases convert_cases t file with h | ⟨ht, h⟩ | h
    · exact h
    · rw [convert_bad ht h] at hw
      cases hw
    · obtain ⟨m, hm⟩ := convert_panics (N := N) h
      rw [hm] at hw
      cases hw
  · rintro ⟨ht, vs, h⟩
    obtain ⟨start, hs⟩ := (C46_time t).2.2 ht
    obtain ⟨is, _, h1⟩ := convert_good hN (((C46_time t).1 start).1 hs) h
    exact ⟨_, h1⟩

/-- **C68, output.**  Then it writes the packets of all the pages, by time. -/
theorem C68_output {t : Int} {start : Gst} {file : List Byte} {vs : List CsvLine} (ht : (start.abs : Int) = t - 935280000) (h : FileGood t file vs) :
    ∃ is, Packets start (byTime vs) is ∧ convertFile N t file = .ok (.ok ⟨frames N (is.map N.ofInav), none⟩) := convert_good hN ht h

/-- **C68, failure.**  It fails, without output, exactly on a file that is not UTF-8, is empty, or has a line that is not of this form, with no line before
it that makes the program panic. -/
theorem C68_fails (t : Int) (file : List Byte) : convertFile N t file = .ok (.error ()) ↔
    TimeIn t ∧ ((¬ ∃ s, Utf8Of file s) ∨ file = [] ∨ ∃ line, FirstBad t file line ∧ ¬ ∃ v : CsvLine, v.Text line) := by
  constructor
  · intro hw
    rcases convert_cases t file with ⟨ht, vs, h⟩ | h | h
    · obtain ⟨start, hs⟩ := (C46_time t).2.2 ht
      obtain ⟨is, _, h1⟩ := convert_good hN (((C46_time t).1 start).1 hs) h
      rw [h1] at hw
      cases hw
    · exact h
    · obtain ⟨m, hm⟩ := convert_panics (N := N) h
      rw [hm] at hw
      cases hw
  · rintro ⟨ht, h⟩
    exact convert_bad ht h

/-- **C68, panics.**  It panics exactly if the time in the file name is out of range, or a line goes on past the end of GST, with only correct lines
before it. -/
theorem C68_panics (t : Int) (file : List Byte) : (convertFile N t file).Panics ↔
    ¬ TimeIn t ∨ ∃ line, FirstBad t file line ∧ ∃ v : CsvLine, v.Text line ∧ ¬ v.Fits (t - 935280000) := by
  constructor
  · rintro ⟨m, hw⟩
    rcases convert_cases t file with ⟨ht, vs, h⟩ | ⟨ht, h⟩ | h
    · obtain ⟨start, hs⟩ := (C46_time t).2.2 ht
      obtain ⟨is, _, h1⟩ := convert_good hN (((C46_time t).1 start).1 hs) h
      rw [h1] at hw
      cases hw
    · rw [convert_bad ht h] at hw
      cases hw
    · exact h
  · exact convert_panics

end

/-- **C68, no ambiguity.**  No file has two readings, and the packets are determined by the pages. -/
theorem C68_unambiguous {t : Int} {start : Gst} {file : List Byte} {vs ws : List CsvLine} (h : FileGood t file vs) (h' : FileGood t file ws) :
    vs = ws ∧ ∀ is js, Packets start (byTime vs) is → Packets start (byTime ws) js → is = js := by
  obtain ⟨s, hu, ⟨header, texts, hl, ha⟩, _⟩ := h
  obtain ⟨s', hu', ⟨header', texts', hl', ha'⟩, _⟩ := h'
  obtain rfl := hu.unique hu'
  have := hl.unique hl'
  simp only [List.cons.injEq] at this
  obtain ⟨rfl, rfl⟩ := this
  obtain rfl := ha.unique ha'
  exact ⟨rfl, fun is js h1 h2 => h1.unique h2⟩

/-- **C68.**  Each page of each line is written once, and nothing else. -/
theorem C68_all_pages (vs : List CsvLine) (sat k : Nat) (p : InavPage) :
    (sat, k, p) ∈ byTime vs ↔ ∃ v ∈ vs, v.sat = sat ∧ v.pages[k]? = some p := by
  unfold byTime
  simp only [List.mem_flatMap, List.mem_filterMap, List.mem_range]
  constructor
  · rintro ⟨k', _, v, hv, h⟩
    cases hg : v.pages[k']? with
    | none => rw [hg] at h; cases h
    | some p' => rw [hg] at h; cases h; exact ⟨v, hv, rfl, hg⟩
  · rintro ⟨v, hv, rfl, hg⟩
    refine ⟨k, ?_, v, hv, by rw [hg]; rfl⟩
    have := (List.getElem?_eq_some_iff.1 hg).1
    have := le_foldr_max (List.mem_map.2 ⟨v, hv, rfl⟩ : v.pages.length ∈ vs.map fun v => v.pages.length)
    omega

/-! ## Examples -/

private def bytesOf (s : String) : List Byte := (s.toList.flatMap String.utf8EncodeChar).map (·.toBitVec)

private theorem bytesOf_utf8 (s : String) : Utf8Of (bytesOf s) s.toList := rfl

private def zeros : String := "000000000000000000000000000000000000000000000000000000000000"

/-- A file with a header, a line with CR LF and one without line end. -/
private def sample : String := "SVID,NumNavBits,NavBits\r\n+07,240," ++ zeros ++ ",more\r\n99,0,"

private def sampleTexts : List (List Char) := [("+07,240," ++ zeros ++ ",more").toList, "99,0,".toList]

private theorem sample_lines : TextLines sample.toList ("SVID,NumNavBits,NavBits".toList :: sampleTexts) :=
  .crlf (w := "SVID,NumNavBits,NavBits".toList) (rest := ("+07,240," ++ zeros ++ ",more\r\n99,0,").toList) (by decide +kernel)
    (.crlf (w := ("+07,240," ++ zeros ++ ",more").toList) (rest := "99,0,".toList) (by decide +kernel) (.last (by decide +kernel) (by decide +kernel)))

private theorem sample_zeros : HexOf zeros.toList (List.replicate 30 0#8) := hexDecode_iff.1 (by decide +kernel)

private theorem sample_all : ∃ p : InavPage, AllText [⟨7, [p]⟩, ⟨99, []⟩] sampleTexts := by
  obtain ⟨p, hp⟩ := C46_every_page (List.replicate 30 0#8) (by decide)
  refine ⟨p, AllText.cons_iff.2 ⟨?_, AllText.cons_iff.2 ⟨?_, AllText.nil_iff.2 rfl⟩⟩⟩
  · refine ⟨"+07".toList, "240".toList, zeros.toList, ",more".toList, List.replicate 30 0#8, by decide +kernel, by decide +kernel, by decide +kernel,
      by decide +kernel, .inr rfl, (parseUint_iff (by decide)).1 (show _ = some 7 by decide +kernel), sample_zeros, ?_⟩
    simpa using hp
  · exact ⟨"99".toList, "0".toList, [], [], [], by decide +kernel, by decide +kernel, by decide +kernel, by decide +kernel, .inl rfl,
      (parseUint_iff (by decide)).1 (by decide +kernel), .nil, rfl⟩

/-- The sample is converted, on 2023-08-16 (Unix time 1692162001). -/
example : ∃ w, convertFile prostNavmon 1692162001 (bytesOf sample) = .ok (.ok w) := by
  obtain ⟨p, hp⟩ := sample_all
  exact (C68_succeeds prostNavmon_small _ _).2 ⟨by unfold TimeIn; omega, _, _, bytesOf_utf8 _, ⟨_, _, sample_lines, hp⟩, by simp [CsvLine.Fits]⟩

/-- Its single packet. -/
example : ∃ p is, Packets ⟨1251, 277201, by decide, by decide⟩ [(7, 0, p)] is := by
  obtain ⟨p, hp⟩ := sample_all
  have hg : FileGood 1692162001 (bytesOf sample) _ := ⟨_, bytesOf_utf8 _, ⟨_, _, sample_lines, hp⟩, by simp [CsvLine.Fits]⟩
  obtain ⟨is, h1, _⟩ := C68_output prostNavmon_small (start := ⟨1251, 277201, by decide, by decide⟩) (by decide +kernel) hg
  exact ⟨p, is, h1⟩

/-- A line without a third field is an error. -/
example : (match convertFile prostNavmon 1692162001 (bytesOf "header\n7,240\n") with | .ok (.error ()) => true | _ => false) = true := by
  decide +kernel

/-- At the very end of GST the program panics. -/
example : (convertFile prostNavmon (935280000 + 65536 * 604800 - 1) (bytesOf ("header\n7,240," ++ zeros))).Panics := by
  obtain ⟨p, hp⟩ := C46_every_page (List.replicate 30 0#8) (by decide)
  refine (C68_panics prostNavmon_small _ _).2 (.inr ⟨("7,240," ++ zeros).toList, ⟨_, "header".toList, [], [], [], bytesOf_utf8 _, ?_, AllText.nil_iff.2 rfl,
    by simp⟩, ⟨7, [p]⟩, ?_, by unfold CsvLine.Fits; simp⟩)
  · exact .lf (w := "header".toList) (by decide +kernel) (by decide +kernel) (.last (by decide +kernel) (by decide +kernel))
  · refine ⟨"7".toList, "240".toList, zeros.toList, [], List.replicate 30 0#8, by decide +kernel, by decide +kernel, by decide +kernel,
      by decide +kernel, .inl rfl, (parseUint_iff (by decide)).1 (show _ = some 7 by decide +kernel), sample_zeros, ?_⟩
    simpa using hp

end Verif
