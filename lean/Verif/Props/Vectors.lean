import Verif.Lemmas.Prost
import Verif.Props.GalmonRuns
import Verif.Lemmas.Vectors
import Verif.Props.Galmon
import Verif.Props.GalmonOsnma

/-! # C46: the converter of test vectors -/

namespace Verif
open GalileoInav

variable {C : Crypto} {S : Storage} {N : Navmon}

/-- **C46, one page.**  The packet for a page with fields `p` received at `gst` states that time and satellite, and carries the
128-bit word and the 40 bits of OSNMA (and the other fields).  (`bitsOf page = p.bits` for some `p` whatever the 30 bytes: see
`C46_every_page`.) -/
theorem C46_page {svn : Nat} (hsvn : svn < 2 ^ 32) (gst : Gst) (p : InavPage) {page : List Byte} (h : bitsOf page = p.bits) :
    ∃ i, pagePacket svn gst page = .ok i ∧ PacketFor gst svn 0 p i := by
  obtain ⟨i, hi, f1, f2, f3, f4, f5, f6, f7, f8, f9, f10, f11⟩ := pagePacket_page hsvn gst p h
  exact ⟨i, hi, by rw [f1]; omega, f2, f3, f4, f5, f6, f7, f8, f9, f10, f11⟩

/-- Any 30 bytes are a page. -/
theorem C46_every_page (page : List Byte) (h : page.length = 30) : ∃ p : InavPage, bitsOf page = p.bits := by
  have hl : (bitsOf page).length = 240 := by rw [bitsOf_length, h]
  generalize bitsOf page = l at hl
  have cut : ∀ (l : List Bool) (n : Nat), l = l.take n ++ l.drop n := fun l n => (List.take_append_drop n l).symm
  match l, hl with
  | a :: b :: l, hl =>
    simp only [List.length_cons] at hl
    have h1 := cut l 112
    have h2 := cut (l.drop 112) 6
    match h3 : (l.drop 112).drop 6, (by simp; omega : ((l.drop 112).drop 6).length = 120) with
    | c :: d :: m, hm =>
      simp only [List.length_cons] at hm
      refine ⟨⟨a, b, l.take 112, (l.drop 112).take 6, c, d, m.take 16, (m.drop 16).take 40, ((m.drop 16).drop 40).take 22,
        (((m.drop 16).drop 40).drop 22).take 2, ((((m.drop 16).drop 40).drop 22).drop 2).take 24,
        (((((m.drop 16).drop 40).drop 22).drop 2).drop 24).take 8, (((((m.drop 16).drop 40).drop 22).drop 2).drop 24).drop 8,
        by simp; omega, by simp; omega, by simp; omega, by simp; omega, by simp; omega, by simp; omega, by simp; omega, by simp; omega,
        by simp; omega⟩, ?_⟩
      simp only [InavPage.bits, List.append_assoc, List.cons_append, List.nil_append, List.take_append_drop]
      rw [← h3, List.take_append_drop, List.take_append_drop]

/-- **C46, time.**  The file name gives the start time: seconds since 1999-08-22 00:00:00 (Unix time 935280000), when
they are in the range of GST; otherwise the program panics. -/
theorem C46_time (t : Int) :
    (∀ g : Gst, timestampToGst t = .ok g ↔ (g.abs : Int) = t - 935280000) ∧
    ((timestampToGst t).Returns ↔ 935280000 ≤ t ∧ t < 935280000 + 65536 * 604800) := by
  have key : ∀ g : Gst, timestampToGst t = .ok g ↔ (g.abs : Int) = t - 935280000 := by
    intro g
    unfold timestampToGst
    dsimp only
    by_cases h0 : 0 ≤ t - 935280000
    · have e1 := Int.tdiv_eq_ediv_of_nonneg h0 (b := 604800)
      by_cases h1 : (t - 935280000).tdiv 604800 < 65536
      · rw [dif_pos ⟨by omega, h1⟩, if_pos (by omega)]
        unfold Gst.new
        rw [dif_pos (by omega)]
        simp only [Res.ok.injEq]
        constructor
        · rintro rfl
          unfold Gst.abs
          simp only
          omega
        · intro h
          apply Gst.abs_inj
          rw [h]
          unfold Gst.abs
          simp only
          omega
      · rw [dif_neg (by omega)]
        simp only [reduceCtorEq, false_iff]
        have := g.abs_representable
        unfold Representable at this
        omega
    · have hneg : ¬ ((g.abs : Int) = t - 935280000) := by
        have := g.abs_representable
        unfold Representable at this
        omega
      simp only [hneg, iff_false]
      have e1 : (t - 935280000).tdiv 604800 = -((935280000 - t) / 604800) := by
        rw [show t - 935280000 = -(935280000 - t) by omega, Int.neg_tdiv, Int.tdiv_eq_ediv_of_nonneg (by omega)]
      by_cases h1 : 0 ≤ (t - 935280000).tdiv 604800 ∧ (t - 935280000).tdiv 604800 < 65536
      · rw [dif_pos h1, if_neg (by omega)]
        simp
      · rw [dif_neg h1]
        simp
  refine ⟨key, ?_⟩
  constructor
  · rintro ⟨g, hg⟩
    have := (key g).1 hg
    have := g.abs_representable
    unfold Representable at this
    omega
  · intro h
    obtain ⟨g, hg⟩ := exists_gst (t := t - 935280000) (by unfold Representable; omega)
    exact ⟨g, (key g).2 hg⟩

/-! ## The whole file -/

/-- The packets of pages are small. -/
theorem PacketFor.payload {start : Gst} {svn : Nat} {k : Nat} {p : InavPage} {i : GalileoInav} (h : PacketFor start svn k p i) :
    i.payload ≤ 60000 := by
  have hb : ∀ {x : Option (List Byte)} {b : List Bool}, x.map bitsOf = some b → 8 * (x.getD []).length = b.length := by
    intro x b hx
    cases x with
    | none => cases hx
    | some l => cases hx; simp [bitsOf_length]
  have h1 := congrArg List.length h.contents
  rw [bitsOf_length, InavPage.word, List.length_append, p.h1, p.h3] at h1
  obtain ⟨d, hd, h2⟩ := h.osnma
  have h2 := hb (x := i.reserved1) (by rw [hd, Option.map_some, h2])
  have h3 := hb h.ssp.2
  have h4 := hb h.sar
  have h5 := hb h.crc
  have h6 : (i.spare.getD []).length = 1 := by
    have := h.spare
    cases hs : i.spare with
    | none => rw [hs] at this; cases this
    | some l =>
      rw [hs] at this
      simp only [Option.map_some, Option.some.injEq] at this
      simpa using congrArg List.length this
  rw [List.length_append, p.h5, p.h6] at h4
  rw [p.h4] at h2
  rw [p.h8] at h3
  rw [p.h7] at h5
  unfold GalileoInav.payload
  omega

/-- The loop that writes the packets. -/
theorem convert_writes (l : List GalileoInav) (d : List Byte) (h : ∀ i ∈ l, Framable (N.encode (N.ofInav i))) :
    loopM (fun (r : Except Unit Sink) i =>
        match r with
        | .error e => pure (.error e)
        | .ok w => do
          match ← writePacket N w (N.ofInav i) with
          | (w, .ok _) => pure (.ok w)
          | (_, .error _) => pure (.error ())) l (.ok ⟨d, none⟩) = .ok (.ok ⟨d ++ frames N (l.map N.ofInav), none⟩) := by
  induction l generalizing d with
  | nil => simp [frames]
  | cons i l ih =>
    rw [loopM_cons]
    have e := (C43_write_succeeds d (N.ofInav i)).1 (h i (by simp))
    have e2 : (do
          match ← writePacket N ⟨d, none⟩ (N.ofInav i) with
          | (w, .ok _) => pure (.ok w)
          | (_, .error _) => pure (.error ()) : Res (Except Unit Sink)) = .ok (.ok ⟨d ++ frame (N.encode (N.ofInav i)), none⟩) := by rw [e]; rfl
    refine (congrArg (fun x => x >>= _) e2).trans ?_
    rw [Res.ok_bind]
    have := ih (d ++ frame (N.encode (N.ofInav i))) (fun i hi => h i (by simp [hi]))
    refine this.trans ?_
    simp [frames]

theorem convert_matches {vs : List VectorLine} {csv : List Nat} (hf : VectorFile vs csv) {t : Int} {start : Gst}
    (ht : (start.abs : Int) = t - 935280000) (hend : ∀ v ∈ vs, start.abs + 2 * v.pages.length < 65536 * 604800)
    (hN : ∀ i : GalileoInav, i.payload ≤ 60000 → Framable (N.encode (N.ofInav i))) :
    ∃ is : List GalileoInav, convertMain N t csv = .ok (.ok ⟨frames N (is.map N.ofInav), none⟩) ∧ Matches start (chronological vs) is := by
  obtain ⟨header, texts, eol, hh, he, hl, hx, rfl⟩ := hf
  obtain ⟨iss, b1, b2, b3⟩ := csvPages_file start hl hx hend
  have hm := rounds_matches start b2 b3
  have hlines : textLines [] (header ++ eol ++ texts.flatMap (· ++ eol)) ≠ [] ∧
      (textLines [] (header ++ eol ++ texts.flatMap (· ++ eol))).tail = texts := by
    have hn : 10 ∉ header := fun h => hh _ h rfl
    rcases he with rfl | rfl
    · rw [List.append_assoc, List.singleton_append, textLines_line hn, textLines_file (.inl rfl) hl hx]
      simp
    · have : header ++ [13, 10] ++ texts.flatMap (· ++ [13, 10]) = (header ++ [13]) ++ 10 :: texts.flatMap (· ++ [13, 10]) := by simp
      rw [this, textLines_line (by simpa using hn), textLines_file (.inr rfl) hl hx]
      simp
  refine ⟨rounds iss 0, ?_, hm⟩
  unfold convertMain
  rw [((C46_time t).1 start).2 ht, Res.ok_bind]
  generalize textLines [] (header ++ eol ++ texts.flatMap (· ++ eol)) = ls at hlines
  cases ls with
  | nil => exact absurd rfl hlines.1
  | cons l ls =>
    obtain rfl : ls = texts := hlines.2
    simp only
    rw [b1, Res.ok_bind]
    exact convert_writes (rounds iss 0) [] (fun i hi => hN i ((hm.mem i hi).elim fun _ h => h.2.payload))

/-- **C46, conversion.**  For every file of test vectors that starts at a valid time and ends within the range of GST, the
program writes one packet for each page, in chronological order (and in the order of the lines of the file at the same time), the
`k`-th page of a line with the time of the file plus `2 k` seconds.  (Packets of at most 65535 bytes, see `C43_write_succeeds`.) -/
theorem C46_convert {vs : List VectorLine} {csv : List Nat} (hf : VectorFile vs csv) {t : Int} {start : Gst}
    (ht : (start.abs : Int) = t - 935280000) (hend : ∀ v ∈ vs, start.abs + 2 * v.pages.length < 65536 * 604800)
    (hN : ∀ i : GalileoInav, i.payload ≤ 60000 → Framable (N.encode (N.ofInav i))) :
    ∃ is : List GalileoInav, convertMain N t csv = .ok (.ok ⟨frames N (is.map N.ofInav), none⟩) ∧ is.length = (chronological vs).length ∧
      ∀ (n : Nat) (x : Svn × Nat × InavPage) (i : GalileoInav), (chronological vs)[n]? = some x → is[n]? = some i →
        PacketFor start x.1.val x.2.1 x.2.2 i := by
  obtain ⟨is, h, hm⟩ := convert_matches hf ht hend hN
  exact ⟨is, h, hm.length, hm.get⟩

/-- `chronological` lists exactly the pages of the file. -/
theorem C46_all_pages (vs : List VectorLine) (svn : Svn) (k : Nat) (p : InavPage) :
    (svn, k, p) ∈ chronological vs ↔ ∃ v ∈ vs, v.svn = svn ∧ v.pages[k]? = some p := by
  unfold chronological
  simp only [List.mem_flatMap, List.mem_filterMap, List.mem_range]
  constructor
  · rintro ⟨k', _, v, hv, h⟩
    cases hg : v.pages[k']? with
    | none => rw [hg] at h; cases h
    | some p' => rw [hg] at h; cases h; exact ⟨v, hv, rfl, hg⟩
  · rintro ⟨v, hv, rfl, hg⟩
    refine ⟨k, ?_, v, hv, by rw [hg]; rfl⟩
    have := (List.getElem?_eq_some_iff.1 hg).1
    have := le_foldr_max (List.mem_map.2 ⟨v, hv, rfl⟩ : v.pages.length ∈ vs.map fun v => v.pages.length)
    omega

/-! ## Back through `galmon-osnma` -/


/-- **C46, end to end.**  For every file of test vectors that starts at a valid time and ends within the range of GST: whenever
`galmon-osnma` runs to the end on what the converter writes, it has called `feed_inav` with the word of every page that is not a dummy page
and `feed_osnma` with its OSNMA data, for the satellite of its line, on E1-B and at the time of the file plus two seconds for each
page before it in the line, and nothing else; in chronological order. -/
theorem C46_end_to_end (hN : N.Lawful) (hfr : ∀ i : GalileoInav, i.payload ≤ 60000 → Framable (N.encode (N.ofInav i))) {vs : List VectorLine} {csv : List Nat}
    (hf : VectorFile vs csv) {t : Int} {start : Gst} (ht : (start.abs : Int) = t - 935280000)
    (hend : ∀ v ∈ vs, start.abs + 2 * v.pages.length < 65536 * 604800) {checks : Bool} {o : Osnma C} :
    ∃ bytes, convertMain N t csv = .ok (.ok ⟨bytes, none⟩) ∧
      ∀ {g : GalmonOsnma C} {e : Option IoError}, galmonOsnmaMain S N checks o ⟨bytes, false⟩ = .ok (g, e) →
        e = none ∧ run S o g.calls = .ok g.osnma ∧ CallsForPages start (chronological vs) g.calls := by
  obtain ⟨is, h, hm⟩ := convert_matches (N := N) hf ht hend hfr
  refine ⟨_, h, fun hg => ?_⟩
  obtain ⟨ms, hp, hr, hc⟩ := C44_calls hg
  have hp2 := packetsOf_frames hN (is.map N.ofInav) (by simpa using fun i hi => hfr i ((hm.mem i hi).elim fun _ h => h.2.payload)) [] false
  rw [List.append_nil] at hp2
  simp only at hp
  rw [hp2, packetsOf_nil] at hp
  simp only [Res.ok_bind, List.append_nil, Res.ok.injEq, Prod.mk.injEq] at hp
  obtain ⟨rfl, rfl⟩ := hp
  have hin : inavPackets N (is.map N.ofInav) = is := by
    unfold inavPackets
    rw [List.filterMap_map]
    have : (N.gi ∘ N.ofInav) = some := by funext i; exact hN.gi_ofInav i
    rw [this, List.filterMap_some, List.filter_eq_self]
    intro i hi
    obtain ⟨x, _, hx⟩ := hm.mem i hi
    rw [hx.sigid]; rfl
  rw [hin] at hc
  refine ⟨by simp, hr, calls_of_matches (hc (.inr fun i hi => ?_)) hm (chronological_steps vs) ⟨by simp, by simp, by simp⟩⟩
  obtain ⟨x, hx1, hx⟩ := hm.mem i hi
  obtain ⟨v, hv, hlt⟩ := mem_chronological hx1
  have := hend v hv
  have := hx.time
  unfold TimeOk
  omega

/-- **C46, the programs run to the end.**  For such a file, with a start at least 255 subframes after the GST epoch: `galmon-osnma` runs to the end of
what the converter writes, provided that the black box does not panic on the calls for the pages (C39 says when it does). -/
theorem C46_runs (hS : S.Consistent) (hN : N.Lawful) (hfr : ∀ i : GalileoInav, i.payload ≤ 60000 → Framable (N.encode (N.ofInav i)))
    {vs : List VectorLine} {csv : List Nat} (hf : VectorFile vs csv) {t : Int} {start : Gst} (ht : (start.abs : Int) = t - 935280000)
    (hst : 7650 ≤ start.abs) (hend : ∀ v ∈ vs, start.abs + 2 * v.pages.length < 65536 * 604800) {checks : Bool} {o : Osnma C} (h0 : o.Fresh S) :
    ∃ bytes cs, convertMain N t csv = .ok (.ok ⟨bytes, none⟩) ∧ CallsForPages start (chronological vs) cs ∧
      ((run S o cs).Returns → ∃ g, galmonOsnmaMain S N checks o ⟨bytes, false⟩ = .ok (g, none) ∧ g.calls = cs) := by
  obtain ⟨is, h, hm⟩ := convert_matches (N := N) hf ht hend hfr
  have hp2 := packetsOf_frames hN (is.map N.ofInav) (by simpa using fun i hi => hfr i ((hm.mem i hi).elim fun _ h => h.2.payload)) [] false
  rw [List.append_nil, packetsOf_nil] at hp2
  have hp : packetsOf N (frames N (is.map N.ofInav)) false = .ok (is.map N.ofInav, none) := by
    rw [hp2]; simp
  have hin : inavPackets N (is.map N.ofInav) = is := by
    unfold inavPackets
    rw [List.filterMap_map]
    have : (N.gi ∘ N.ofInav) = some := by funext i; exact hN.gi_ofInav i
    rw [this, List.filterMap_some, List.filter_eq_self]
    intro i hi
    obtain ⟨x, _, hx⟩ := hm.mem i hi
    rw [hx.sigid]; rfl
  have htime : ∀ i ∈ is, i.TimeOk ∧ 7650 ≤ i.secs := by
    intro i hi
    obtain ⟨x, hx1, hx⟩ := hm.mem i hi
    obtain ⟨v, hv, hlt⟩ := mem_chronological hx1
    have := hend v hv
    have := hx.time
    unfold TimeOk
    omega
  have hnf : ∀ pre i post, is = pre ++ i :: post → i.sigid.isSome = true ∧ ¬ i.Fatal pre := by
    intro pre i post he
    have hi : i ∈ is := by rw [he]; simp
    obtain ⟨x, hx1, hx⟩ := hm.mem i hi
    refine ⟨by rw [hx.sigid]; rfl, ?_⟩
    have h1 := congrArg List.length hx.contents
    rw [bitsOf_length, InavPage.word, List.length_append, x.2.2.h1, x.2.2.h3] at h1
    rintro (hfa | ⟨_, hfa | ⟨_, hfa | ⟨d, hd, hfa⟩⟩⟩)
    · exact hfa (htime i hi).1
    · rw [hx.sv] at hfa
      exact hfa ⟨x.1.h1, x.1.h36⟩
    · omega
    · obtain ⟨d', hd', h2⟩ := hx.osnma
      rw [hd] at hd'
      cases hd'
      have := congrArg List.length h2
      rw [bitsOf_length, x.2.2.h4] at this
      omega
  obtain ⟨cs, hcs⟩ := C44_calls_exist (seen := []) (is := is) (by simpa using hnf)
  refine ⟨_, cs, h, calls_of_matches hcs hm (chronological_steps vs) ⟨by simp, by simp, by simp⟩, fun hret => ?_⟩
  obtain ⟨g, hg⟩ := (C60_returns_iff (checks := checks) (input := ⟨frames N (is.map N.ofInav), false⟩) hS h0 hp
    (.inr (by rw [hin]; exact fun i hi => (htime i hi).1)) (by rw [hin]; exact fun i hi => (htime i hi).2)).2
    ⟨by rw [hin]; exact fun pre i post he => (hnf pre i post he).2, cs, by rw [hin]; exact hcs, hret⟩
  refine ⟨g, hg, ?_⟩
  obtain ⟨ms, hp3, _, hc⟩ := C44_calls hg
  rw [hp] at hp3
  cases hp3
  rw [hin] at hc
  exact C44_calls_unique (hc (.inr fun i hi => (htime i hi).1)) hcs

/-- **C46, end to end, with the messages of `navmon.proto`.** -/
theorem C46_end_to_end_navmon {vs : List VectorLine} {csv : List Nat}
    (hf : VectorFile vs csv) {t : Int} {start : Gst} (ht : (start.abs : Int) = t - 935280000)
    (hend : ∀ v ∈ vs, start.abs + 2 * v.pages.length < 65536 * 604800) {checks : Bool} {o : Osnma C} :
    ∃ bytes, convertMain prostNavmon t csv = .ok (.ok ⟨bytes, none⟩) ∧
      ∀ {g : GalmonOsnma C} {e : Option IoError}, galmonOsnmaMain S prostNavmon checks o ⟨bytes, false⟩ = .ok (g, e) →
        e = none ∧ run S o g.calls = .ok g.osnma ∧ CallsForPages start (chronological vs) g.calls :=
  C46_end_to_end prostNavmon_lawful prostNavmon_small hf ht hend

end Verif
