import Verif.Lemmas.MackStorage

/-! # C09, C10: the MACK store -/

namespace Verif

variable {S : Storage} (hS : S.Consistent)
include hS

/-- **C09.** When MACK messages are stored with non-decreasing subframes, `get` returns, for every
satellite and subframe, exactly what the specification `expectedMack` says: the first message stored
for them, provided the subframe is one of the last `mackDepth` distinct subframes and the message was
one of the first `numSats` of its subframe. Nothing panics. -/
theorem C09_get_chronological (hist : List MackCall)
    (hchr : hist.Pairwise (fun a b => a.gst.abs ≤ b.gst.abs)) (svn : Svn) (gst : Gst) :
    ∃ m, storeMacks S hist = .ok m ∧ m.get S svn gst = .ok (expectedMack S hist svn gst) := by
  obtain ⟨m, h1, h2⟩ := MackStorage.storeMacks_rep hS hist
  refine ⟨m, h1, ?_⟩
  rw [MackStorage.aAfter_chron hS hist hchr] at h2
  rcases MackStorage.get_rep h2 svn gst with ⟨h3, h4⟩ | ⟨xs, h3, h4⟩
  · rw [h4, expectedMack, if_neg]
    intro hc
    apply h3
    rw [List.map_map]
    exact List.mem_map.2 ⟨gst, hc, rfl⟩
  · rw [h4]
    obtain ⟨g, hg, hgx⟩ := List.mem_map.1 h3
    simp only [Prod.mk.injEq] at hgx
    obtain ⟨rfl, rfl⟩ := hgx
    rw [expectedMack, if_pos hg, List.find?_map]
    simp [Function.comp_def]

/-- **C10.** In whatever order messages were stored, what `get(svn, gst)` returns was stored for this
very satellite and subframe, with the returned NMA status; and nothing panics. -/
theorem C10_get_sound (hist : List MackCall) (svn : Svn) (gst : Gst) :
    ∃ m r, storeMacks S hist = .ok m ∧ m.get S svn gst = .ok r ∧
      ∀ msg st, r = some (msg, st) → (⟨msg, svn, gst, st⟩ : MackCall) ∈ hist := by
  obtain ⟨m, h1, h2⟩ := MackStorage.storeMacks_rep hS hist
  rcases MackStorage.get_rep h2 svn gst with ⟨_, h4⟩ | ⟨xs, h3, h4⟩
  · exact ⟨m, _, h1, h4, by intro msg st h; cases h⟩
  · refine ⟨m, _, h1, h4, ?_⟩
    intro msg st h
    rw [Option.map_eq_some_iff] at h
    obtain ⟨y, hy, hyy⟩ := h
    have hm := MackStorage.aAfter_mem hist _ h3 y (List.mem_of_find?_eq_some hy)
    have hsv := List.find?_some hy
    simp only [beq_iff_eq] at hsv
    simp only [Prod.mk.injEq] at hyy
    rw [hyy.1, hyy.2, hsv] at hm
    exact hm

/-- **C10.** The number of bytes of the store is fixed: however many messages are stored, at most
`numSats` of them are kept per subframe, and at most `mackDepth` subframes. -/
theorem C10_bounded (hist : List MackCall) :
    ∃ m, storeMacks S hist = .ok m ∧ m.macks.length = S.mackDepth * S.numSats
      ∧ m.gsts.length = S.mackDepth := by
  obtain ⟨m, h1, h2⟩ := MackStorage.storeMacks_rep hS hist
  exact ⟨m, h1, h2.lm, h2.lg⟩

omit hS in
/-- **C09.**  The two storages that the library supplies have the sizes that these theorems ask for: the full one for all 36 satellites, with
the 12 subframes of MACK messages that Slow MAC needs; the small one for 12 satellites, with 2. -/
theorem C09_supplied_sizes : FullStorage.Consistent ∧ FullStorage.numSats = 36 ∧ FullStorage.mackDepth = 12 ∧ FullStorage.navDepth = 13 ∧
    SmallStorage.Consistent ∧ SmallStorage.numSats = 12 ∧ SmallStorage.mackDepth = 2 ∧ SmallStorage.navDepth = 3 :=
  ⟨⟨by decide, by decide, by decide, by decide, by decide⟩, rfl, rfl, rfl, ⟨by decide, by decide, by decide, by decide, by decide⟩, rfl, rfl, rfl⟩

section Example

private def exMack (i : Nat) : MackMessage := ⟨List.replicate 60 (BitVec.ofNat 8 i), by simp⟩
private def exSvn (i : Nat) (h : 1 ≤ i ∧ i ≤ 36 := by decide) : Svn := ⟨i, h.1, h.2⟩
private def exGst (t : Nat) (h : t < 604800 := by decide) : Gst := ⟨1200, t, by decide, h⟩

omit hS in
/-- Non-vacuity of C09 with `SmallStorage` (two subframes are kept): the oldest of three subframes is
gone, the others are found, and the first message of a repeated pair wins. -/
example :
    let hist : List MackCall :=
      [⟨exMack 1, exSvn 5, exGst 0, .Test⟩, ⟨exMack 2, exSvn 5, exGst 30, .Test⟩,
       ⟨exMack 3, exSvn 7, exGst 30, .Operational⟩, ⟨exMack 4, exSvn 5, exGst 60, .Test⟩,
       ⟨exMack 9, exSvn 5, exGst 60, .Test⟩]
    SmallStorage.Consistent ∧ hist.Pairwise (fun a b => a.gst.abs ≤ b.gst.abs) ∧
    expectedMack SmallStorage hist (exSvn 5) (exGst 0) = none ∧
    expectedMack SmallStorage hist (exSvn 7) (exGst 30) = some (exMack 3, .Operational) ∧
    expectedMack SmallStorage hist (exSvn 5) (exGst 60) = some (exMack 4, .Test) := by
  refine ⟨⟨by decide, by decide, by decide, by decide, by decide⟩, ?_⟩
  decide +kernel

end Example

end Verif
