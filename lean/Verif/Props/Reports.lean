import Verif.Props.GalmonOsnma
import Verif.Props.Authentic

/-! # C56: what `galmon-osnma` logs -/

namespace Verif
open GalileoInav GalmonOsnma

variable {C : Crypto} {S : Storage} {N : Navmon}

/-- What holds of the state between packets and during the report. -/
structure ReportInv (S : Storage) (o0 : Osnma C) (g : GalmonOsnma C) : Prop where
  run : run S o0 g.calls = .ok g.osnma
  src : ∀ r ∈ g.reports, ∃ pre o, pre <+: g.calls ∧ Verif.run S o0 pre = .ok o ∧ o.get S r.kind r.svn = .ok (some r.data)
  cell : ∀ kd svn, (g.cells kd)[svn.idx]? = some ((reportsOf kd svn g.reports).getLast?.map fun r => padded kd r.data.data)
  norep : ∀ kd svn l1 a b l2, reportsOf kd svn g.reports = l1 ++ a :: b :: l2 → a.data.data ≠ b.data.data

/-- The data of a satellite that the black box returns is what was last logged. -/
def Logged (S : Storage) (kd : NavKind) (svn : Svn) (g : GalmonOsnma C) : Prop :=
  ∀ d, g.osnma.get S kd svn = .ok (some d) → ∃ r, (reportsOf kd svn g.reports).getLast? = some r ∧ r.data.data = d.data

theorem mem_reportsOf {kd : NavKind} {svn : Svn} {l : List Report} {r : Report} : r ∈ reportsOf kd svn l ↔ r ∈ l ∧ r.kind = kd ∧ r.svn = svn := by
  unfold reportsOf; simp

theorem reportsOf_snoc (kd : NavKind) (svn : Svn) (l : List Report) (r : Report) :
    reportsOf kd svn (l ++ [r]) = if r.kind = kd ∧ r.svn = svn then reportsOf kd svn l ++ [r] else reportsOf kd svn l := by
  unfold reportsOf
  rw [List.filter_append]
  by_cases h : r.kind = kd ∧ r.svn = svn
  · rw [if_pos h]; simp [h]
  · rw [if_neg h]; simp [h]

theorem snoc_pair {α : Type} {l l1 l2 : List α} {x a b : α} (h : l ++ [x] = l1 ++ a :: b :: l2) :
    (∃ l2', l = l1 ++ a :: b :: l2') ∨ (l.getLast? = some a ∧ x = b) := by
  rcases List.eq_nil_or_concat l2 with rfl | ⟨l2, y, rfl⟩
  · have h' : l ++ [x] = (l1 ++ [a]) ++ [b] := by simp [h]
    obtain ⟨h1, h2⟩ := List.append_inj' h' rfl
    cases h2
    rw [h1]
    exact .inr ⟨by simp, rfl⟩
  · have h' : l ++ [x] = (l1 ++ a :: b :: l2) ++ [y] := by simp [h]
    obtain ⟨h1, _⟩ := List.append_inj' h' rfl
    exact .inl ⟨l2, h1⟩

/-- One pass of the report keeps the invariant, and logs what was not. -/
theorem ReportInv.step (hS : S.Consistent) {o0 : Osnma C} (h0 : o0.Fresh S) {g g' : GalmonOsnma C} {kd : NavKind} {svn : Svn}
    (h : ReportInv S o0 g) (hs : ReportStep S kd svn g g') :
    ReportInv S o0 g' ∧ Logged S kd svn g' ∧ ∀ kd' svn', Logged S kd' svn' g → Logged S kd' svn' g' := by
  rcases hs with ⟨hn, rfl⟩ | ⟨d, hd, ⟨hc, rfl⟩ | ⟨hi, hc, e1, e2, e3, e4, r, rfl, rfl, rfl, er⟩⟩
  · refine ⟨h, fun d hd => ?_, fun _ _ h => h⟩
    rw [hn] at hd; cases hd
  · refine ⟨h, fun d' hd' => ?_, fun _ _ h => h⟩
    rw [hd] at hd'; cases hd'
    rw [h.cell, Option.some.injEq] at hc
    obtain ⟨r, hr, hp⟩ := Option.map_eq_some_iff.1 hc
    refine ⟨r, hr, ?_⟩
    obtain ⟨hr1, hr2, hr3⟩ := mem_reportsOf.1 (List.mem_of_getLast? hr)
    obtain ⟨pre, o, _, hrun, hget⟩ := h.src r hr1
    have l1 := returned_length hS h0 hrun _ hget
    have l2 := returned_length hS h0 h.run _ hd
    rw [hr2] at l1
    exact padded_inj l1 l2 hp
  · have hlast : ∀ kd' svn', (reportsOf kd' svn' g'.reports).getLast? =
        if r.kind = kd' ∧ r.svn = svn' then some r else (reportsOf kd' svn' g.reports).getLast? := by
      intro kd' svn'
      rw [er, reportsOf_snoc]
      split
      · simp
      · rfl
    have hlog : Logged S r.kind r.svn g' := by
      intro d hd'
      rw [e1, hd] at hd'; cases hd'
      exact ⟨r, by rw [hlast, if_pos ⟨rfl, rfl⟩], rfl⟩
    refine ⟨⟨by rw [e1, e2]; exact h.run, ?_, ?_, ?_⟩, hlog, ?_⟩
    · intro x hx
      rw [er] at hx
      rw [e2]
      rcases List.mem_append.1 hx with hx | hx
      · exact h.src x hx
      · simp only [List.mem_singleton] at hx
        subst hx
        exact ⟨_, _, List.prefix_rfl, h.run, hd⟩
    · intro kd' svn'
      rw [hlast, e4]
      by_cases hk : kd' = r.kind
      · subst hk
        rw [if_pos rfl, List.getElem?_set]
        by_cases hsv : r.svn = svn'
        · subst hsv
          rw [if_pos rfl, if_pos hi, if_pos ⟨rfl, rfl⟩]; rfl
        · rw [if_neg (fun h => hsv (Svn.idx_inj h)), if_neg (fun h => hsv h.2)]
          exact h.cell _ _
      · rw [if_neg hk, if_neg (fun h => hk h.1.symm)]
        exact h.cell _ _
    · intro kd' svn' l1 a b l2 hl
      rw [er, reportsOf_snoc] at hl
      split at hl
      · rename_i hk
        obtain ⟨rfl, rfl⟩ := hk
        rcases snoc_pair hl with ⟨l2', hl'⟩ | ⟨hl', rfl⟩
        · exact h.norep _ _ _ _ _ _ hl'
        · intro heq
          refine hc ?_
          rw [h.cell, hl', ← heq]; rfl
      · exact h.norep _ _ _ _ _ _ hl
    · intro kd' svn' hl
      by_cases hk : r.kind = kd' ∧ r.svn = svn'
      · obtain ⟨rfl, rfl⟩ := hk; exact hlog
      · intro d' hd'
        rw [e1] at hd'
        rw [hlast, if_neg hk]
        exact hl d' hd'

theorem ReportInv.report (hS : S.Consistent) {o0 : Osnma C} (h0 : o0.Fresh S) {g g' : GalmonOsnma C}
    (h : ReportInv S o0 g) (hr : g.report S = .ok g') : ReportInv S o0 g' ∧ ∀ kd svn, Logged S kd svn g' := by
  unfold GalmonOsnma.report at hr
  have key : ∀ (l : List Svn) (g : GalmonOsnma C), ReportInv S o0 g →
      loopM (fun g svn => do let g ← g.reportCed S svn; g.reportTiming S svn) l g = .ok g' →
      ReportInv S o0 g' ∧ (∀ kd svn, svn ∈ l → Logged S kd svn g') ∧ ∀ kd svn, Logged S kd svn g → Logged S kd svn g' := by
    intro l
    induction l with
    | nil => intro g h hr; cases hr; exact ⟨h, by simp, fun _ _ h => h⟩
    | cons sv l ih =>
      intro g h hr
      rw [loopM_cons] at hr
      simp only [Res.bind_eq_ok] at hr
      obtain ⟨g1, ⟨g2, h2, h1⟩, hr⟩ := hr
      obtain ⟨a1, a2, a3⟩ := h.step hS h0 (reportCed_ok h2)
      obtain ⟨b1, b2, b3⟩ := a1.step hS h0 (reportTiming_ok h1)
      obtain ⟨c1, c2, c3⟩ := ih g1 b1 hr
      refine ⟨c1, ?_, fun kd svn hl => c3 _ _ (b3 _ _ (a3 _ _ hl))⟩
      intro kd svn hm
      rcases List.mem_cons.1 hm with rfl | hm
      · cases kd
        · exact c3 _ _ (b3 _ _ a2)
        · exact c3 _ _ b2
      · exact c2 kd svn hm
  obtain ⟨k1, k2, _⟩ := key _ _ h hr
  exact ⟨k1, fun kd svn => k2 kd svn (Svn.mem_iter svn)⟩

theorem reportInv_new (hS : S.Consistent) {o0 : Osnma C} (h0 : o0.Fresh S) :
    ReportInv S o0 (.new o0) ∧ ∀ kd svn, Logged S kd svn (.new o0) := by
  refine ⟨⟨rfl, (fun r hr => by cases hr), ?_, ?_⟩, ?_⟩
  · intro kd svn
    have hi : svn.idx < NUM_SVNS := by have := svn.h1; have := svn.h36; unfold Svn.idx NUM_SVNS; omega
    have : (List.replicate NUM_SVNS (none : Option (List Byte)))[svn.idx]? = some none := by
      rw [List.getElem?_replicate, if_pos hi]
    cases kd <;> exact this
  · intro kd svn l1 a b l2 h
    have : ([] : List Report) = l1 ++ a :: b :: l2 := h
    simp at this
  · intro kd svn d hd
    obtain ⟨f, hf⟩ : ∃ f, kd.fields[0]? = some f := by cases kd <;> exact ⟨_, rfl⟩
    obtain ⟨c, hc, _⟩ := provenance hS h0 (hist := []) (o := o0) rfl kd hd 0 f hf
    cases hc

theorem reportInv_packet (hS : S.Consistent) {o0 : Osnma C} (h0 : o0.Fresh S) {checks : Bool} {x x' : GalmonOsnma C} {gi : Option GalileoInav}
    (hx : ReportInv S o0 x) (hs : x.step S checks gi = .ok x') :
    ReportInv S o0 x' ∧ ((∀ kd svn, Logged S kd svn x) → ∀ kd svn, Logged S kd svn x') := by
  have same : ∀ sel, ReportInv S o0 ({ x with sel := sel } : GalmonOsnma C) := by
    intro sel
    exact ⟨hx.run, hx.src, fun kd svn => by
      have := hx.cell kd svn
      cases kd <;> exact this, hx.norep⟩
  cases step_ok hs with
  | other h => subst h; exact ⟨hx, id⟩
  | noSig _ h => subst h; exact ⟨hx, id⟩
  | dropped _ _ h => subst h; exact ⟨same _, id⟩
  | unused _ _ _ h => subst h; exact ⟨same _, id⟩
  | used h1 h2 h3 h4 h5 h6 h7 h8 =>
    obtain ⟨o', cs, hr, rfl, _⟩ := feed_ok h7
    suffices key : ReportInv S o0 x' ∧ ∀ kd svn, Logged S kd svn x' from ⟨key.1, fun _ => key.2⟩
    refine ReportInv.report hS h0 ?_ h8
    refine ⟨?_, ?_, ?_, hx.norep⟩
    · have := hx.run
      unfold Verif.run at this hr ⊢
      rw [loopM_append, this]; exact hr
    · intro r hr
      obtain ⟨pre, o, hp, h1, h2⟩ := hx.src r hr
      exact ⟨pre, o, hp.trans (List.prefix_append _ _), h1, h2⟩
    · intro kd svn
      have := hx.cell kd svn
      cases kd <;> exact this

theorem ReportInv.packet (hS : S.Consistent) {o0 : Osnma C} (h0 : o0.Fresh S) {checks : Bool} {x x' : GalmonOsnma C} {gi : Option GalileoInav}
    (hx : ReportInv S o0 x) (hs : x.step S checks gi = .ok x') : ReportInv S o0 x' := (reportInv_packet hS h0 hx hs).1

theorem reportInv_main (hS : S.Consistent) {o0 : Osnma C} (h0 : o0.Fresh S) {checks : Bool} {input : Source} {g : GalmonOsnma C}
    {e : Option IoError} (h : galmonOsnmaMain S N checks o0 input = .ok (g, e)) :
    ReportInv S o0 g ∧ ∀ kd svn, Logged S kd svn g := by
  unfold galmonOsnmaMain at h
  simp only [Res.bind_eq_ok] at h
  obtain ⟨⟨ms, e'⟩, _, g', h, h'⟩ := h
  cases h'
  refine loopM_inv (fun x : GalmonOsnma C => ReportInv S o0 x ∧ ∀ kd svn, Logged S kd svn x) (reportInv_new hS h0) ?_ h
  intro gi _ x x' ⟨hx, hl⟩ hs
  obtain ⟨k1, k2⟩ := reportInv_packet hS h0 hx hs
  exact ⟨k1, k2 hl⟩

/-- **C56.**  Everything logged as authenticated by `galmon-osnma` was returned by a getter of the black box at some time of the run. -/
theorem C56_logged_was_returned (hS : S.Consistent) {o0 : Osnma C} (h0 : o0.Fresh S) {checks : Bool} {input : Source} {g : GalmonOsnma C}
    {e : Option IoError} (h : galmonOsnmaMain S N checks o0 input = .ok (g, e)) (r : Report) (hr : r ∈ g.reports) :
    ∃ pre o, pre <+: g.calls ∧ run S o0 pre = .ok o ∧ o.get S r.kind r.svn = .ok (some r.data) :=
  (reportInv_main hS h0 h).1.src r hr

/-- **C56.**  … so it is authentic (in the sense of C31 and C32), for the program as it is run, with a Merkle tree root. -/
theorem C56_logged_is_authentic {checks : Bool} {root : MerkleTreeNode} {pk0 : Option (PublicKey C)} {slow : Bool} {input : Source}
    {g : GalmonOsnma C} {e : Option IoError}
    (h : galmonOsnmaMain FullStorage N checks (Osnma.fromMerkleTree FullStorage root pk0 slow) input = .ok (g, e)) (r : Report) (hr : r ∈ g.reports) :
    ∃ pre log us, pre <+: g.calls ∧ Authentic (some root) pk0 slow pre log r.kind r.svn r.data.data r.data.authbits us := by
  have hS : FullStorage.Consistent := ⟨by decide, by decide, by decide, by decide, by decide⟩
  obtain ⟨pre, o, hp, hrun, hg⟩ := C56_logged_was_returned hS (.inl ⟨root, pk0, slow, rfl⟩) h r hr
  obtain ⟨log, hl⟩ := Logs.of_run hrun
  obtain ⟨us, hu⟩ := get_authentic (root0 := some root) hS (.inl ⟨root, pk0, slow, rfl⟩) hl _ hg
  exact ⟨pre, log, us, hp, hu⟩

/-- **C56.**  … and with a public key only. -/
theorem C56_logged_is_authentic_pubkey {checks : Bool} {pk : PublicKey C} {slow : Bool} {input : Source}
    {g : GalmonOsnma C} {e : Option IoError}
    (h : galmonOsnmaMain FullStorage N checks (Osnma.fromPubkey FullStorage pk slow) input = .ok (g, e)) (r : Report) (hr : r ∈ g.reports) :
    ∃ pre log us, pre <+: g.calls ∧ Authentic none (some pk) slow pre log r.kind r.svn r.data.data r.data.authbits us := by
  have hS : FullStorage.Consistent := ⟨by decide, by decide, by decide, by decide, by decide⟩
  obtain ⟨pre, o, hp, hrun, hg⟩ := C56_logged_was_returned hS (.inr ⟨pk, slow, rfl⟩) h r hr
  obtain ⟨log, hl⟩ := Logs.of_run hrun
  obtain ⟨us, hu⟩ := get_authentic (root0 := none) (pk0 := some pk) hS (.inr ⟨pk, slow, rfl⟩) hl _ hg
  exact ⟨pre, log, us, hp, hu⟩

/-- **C56.**  The same data of a satellite is not logged twice in a row. -/
theorem C56_no_repetition (hS : S.Consistent) {o0 : Osnma C} (h0 : o0.Fresh S) {checks : Bool} {input : Source} {g : GalmonOsnma C}
    {e : Option IoError} (h : galmonOsnmaMain S N checks o0 input = .ok (g, e)) (kd : NavKind) (svn : Svn) {l1 l2 : List Report} {a b : Report}
    (hl : reportsOf kd svn g.reports = l1 ++ a :: b :: l2) : a.data.data ≠ b.data.data :=
  (reportInv_main hS h0 h).1.norep kd svn l1 a b l2 hl

/-- **C56.**  After each packet, data that a getter returns has been logged, as the last about that satellite and kind of data.
(The state after each packet is the final state of the program on the stream up to that packet.) -/
theorem C56_nothing_missed (hS : S.Consistent) {o0 : Osnma C} (h0 : o0.Fresh S) {checks : Bool} {input : Source} {g : GalmonOsnma C}
    {e : Option IoError} (h : galmonOsnmaMain S N checks o0 input = .ok (g, e)) (kd : NavKind) (svn : Svn) {d : NavMessageData}
    (hd : g.osnma.get S kd svn = .ok (some d)) : ∃ r, (reportsOf kd svn g.reports).getLast? = some r ∧ r.data.data = d.data :=
  (reportInv_main hS h0 h).2 kd svn d hd

end Verif
