import Verif.Lemmas.Selector
import Verif.Lemmas.Svn
import Verif.Props.NavData

namespace Verif
open GalileoInav

variable {C : Crypto} {S : Storage}

namespace GalmonOsnma

theorem call_ok {g g' : GalmonOsnma C} {c : Call} (h : g.call S c = .ok g') :
    ∃ o, c.run S g.osnma = .ok o ∧ g' = { g with osnma := o, calls := g.calls ++ [c] } := by
  unfold call at h
  simp only [Res.bind_eq_ok, Res.pure_eq, Res.ok.injEq] at h
  obtain ⟨o, ho, rfl⟩ := h
  exact ⟨o, ho, rfl⟩

theorem toArray_ok {n : Nat} {l : List Byte} {a : Bytes n} (h : toArray n l = .ok a) : a.val = l := by
  unfold toArray at h
  split at h
  · cases h; rfl
  · cases h

/-- The calls of `feed`. -/
theorem feed_ok {g g' : GalmonOsnma C} {i : GalileoInav} {svn : Svn} {gst : Gst} {band : InavBand}
    (h : g.feed S i svn gst band = .ok g') :
    ∃ o cs, run S g.osnma cs = .ok o ∧ g' = { g with osnma := o, calls := g.calls ++ cs } ∧
      ∃ word : InavWord, word.val = i.contents ∧
        match i.reserved1 with
        | none => cs = [.inav word svn gst band]
        | some d => ∃ data : OsnmaDataMessage, data.val = d ∧ cs = [.inav word svn gst band, .osnma data svn gst] := by
  unfold feed at h
  simp only [Res.bind_eq_ok] at h
  obtain ⟨word, hw, g1, h1, h2⟩ := h
  obtain ⟨o1, ho1, rfl⟩ := call_ok h1
  cases hr : i.reserved1 with
  | none =>
    rw [hr] at h2
    cases h2
    exact ⟨o1, [.inav word svn gst band], by unfold run; rw [loopM_cons, ho1]; rfl, rfl, word, toArray_ok hw, rfl⟩
  | some d =>
    rw [hr] at h2
    simp only [Res.bind_eq_ok] at h2
    obtain ⟨data, hd, h2⟩ := h2
    obtain ⟨o2, ho2, rfl⟩ := call_ok h2
    refine ⟨o2, [.inav word svn gst band, .osnma data svn gst], ?_, by simp, word, toArray_ok hw, data, toArray_ok hd, rfl⟩
    unfold run
    rw [loopM_cons, ho1, Res.ok_bind, loopM_cons]
    simp only at ho2
    rw [ho2]; rfl

/-- The array of what was last logged. -/
def cells (g : GalmonOsnma C) : NavKind → List (Option (List Byte))
  | .ced => g.ced
  | .timing => g.timing

/-- The bytes compared. -/
def padded (kd : NavKind) (bits : List Bool) : List Byte :=
  packBytes (bits ++ List.replicate ((kd.nbits + 7) / 8 * 8 - bits.length) false)

theorem padded_inj {kd : NavKind} {a b : List Bool} (ha : a.length = kd.nbits) (hb : b.length = kd.nbits)
    (h : padded kd a = padded kd b) : a = b := by
  unfold padded at h
  have h := congrArg bitsOf h
  rw [bitsOf_packBytes_aligned (by cases kd <;> simp [ha, NavKind.nbits]),
    bitsOf_packBytes_aligned (by cases kd <;> simp [hb, NavKind.nbits])] at h
  exact (List.append_inj h (ha.trans hb.symm)).1

theorem dataBytes_ok {kd : NavKind} {n : Nat} (hn : n = (kd.nbits + 7) / 8) {bits : List Bool} {b : List Byte} (h : dataBytes n bits = .ok b) :
    b = padded kd bits := by
  unfold dataBytes at h
  simp only [Res.bind_eq_ok, Res.pure_eq, Res.ok.injEq] at h
  obtain ⟨a, ha, rfl⟩ := h
  obtain ⟨hl, rfl⟩ := writeSlice_eq_ok.1 ha
  unfold padded
  subst hn
  congr 1
  simp
  congr 1
  omega

/-- One pass of `report` for a satellite and kind of data. -/
def ReportStep (S : Storage) (kd : NavKind) (svn : Svn) (g g' : GalmonOsnma C) : Prop :=
  (g.osnma.get S kd svn = .ok none ∧ g' = g) ∨
  ∃ d, g.osnma.get S kd svn = .ok (some d) ∧
    (((g.cells kd)[svn.idx]? = some (some (padded kd d.data)) ∧ g' = g) ∨
     (svn.idx < (g.cells kd).length ∧ (g.cells kd)[svn.idx]? ≠ some (some (padded kd d.data)) ∧
      g'.osnma = g.osnma ∧ g'.calls = g.calls ∧ g'.sel = g.sel ∧
      (∀ k, g'.cells k = if k = kd then (g.cells k).set svn.idx (some (padded kd d.data)) else g.cells k) ∧
      ∃ r : Report, r.kind = kd ∧ r.svn = svn ∧ r.data = d ∧ g'.reports = g.reports ++ [r]))

theorem reportCed_ok {g g' : GalmonOsnma C} {svn : Svn} (h : g.reportCed S svn = .ok g') : ReportStep S .ced svn g g' := by
  unfold reportCed at h
  obtain ⟨r, hr, h⟩ := Res.bind_eq_ok.1 h
  cases r with
  | none => cases h; exact .inl ⟨hr, rfl⟩
  | some d =>
    simp only [Res.bind_eq_ok] at h
    obtain ⟨b, hb, old, ho, h⟩ := h
    have hb := dataBytes_ok (kd := .ced) rfl hb
    subst hb
    rw [index_eq_ok] at ho
    refine .inr ⟨d, hr, ?_⟩
    split at h
    · rename_i he
      cases h
      exact .inl ⟨by rw [← he]; exact ho, rfl⟩
    · rename_i he
      simp only [Res.bind_eq_ok, Res.pure_eq, Res.ok.injEq] at h
      obtain ⟨ced, hc, rfl⟩ := h
      obtain ⟨hl, rfl⟩ := setIndex_eq_ok.1 hc
      refine .inr ⟨hl, ?_, rfl, rfl, rfl, ?_, ⟨false, svn, d⟩, rfl, rfl, rfl, rfl⟩
      · intro h
        have : g.ced[svn.idx]? = some (some (padded .ced d.data)) := h
        rw [ho] at this
        exact he (Option.some.inj this)
      · intro k; cases k <;> rfl

theorem reportTiming_ok {g g' : GalmonOsnma C} {svn : Svn} (h : g.reportTiming S svn = .ok g') : ReportStep S .timing svn g g' := by
  unfold reportTiming at h
  obtain ⟨r, hr, h⟩ := Res.bind_eq_ok.1 h
  cases r with
  | none => cases h; exact .inl ⟨hr, rfl⟩
  | some d =>
    simp only [Res.bind_eq_ok] at h
    obtain ⟨b, hb, old, ho, h⟩ := h
    have hb := dataBytes_ok (kd := .timing) rfl hb
    subst hb
    rw [index_eq_ok] at ho
    refine .inr ⟨d, hr, ?_⟩
    split at h
    · rename_i he
      cases h
      exact .inl ⟨by rw [← he]; exact ho, rfl⟩
    · rename_i he
      simp only [Res.bind_eq_ok, Res.pure_eq, Res.ok.injEq] at h
      obtain ⟨ced, hc, rfl⟩ := h
      obtain ⟨hl, rfl⟩ := setIndex_eq_ok.1 hc
      refine .inr ⟨hl, ?_, rfl, rfl, rfl, ?_, ⟨true, svn, d⟩, rfl, rfl, rfl, rfl⟩
      · intro h
        have : g.timing[svn.idx]? = some (some (padded .timing d.data)) := h
        rw [ho] at this
        exact he (Option.some.inj this)
      · intro k; cases k <;> rfl

theorem ReportStep.same {kd : NavKind} {svn : Svn} {g g' : GalmonOsnma C} (h : ReportStep S kd svn g g') :
    g'.osnma = g.osnma ∧ g'.calls = g.calls ∧ g'.sel = g.sel := by
  rcases h with ⟨_, rfl⟩ | ⟨d, _, ⟨_, rfl⟩ | ⟨_, _, h1, h2, h3, _⟩⟩
  · exact ⟨rfl, rfl, rfl⟩
  · exact ⟨rfl, rfl, rfl⟩
  · exact ⟨h1, h2, h3⟩

theorem report_same {g g' : GalmonOsnma C} (h : g.report S = .ok g') :
    g'.osnma = g.osnma ∧ g'.calls = g.calls ∧ g'.sel = g.sel := by
  unfold report at h
  refine loopM_inv (fun x => x.osnma = g.osnma ∧ x.calls = g.calls ∧ x.sel = g.sel) ⟨rfl, rfl, rfl⟩ ?_ h
  intro svn _ x x' ⟨a1, a2, a3⟩ hx
  simp only [Res.bind_eq_ok] at hx
  obtain ⟨y, hy, hx⟩ := hx
  obtain ⟨b1, b2, b3⟩ := (reportCed_ok hy).same
  obtain ⟨c1, c2, c3⟩ := (reportTiming_ok hx).same
  exact ⟨by rw [c1, b1, a1], by rw [c2, b2, a2], by rw [c3, b3, a3]⟩

/-- What one packet does. -/
inductive Step (S : Storage) (checks : Bool) (g g' : GalmonOsnma C) : Option GalileoInav → Prop
  | other : g' = g → Step S checks g g' none
  | noSig {i : GalileoInav} : i.sigid = none → g' = g → Step S checks g g' (some i)
  | dropped {i : GalileoInav} {sigid : BitVec 32} {sel : Selector} : i.sigid = some sigid → g.sel.accept checks i = .ok (sel, none) →
    g' = { g with sel := sel } → Step S checks g g' (some i)
  | unused {i : GalileoInav} {sigid : BitVec 32} {sel : Selector} {gst : Gst} : i.sigid = some sigid → g.sel.accept checks i = .ok (sel, some gst) →
    (bandOf sigid = none ∨ firstType i.contents = .ok 63) → g' = { g with sel := sel } → Step S checks g g' (some i)
  | used {i : GalileoInav} {sigid : BitVec 32} {sel : Selector} {gst : Gst} {svn : Svn} {band : InavBand} {ty : Nat} {g1 : GalmonOsnma C} :
    i.sigid = some sigid → g.sel.accept checks i = .ok (sel, some gst) →
    Svn.tryFrom i.gnssSv.toNat = some svn → bandOf sigid = some band → firstType i.contents = .ok ty → ty ≠ 63 →
    ({ g with sel := sel } : GalmonOsnma C).feed S i svn gst band = .ok g1 → g1.report S = .ok g' → Step S checks g g' (some i)

theorem step_ok {checks : Bool} {g g' : GalmonOsnma C} {gi : Option GalileoInav} (h : g.step S checks gi = .ok g') :
    Step S checks g g' gi := by
  unfold step at h
  cases gi with
  | none => cases h; exact .other rfl
  | some i =>
    simp only at h
    cases hs : i.sigid with
    | none => rw [hs] at h; cases h; exact .noSig hs rfl
    | some sigid =>
      rw [hs] at h
      simp only [Res.bind_eq_ok] at h
      obtain ⟨⟨sel, r⟩, ha, h⟩ := h
      cases r with
      | none => cases h; exact .dropped hs ha rfl
      | some gst =>
        simp only [Res.bind_eq_ok] at h
        obtain ⟨svn, hsv, h⟩ := h
        have hsv := Res.unwrap_eq_ok.1 hsv
        cases hb : bandOf sigid with
        | none => rw [hb] at h; cases h; exact .unused hs ha (.inl hb) rfl
        | some band =>
          rw [hb] at h
          simp only [Res.bind_eq_ok] at h
          obtain ⟨ty, hty, h⟩ := h
          split at h
          · rename_i h63
            cases h
            subst h63
            exact .unused hs ha (.inr hty) rfl
          · rename_i h63
            simp only [Res.bind_eq_ok] at h
            obtain ⟨g1, h1, h2⟩ := h
            exact .used hs ha hsv hb hty h63 h1 h2

end GalmonOsnma
end Verif
