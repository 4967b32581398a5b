import Verif.Spec.Pages
import Verif.Prelude.BitsLemmas
import Verif.Lemmas.Gst
import Verif.Lemmas.Svn

/-! # Lemmas on `CollectSubframe` -/

namespace Verif
namespace CollectSubframe

/-- Per-satellite abstraction of the collector: the subframe being collected and the pages of the
satellite already taken. -/
structure Sat where
  sub : Gst
  got : List Page

/-- One page seen by the abstraction for satellite `svn`. -/
def Sat.step (svn : Svn) (a : Sat) (p : Page) : Sat :=
  let got := if p.sub = a.sub then a.got else []
  if p.svn = svn ∧ p.word = got.length then ⟨p.sub, got ++ [p]⟩ else ⟨p.sub, got⟩

theorem Sat.step_sub (svn : Svn) (a : Sat) (p : Page) : (a.step svn p).sub = p.sub := by
  unfold Sat.step; dsimp only
  repeat' split
  all_goals rfl

theorem Sat.step_got (svn : Svn) (a : Sat) (p : Page) : (a.step svn p).got =
    (if p.svn = svn ∧ p.word = (if p.sub = a.sub then a.got else []).length
      then (if p.sub = a.sub then a.got else []) ++ [p]
      else (if p.sub = a.sub then a.got else [])) := by
  unfold Sat.step; dsimp only
  repeat' split
  all_goals rfl

/-- Well-formedness of the collector: array lengths. -/
structure Wf (s : CollectSubframe) : Prop where
  hkl : s.hkroot.length = 36
  hkb : ∀ x ∈ s.hkroot, x.length = 15
  mkl : s.mack.length = 36
  mkb : ∀ x ∈ s.mack, x.length = 60
  nvl : s.numValid.length = 36
  wn : s.wn < 65536
  sub : s.subframe < 20160

/-- The collector holds for `svn` the pages of the abstraction. -/
structure Rep (s : CollectSubframe) (svn : Svn) (a : Sat) : Prop where
  wn : s.wn = a.sub.wn
  sub : s.subframe * 30 = a.sub.tow
  nv : s.numValid[svn.idx]? = some a.got.length
  le : a.got.length ≤ 15
  hkp : ∃ l, s.hkroot[svn.idx]? = some l ∧ l.take a.got.length = a.got.flatMap Page.hkroot
  mkp : ∃ l, s.mack[svn.idx]? = some l ∧ l.take (4 * a.got.length) = a.got.flatMap Page.mack

theorem wf_new : Wf new := by
  constructor <;> simp [new, NUM_SVNS] <;> intro x hx <;> simp_all

theorem rep_new (svn : Svn) : Rep new svn ⟨⟨0, 0, by omega, by omega⟩, []⟩ := by
  have := svn.idx_lt
  constructor <;>
    simp [new, NUM_SVNS, this, -List.reduceReplicate]

theorem word_eq (p : Page) : p.word = wordNum p.gst := by
  have := p.gst.htow
  simp only [Page.word, Page.sub, Gst.subframe, wordNum]; omega

theorem word_lt (p : Page) : p.word < 15 := by
  simp only [word_eq, wordNum]; omega

theorem adjust_wf {s : CollectSubframe} (h : Wf s) (g : Gst) : Wf (s.adjust g) := by
  have := g.hwn; have := g.htow
  unfold adjust; split
  · exact ⟨h.hkl, h.hkb, h.mkl, h.mkb, by simp [NUM_SVNS], by simpa using g.hwn, by simp; omega⟩
  · exact h

/-- The abstraction after the (possible) change of subframe. -/
def Sat.adjust (a : Sat) (g : Gst) : Sat := ⟨g.subframe, if g.subframe = a.sub then a.got else []⟩

theorem adjust_rep {s : CollectSubframe} {svn : Svn} {a : Sat} (h : Rep s svn a)
    (g : Gst) : Rep (s.adjust g) svn (a.adjust g) := by
  have h1 := h.wn; have h2 := h.sub
  have := svn.idx_lt
  have e : (g.subframe = a.sub) ↔ ¬ (g.wn ≠ s.wn ∨ g.tow / 30 ≠ s.subframe) := by
    obtain ⟨⟨aw, at', x, y⟩, got⟩ := a
    simp only [Gst.subframe, Gst.mk.injEq] at *
    omega
  unfold adjust Sat.adjust
  by_cases hc : g.wn ≠ s.wn ∨ g.tow / 30 ≠ s.subframe
  · rw [if_pos hc]
    have hne : ¬ g.subframe = a.sub := fun h => (e.1 h) hc
    obtain ⟨lh, hlh, _⟩ := h.hkp
    obtain ⟨lm, hlm, _⟩ := h.mkp
    simp only [hne, if_false]
    refine ⟨rfl, by simp [Gst.subframe], by simp [NUM_SVNS, this, -List.reduceReplicate], by simp, ⟨lh, hlh, by simp⟩, ⟨lm, hlm, by simp⟩⟩
  · rw [if_neg hc]
    have heq := e.2 hc
    simp only [heq, if_true]
    exact h

theorem toBytes_ok {n : Nat} {l : List Byte} (h : l.length = n) : toBytes n l = .ok ⟨l, h⟩ := by
  simp [toBytes, h]

theorem toBytes_eq_ok {n : Nat} {l : List Byte} {b : Bytes n} :
    toBytes n l = .ok b ↔ l = b.val := by
  unfold toBytes
  split
  · rename_i h
    simp only [Res.ok.injEq]
    constructor
    · rintro rfl; rfl
    · intro h'; exact Subtype.ext h'
  · rename_i h
    simp only [reduceCtorEq, false_iff]
    rintro rfl; exact h b.2

/-- What the abstraction predicts `feed` returns. -/
def Sat.Out (a : Sat) (out : SubframeOut) : Prop :=
  match out with
  | none => a.got.length ≠ 15
  | some (hk, mack, g) =>
    a.got.length = 15 ∧ hk.val = a.got.flatMap Page.hkroot ∧ mack.val = a.got.flatMap Page.mack ∧
      g = a.sub

theorem writeSlice_take {α : Type} {l src r : List α} {i : Nat} (h : writeSlice l i src = .ok r) :
    r.take (i + src.length) = l.take i ++ src := by
  rw [writeSlice_eq_ok] at h
  obtain ⟨h1, rfl⟩ := h
  rw [List.take_append_of_le_length (by simp; omega)]
  rw [List.take_of_length_le (by simp; omega)]

/-- Main lemma: `feed` never panics on well-formed states, refines the abstraction of every
satellite, and its result is the one predicted by the abstraction of the fed satellite. -/
theorem feed_spec {s : CollectSubframe} (hw : Wf s) (p : Page) (a : Svn → Sat)
    (ha : ∀ svn, Rep s svn (a svn)) :
    ∃ s' out, s.feed p.data p.svn p.gst = .ok (s', out) ∧ Wf s' ∧
      (∀ svn, Rep s' svn ((a svn).step svn p)) ∧
      (if p.word = ((a p.svn).adjust p.gst).got.length
        then ((a p.svn).step p.svn p).Out out else out = none) := by
  have hw1 := adjust_wf hw p.gst
  have ha1 : ∀ svn, Rep (s.adjust p.gst) svn ((a svn).adjust p.gst) :=
    fun svn => adjust_rep (ha svn) p.gst
  generalize hs1 : s.adjust p.gst = s1 at *
  have hp := ha1 p.svn
  have hil : p.svn.idx < 36 := p.svn.idx_lt
  have hnv : index s1.numValid p.svn.idx = .ok ((a p.svn).adjust p.gst).got.length := by
    rw [index_eq_ok]; exact hp.nv
  have hstep : ∀ svn, (a svn).step svn p =
      if p.svn = svn ∧ p.word = ((a svn).adjust p.gst).got.length
      then ⟨p.sub, ((a svn).adjust p.gst).got ++ [p]⟩ else (a svn).adjust p.gst := by
    intro svn
    rfl
  unfold feed
  simp only [hs1, hnv, Res.ok_bind]
  by_cases hword : p.word = ((a p.svn).adjust p.gst).got.length
  · rw [← word_eq]
    simp only [hword, ne_eq, not_true_eq_false, if_false]
    obtain ⟨hkl, hhk1, hhk2⟩ := hp.hkp
    obtain ⟨mkl, hmk1, hmk2⟩ := hp.mkp
    generalize hn : ((a p.svn).adjust p.gst).got = got at *
    have hlt : got.length < 15 := by have := word_lt p; omega
    have hhkl : hkl.length = 15 := hw1.hkb _ (List.mem_of_getElem? hhk1)
    have hmkl : mkl.length = 60 := hw1.mkb _ (List.mem_of_getElem? hmk1)
    have hd : p.data.val.length = 5 := p.data.2
    have e1 : index s1.hkroot p.svn.idx = .ok hkl := by rw [index_eq_ok]; exact hhk1
    have e2 : index s1.mack p.svn.idx = .ok mkl := by rw [index_eq_ok]; exact hmk1
    obtain ⟨hk', ehk⟩ : ∃ r, writeSlice hkl (got.length * 1) (p.data.val.take 1) = .ok r :=
      ⟨_, writeSlice_ok (by simp; omega)⟩
    obtain ⟨mk', emk⟩ : ∃ r, writeSlice mkl (got.length * 4) (p.data.val.drop 1) = .ok r :=
      ⟨_, writeSlice_ok (by simp; omega)⟩
    have lhk' : hk'.length = 15 := by rw [writeSlice_length ehk, hhkl]
    have lmk' : mk'.length = 60 := by rw [writeSlice_length emk, hmkl]
    have e3 : setIndex s1.hkroot p.svn.idx hk' = .ok (s1.hkroot.set p.svn.idx hk') :=
      setIndex_ok (by rw [hw1.hkl]; exact hil)
    have e4 : setIndex s1.mack p.svn.idx mk' = .ok (s1.mack.set p.svn.idx mk') :=
      setIndex_ok (by rw [hw1.mkl]; exact hil)
    have e5 : setIndex s1.numValid p.svn.idx (got.length + 1)
        = .ok (s1.numValid.set p.svn.idx (got.length + 1)) :=
      setIndex_ok (by rw [hw1.nvl]; exact hil)
    have thk : hk'.take (got.length + 1) = (got ++ [p]).flatMap Page.hkroot := by
      have := writeSlice_take ehk
      simp only [Nat.mul_one, List.length_take, hd] at this
      rw [show min 1 5 = 1 from rfl] at this
      rw [this, hhk2]; simp [Page.hkroot]
    have tmk : mk'.take (4 * (got.length + 1)) = (got ++ [p]).flatMap Page.mack := by
      have := writeSlice_take emk
      simp only [List.length_drop, hd] at this
      rw [show 4 * (got.length + 1) = got.length * 4 + (5 - 1) by omega, this,
        show got.length * 4 = 4 * got.length by omega, hmk2]; simp [Page.mack]
    simp only [e1, e2, e3, e4, e5, ehk, emk, Res.ok_bind]
    have hwf' : Wf { s1 with hkroot := s1.hkroot.set p.svn.idx hk', mack := s1.mack.set p.svn.idx mk', numValid := s1.numValid.set p.svn.idx (got.length + 1) } := by
      refine ⟨by simp [hw1.hkl], ?_, by simp [hw1.mkl], ?_, by simp [hw1.nvl], hw1.wn, hw1.sub⟩
      · intro x hx
        rcases List.mem_or_eq_of_mem_set hx with h | rfl
        · exact hw1.hkb _ h
        · exact lhk'
      · intro x hx
        rcases List.mem_or_eq_of_mem_set hx with h | rfl
        · exact hw1.mkb _ h
        · exact lmk'
    have hsub : ((a p.svn).adjust p.gst).sub = p.sub := rfl
    have hrep' : ∀ svn, Rep { s1 with hkroot := s1.hkroot.set p.svn.idx hk', mack := s1.mack.set p.svn.idx mk', numValid := s1.numValid.set p.svn.idx (got.length + 1) } svn ((a svn).step svn p) := by
      intro svn
      rw [hstep]
      by_cases hsv : p.svn = svn
      · subst hsv
        rw [if_pos ⟨rfl, by rw [hn]; exact hword⟩, hn]
        refine ⟨hp.wn, hp.sub, ?_, by simp; omega, ⟨hk', ?_, ?_⟩, ⟨mk', ?_, ?_⟩⟩
        · simp [hw1.nvl, hil]
        · simp [hw1.hkl, hil]
        · simpa using thk
        · simp [hw1.mkl, hil]
        · simpa using tmk
      · rw [if_neg (by simp [hsv])]
        have hne : p.svn.idx ≠ svn.idx := fun h => hsv (Svn.idx_inj h)
        have hr := ha1 svn
        refine ⟨hr.wn, hr.sub, ?_, hr.le, ?_, ?_⟩
        · simpa [List.getElem?_set_ne hne] using hr.nv
        · simpa [List.getElem?_set_ne hne] using hr.hkp
        · simpa [List.getElem?_set_ne hne] using hr.mkp
    have hstepp : (a p.svn).step p.svn p = ⟨p.sub, got ++ [p]⟩ := by
      rw [hstep, hn, if_pos ⟨rfl, hword⟩]
    by_cases h15 : got.length + 1 = 15
    · simp only [h15, if_true]
      have h4 := hw1.wn; have h5 := hw1.sub
      rw [toBytes_ok lhk', toBytes_ok lmk']
      simp only [Res.ok_bind, h4, dif_pos]
      have hg : Gst.new s1.wn (s1.subframe * 30) h4 = .ok p.sub := by
        unfold Gst.new
        rw [dif_pos (by omega)]
        congr 1
        have h6 := hp.wn; have h7 := hp.sub
        rw [hsub] at h6 h7
        cases hps : p.sub
        rw [hps] at h6 h7
        simp only at h6 h7
        simp [h6, h7]
      simp only [hg, Res.ok_bind, Res.pure_eq]
      rw [h15] at hwf' hrep'
      refine ⟨_, _, rfl, hwf', hrep', ?_⟩
      rw [hstepp]
      simp only [Sat.Out, List.length_append, List.length_singleton]
      refine ⟨h15, ?_, ?_, trivial⟩
      · rw [← thk, List.take_of_length_le (by omega)]
      · rw [← tmk, List.take_of_length_le (by omega)]
    · simp only [h15, if_false, Res.pure_eq]
      refine ⟨_, _, rfl, hwf', hrep', ?_⟩
      rw [hstepp]
      simp only [Sat.Out, List.length_append, List.length_singleton]
      exact h15
  · rw [← word_eq]
    rw [if_pos hword]
    simp only [hword, if_false]
    refine ⟨s1, none, rfl, hw1, ?_, rfl⟩
    intro svn
    rw [hstep, if_neg]
    · exact ha1 svn
    · rintro ⟨rfl, h⟩; exact hword h

/-- The result of a call, without the array lengths. -/
def raw (o : SubframeOut) : Option (List Byte × List Byte × Gst) :=
  o.map (fun x => (x.1.val, x.2.1.val, x.2.2))

theorem raw_inj {a b : SubframeOut} (h : raw a = raw b) : a = b := by
  cases a with
  | none => cases b with
    | none => rfl
    | some b => simp [raw] at h
  | some a => cases b with
    | none => simp [raw] at h
    | some b =>
      obtain ⟨a1, a2, a3⟩ := a
      obtain ⟨b1, b2, b3⟩ := b
      simp only [raw, Option.map_some, Option.some.injEq, Prod.mk.injEq] at h
      rw [Subtype.ext h.1, Subtype.ext h.2.1, h.2.2]

/-- What the abstraction of satellite `svn` predicts for page `p`. -/
def Sat.emit (svn : Svn) (a : Sat) (p : Page) : Option (List Byte × List Byte × Gst) :=
  if p.svn = svn ∧ p.word = 14 ∧ (a.adjust p.gst).got.length = 14 then
    some ((a.step svn p).got.flatMap Page.hkroot, (a.step svn p).got.flatMap Page.mack, p.sub)
  else none

theorem feed_emit {s : CollectSubframe} (hw : Wf s) (p : Page) (a : Svn → Sat)
    (ha : ∀ svn, Rep s svn (a svn)) :
    ∃ s' out, s.feed p.data p.svn p.gst = .ok (s', out) ∧ Wf s' ∧
      (∀ svn, Rep s' svn ((a svn).step svn p)) ∧ raw out = (a p.svn).emit p.svn p := by
  obtain ⟨s', out, h1, h2, h3, h4⟩ := feed_spec hw p a ha
  refine ⟨s', out, h1, h2, h3, ?_⟩
  have hs : (a p.svn).step p.svn p =
      if p.svn = p.svn ∧ p.word = ((a p.svn).adjust p.gst).got.length
      then ⟨p.sub, ((a p.svn).adjust p.gst).got ++ [p]⟩ else (a p.svn).adjust p.gst := rfl
  unfold Sat.emit
  by_cases hword : p.word = ((a p.svn).adjust p.gst).got.length
  · rw [if_pos hword] at h4
    rw [if_pos ⟨rfl, hword⟩] at hs
    cases out with
    | none =>
      rw [hs] at h4
      simp only [Sat.Out, List.length_append, List.length_singleton] at h4
      rw [if_neg (by omega)]; rfl
    | some o =>
      obtain ⟨hk, mack, g⟩ := o
      obtain ⟨h5, h6, h7, h8⟩ := h4
      have : ((a p.svn).adjust p.gst).got.length = 14 := by
        rw [hs] at h5
        simp only [List.length_append, List.length_singleton] at h5; omega
      rw [if_pos ⟨rfl, by omega, this⟩]
      simp only [raw, Option.map_some, h6, h7, h8, hs]
  · rw [if_neg hword] at h4
    rw [if_neg (by omega), h4]; rfl

/-- Predicted results of a list of calls. -/
def emits (a : Svn → Sat) : List Page → List (Option (List Byte × List Byte × Gst))
  | [] => []
  | p :: ps => (a p.svn).emit p.svn p :: emits (fun svn => (a svn).step svn p) ps

theorem feedPages_spec {s : CollectSubframe} (hw : Wf s) (ps : List Page) (a : Svn → Sat)
    (ha : ∀ svn, Rep s svn (a svn)) :
    ∃ s' outs, feedPages s ps = .ok (s', outs) ∧ Wf s' ∧
      (∀ svn, Rep s' svn (ps.foldl (Sat.step svn) (a svn))) ∧ outs.map raw = emits a ps := by
  induction ps generalizing s a with
  | nil => exact ⟨s, [], rfl, hw, ha, rfl⟩
  | cons p ps ih =>
    obtain ⟨s1, o, h1, h2, h3, h4⟩ := feed_emit hw p a ha
    obtain ⟨s2, os, h5, h6, h7, h8⟩ := ih h2 _ h3
    exact ⟨s2, o :: os, by simp only [feedPages, h1, h5], h6, h7, by simp [emits, h4, h8]⟩

/-- Initial abstraction. -/
def Sat.init : Sat := ⟨⟨0, 0, by omega, by omega⟩, []⟩

/-- The pages held for a satellite after a history. -/
def satAfter (svn : Svn) (hist : List Page) : Sat := hist.foldl (Sat.step svn) Sat.init

theorem satAfter_snoc (svn : Svn) (hist : List Page) (p : Page) :
    satAfter svn (hist ++ [p]) = (satAfter svn hist).step svn p := by
  simp [satAfter]

theorem sinceSubframe_snoc (hist : List Page) (p : Page) :
    sinceSubframe (hist ++ [p]) p.sub = sinceSubframe hist p.sub ++ [p] := by
  simp [sinceSubframe]

theorem snoc_induction {α : Type u} {P : List α → Prop} (h0 : P [])
    (h1 : ∀ l a, P l → P (l ++ [a])) (l : List α) : P l := by
  rw [← List.reverse_reverse l]
  induction l.reverse with
  | nil => exact h0
  | cons a l ih => rw [List.reverse_cons]; exact h1 _ _ ih

/-- Invariant of the pages held for a satellite. -/
theorem satAfter_inv (svn : Svn) (hist : List Page) :
    (satAfter svn hist).got.Sublist (sinceSubframe hist (satAfter svn hist).sub) ∧
      (satAfter svn hist).got.map Page.word = List.range (satAfter svn hist).got.length ∧
      ∀ q ∈ (satAfter svn hist).got, q.svn = svn ∧ q.sub = (satAfter svn hist).sub := by
  induction hist using snoc_induction with
  | h0 => simp [satAfter, Sat.init]
  | h1 hist p ih =>
    obtain ⟨i1, i2, i3⟩ := ih
    rw [satAfter_snoc]
    have hsub : ((satAfter svn hist).step svn p).sub = p.sub := Sat.step_sub _ _ _
    rw [hsub, sinceSubframe_snoc]
    have key : ∀ got : List Page, got.Sublist (sinceSubframe hist p.sub) →
        got.map Page.word = List.range got.length →
        (∀ q ∈ got, q.svn = svn ∧ q.sub = p.sub) →
        ∀ got', got' = (if p.svn = svn ∧ p.word = got.length then got ++ [p] else got) →
        got'.Sublist (sinceSubframe hist p.sub ++ [p]) ∧
        got'.map Page.word = List.range got'.length ∧ ∀ q ∈ got', q.svn = svn ∧ q.sub = p.sub := by
      intro got h1 h2 h3 got' hg
      split at hg
      · rename_i hc
        subst hg
        refine ⟨h1.append (List.Sublist.refl _), ?_, ?_⟩
        · simp [h2, List.range_succ, hc.2]
        · intro q hq
          rcases List.mem_append.1 hq with h | h
          · exact h3 q h
          · simp only [List.mem_singleton] at h; subst h; exact ⟨hc.1, rfl⟩
      · subst hg
        exact ⟨h1.trans (List.sublist_append_left _ _), h2, h3⟩
    have hgot : ((satAfter svn hist).step svn p).got =
        (if p.svn = svn ∧ p.word = (if p.sub = (satAfter svn hist).sub then (satAfter svn hist).got
            else []).length
          then (if p.sub = (satAfter svn hist).sub then (satAfter svn hist).got else []) ++ [p]
          else (if p.sub = (satAfter svn hist).sub then (satAfter svn hist).got else [])) := by
      exact Sat.step_got _ _ _
    refine key _ ?_ ?_ ?_ _ hgot
    · split
      · rename_i h; rw [h]; exact i1
      · simp
    · split
      · exact i2
      · simp
    · split
      · rename_i h; rw [h]; exact i3
      · simp

/-- Number of consecutive values, starting from `n`, found in order in a list. -/
def greedy (n : Nat) : List Nat → Nat
  | [] => n
  | w :: ws => if w = n then greedy (n + 1) ws else greedy n ws

theorem le_greedy (n : Nat) (ws : List Nat) : n ≤ greedy n ws := by
  induction ws generalizing n with
  | nil => exact Nat.le_refl _
  | cons w ws ih =>
    simp only [greedy]; split
    · exact Nat.le_trans (Nat.le_succ n) (ih _)
    · exact ih n

theorem range'_sublist_iff (n k : Nat) (ws : List Nat) :
    (List.range' n k).Sublist ws ↔ n + k ≤ greedy n ws := by
  induction ws generalizing n k with
  | nil =>
    cases k with
    | zero => simp [greedy]
    | succ k => simp [greedy, List.range'_succ]
  | cons w ws ih =>
    cases k with
    | zero => have := le_greedy n (w :: ws); simp; exact this
    | succ k =>
      simp only [greedy, List.range'_succ]
      split
      · rename_i h; subst h
        rw [List.cons_sublist_cons, ih]; omega
      · rename_i h
        rw [← ih, List.range'_succ]
        constructor
        · intro hs
          cases hs with
          | cons _ hs => exact hs
          | cons_cons _ hs => exact absurd rfl h
        · intro hs; exact hs.cons _

/-- Within one subframe: how many results the satellite gets, from the pages it holds. -/
theorem emits_count (svn : Svn) (g : Gst) (ps : List Page) (hps : ∀ p ∈ ps, p.sub = g)
    (a : Svn → Sat) (n : Nat)
    (hn : n = (if (a svn).sub = g then (a svn).got else []).length) :
    (((ps.zip (emits a ps)).filter (fun x => x.1.svn == svn)).filter (fun x => x.2.isSome)).length
      = if n ≤ 14 ∧ 15 ≤ greedy n ((ps.filter (fun p => p.svn == svn)).map Page.word) then 1
        else 0 := by
  induction ps generalizing a n with
  | nil => simp [emits, greedy]; omega
  | cons p ps ih =>
    have hp : p.sub = g := hps p (by simp)
    have hps' : ∀ q ∈ ps, q.sub = g := fun q hq => hps q (List.mem_cons_of_mem _ hq)
    have hstepsub : ((a svn).step svn p).sub = g := by
      rw [Sat.step_sub]; exact hp
    have hstepgot : ((a svn).step svn p).got.length =
        if p.svn = svn ∧ p.word = n then n + 1 else n := by
      have e : (if p.sub = (a svn).sub then (a svn).got else []).length = n := by
        rw [hn, hp]; simp only [eq_comm]
      unfold Sat.step; dsimp only
      rw [e]; split
      · simp [e]
      · exact e
    have hadj : ((a svn).adjust p.gst).got.length = n := by
      simp only [Sat.adjust]
      rw [show p.gst.subframe = g from hp, hn]; simp only [eq_comm]
    have ih' := ih hps' (fun svn => (a svn).step svn p) (if p.svn = svn ∧ p.word = n then n + 1 else n)
      (by rw [if_pos hstepsub]; exact hstepgot.symm)
    simp only [emits, List.zip_cons_cons]
    by_cases hsv : p.svn = svn
    · subst hsv
      simp only [beq_self_eq_true, List.filter_cons_of_pos, List.map_cons, greedy]
      by_cases hw : p.word = n
      · simp only [hw, and_self, if_true] at ih' ⊢
        by_cases h14 : n = 14
        · subst h14
          have hem : ((a p.svn).emit p.svn p).isSome = true := by
            unfold Sat.emit; rw [if_pos ⟨rfl, hw, hadj⟩]; rfl
          rw [List.filter_cons_of_pos (by simpa using hem), List.length_cons, ih']
          have := le_greedy 15 ((ps.filter (fun q => q.svn == p.svn)).map Page.word)
          simp [this]
        · have hem : ((a p.svn).emit p.svn p).isSome = false := by
            unfold Sat.emit; rw [if_neg (by omega)]; rfl
          rw [List.filter_cons_of_neg (by simp [hem]), ih']
          have hlt := word_lt p
          have : n + 1 ≤ 14 ↔ n ≤ 14 := by omega
          simp only [this]
      · simp only [hw, and_false, if_false] at ih' ⊢
        have hem : ((a p.svn).emit p.svn p).isSome = false := by
          unfold Sat.emit; rw [if_neg (by omega)]; rfl
        rw [List.filter_cons_of_neg (by simp [hem]), ih']
    · rw [List.filter_cons_of_neg (by simpa using hsv), List.filter_cons_of_neg (by simpa using hsv)]
      simp only [hsv, false_and, if_false] at ih'
      exact ih'

/-- Non-interference on the abstraction, for chronological pages. -/
theorem emits_filter (svn : Svn) (ps : List Page) (a b : Svn → Sat)
    (hchr : ps.Pairwise (fun p q => p.sub.abs ≤ q.sub.abs))
    (hab : a svn = b svn ∨ ((a svn).got = [] ∧ (b svn).sub.abs ≤ (a svn).sub.abs ∧
        (b svn).sub ≠ (a svn).sub ∧ ∀ p ∈ ps, (a svn).sub.abs ≤ p.sub.abs))
    (hge : ∀ p ∈ ps, (a svn).sub.abs ≤ p.sub.abs) :
    ((ps.zip (emits a ps)).filter (fun x => x.1.svn == svn)).map (·.2)
      = emits b (ps.filter (fun p => p.svn == svn)) := by
  induction ps generalizing a b with
  | nil => rfl
  | cons p ps ih =>
    have hp := hge p (by simp)
    rw [List.pairwise_cons] at hchr
    simp only [emits, List.zip_cons_cons]
    have hsub : ∀ x : Sat, (x.step svn p).sub = p.sub := by
      intro x; exact Sat.step_sub _ _ _
    have hadj : (a svn).adjust p.gst = (b svn).adjust p.gst ∨ p.svn ≠ svn := by
      rcases hab with h | ⟨h1, h2, h3, h4⟩
      · left; rw [h]
      · left
        simp only [Sat.adjust, h1, ite_self]
        rw [if_neg]
        intro hc
        apply h3
        apply Gst.abs_inj
        have : p.sub = (b svn).sub := hc
        rw [← this] at h2 ⊢; omega
    by_cases hsv : p.svn = svn
    · subst hsv
      have hadj := hadj.resolve_right (by simp)
      have hst : (a p.svn).step p.svn p = (b p.svn).step p.svn p := by
        have : ∀ x : Sat, x.step p.svn p =
          if p.svn = p.svn ∧ p.word = (x.adjust p.gst).got.length
          then ⟨p.sub, (x.adjust p.gst).got ++ [p]⟩ else x.adjust p.gst := fun _ => rfl
        rw [this, this, hadj]
      have hem : (a p.svn).emit p.svn p = (b p.svn).emit p.svn p := by
        unfold Sat.emit; rw [hadj, hst]
      simp only [beq_self_eq_true, List.filter_cons_of_pos, List.map_cons, emits, hem]
      congr 1
      refine ih _ _ hchr.2 (Or.inl hst) ?_
      intro q hq; rw [hsub]; exact hchr.1 q hq
    · rw [List.filter_cons_of_neg (by simpa using hsv), List.filter_cons_of_neg (by simpa using hsv)]
      refine ih _ _ hchr.2 ?_ ?_
      · have hst : (a svn).step svn p = (a svn).adjust p.gst := by
          have : (a svn).step svn p = if p.svn = svn ∧ p.word = ((a svn).adjust p.gst).got.length
            then ⟨p.sub, ((a svn).adjust p.gst).got ++ [p]⟩ else (a svn).adjust p.gst := rfl
          rw [this, if_neg (by simp [hsv])]
        simp only [hst]
        by_cases hs : p.sub = (a svn).sub
        · have : (a svn).adjust p.gst = a svn := by
            simp only [Sat.adjust]
            rw [show p.gst.subframe = (a svn).sub from hs, if_pos rfl]
          rw [this]
          rcases hab with h | ⟨h1, h2, h3, h4⟩
          · exact Or.inl h
          · exact Or.inr ⟨h1, h2, h3, fun q hq => h4 q (List.mem_cons_of_mem _ hq)⟩
        · right
          have hne : p.gst.subframe ≠ (a svn).sub := hs
          simp only [Sat.adjust, if_neg hne]
          have hlt : (a svn).sub.abs < p.sub.abs := by
            have : (a svn).sub.abs ≠ p.sub.abs := fun h => hs (Gst.abs_inj h.symm)
            omega
          have hb : (b svn).sub.abs ≤ (a svn).sub.abs := by
            rcases hab with h | ⟨h1, h2, _, _⟩
            · rw [h]; exact Int.le_refl _
            · exact h2
          refine ⟨trivial, ?_, ?_, ?_⟩
          · show (b svn).sub.abs ≤ p.sub.abs
            omega
          · intro hc
            have : (b svn).sub = p.sub := hc
            rw [this] at hb; omega
          · exact hchr.1
      · intro q hq; rw [hsub]; exact hchr.1 q hq

end CollectSubframe
end Verif
