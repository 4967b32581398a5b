import Verif.Lemmas.OsnmaRun
import Verif.Spec.Interleaving

/-! # Lemmas: interleavings of pages -/

namespace Verif
namespace CollectSubframe

/-- What is returned when a page is taken. -/
def Tail (hk mk : List Byte) (valid wn sub : Nat) (out : Option (HkrootMessage × MackMessage × Gst)) : Prop :=
  (valid + 1 = 15 ∧ ∃ hk' mk' g, toBytes 15 hk = .ok hk' ∧ toBytes 60 mk = .ok mk' ∧
    (if h : wn < 65536 then Gst.new wn (sub * 30) h else .panic "unreachable") = .ok g ∧ out = some (hk', mk', g)) ∨
  (valid + 1 ≠ 15 ∧ out = none)

/-- `feed`, in a state that is already at the subframe of the page. -/
theorem feed_eq_ok {s s' : CollectSubframe} {d : OsnmaDataMessage} {v : Svn} {g : Gst} {out : Option (HkrootMessage × MackMessage × Gst)} :
    s.feed d v g = .ok (s', out) ↔ ∃ valid, (s.adjust g).numValid[v.idx]? = some valid ∧
      ((wordNum g ≠ valid ∧ s' = s.adjust g ∧ out = none) ∨
       (wordNum g = valid ∧ ∃ hk mk hk' mk', (s.adjust g).hkroot[v.idx]? = some hk ∧ (s.adjust g).mack[v.idx]? = some mk ∧
          writeSlice hk (valid * 1) (d.val.take 1) = .ok hk' ∧ writeSlice mk (valid * 4) (d.val.drop 1) = .ok mk' ∧
          s' = { s.adjust g with hkroot := (s.adjust g).hkroot.set v.idx hk', mack := (s.adjust g).mack.set v.idx mk',
                                 numValid := (s.adjust g).numValid.set v.idx (valid + 1) } ∧
          Tail hk' mk' valid (s.adjust g).wn (s.adjust g).subframe out)) := by
  unfold feed
  generalize s.adjust g = t
  dsimp only
  constructor
  · intro h
    obtain ⟨valid, h1, h⟩ := Res.bind_eq_ok.1 h
    refine ⟨valid, index_eq_ok.1 h1, ?_⟩
    split at h
    · rename_i hne
      simp only [Res.pure_eq, Res.ok.injEq, Prod.mk.injEq] at h
      exact .inl ⟨hne, h.1.symm, h.2.symm⟩
    · rename_i hne
      obtain ⟨hk, e1, h⟩ := Res.bind_eq_ok.1 h
      obtain ⟨hk', e2, h⟩ := Res.bind_eq_ok.1 h
      obtain ⟨hs, e3, h⟩ := Res.bind_eq_ok.1 h
      obtain ⟨mk, e4, h⟩ := Res.bind_eq_ok.1 h
      obtain ⟨mk', e5, h⟩ := Res.bind_eq_ok.1 h
      obtain ⟨ms, e6, h⟩ := Res.bind_eq_ok.1 h
      obtain ⟨nv, e7, h⟩ := Res.bind_eq_ok.1 h
      rw [index_eq_ok] at e1 e4 h1
      rw [setIndex_ok (List.getElem?_eq_some_iff.1 e1).1] at e3
      rw [setIndex_ok (List.getElem?_eq_some_iff.1 e4).1] at e6
      rw [setIndex_ok (List.getElem?_eq_some_iff.1 h1).1] at e7
      cases e3; cases e6; cases e7
      refine .inr ⟨Classical.not_not.1 hne, hk, mk, hk', mk', e1, e4, e2, e5, ?_⟩
      split at h
      · rename_i h15
        obtain ⟨a, a1, h⟩ := Res.bind_eq_ok.1 h
        obtain ⟨b, b1, h⟩ := Res.bind_eq_ok.1 h
        by_cases hw : t.wn < 65536
        · rw [dif_pos hw] at h
          obtain ⟨c, c1, h⟩ := Res.bind_eq_ok.1 h
          simp only [Res.pure_eq, Res.ok.injEq, Prod.mk.injEq] at h
          exact ⟨h.1.symm, .inl ⟨h15, a, b, c, a1, b1, by rw [dif_pos hw]; exact c1, h.2.symm⟩⟩
        · rw [dif_neg hw] at h
          cases h
      · rename_i h15
        simp only [Res.pure_eq, Res.ok.injEq, Prod.mk.injEq] at h
        exact ⟨h.1.symm, .inr ⟨h15, h.2.symm⟩⟩
  · rintro ⟨valid, h1, ⟨hne, rfl, rfl⟩ | ⟨heq, hk, mk, hk', mk', e1, e4, e2, e5, rfl, ht⟩⟩
    · rw [index_eq_ok.2 h1]
      simp only [Res.ok_bind]
      rw [if_pos hne]
      rfl
    · rw [index_eq_ok.2 h1]
      simp only [Res.ok_bind]
      rw [if_neg (by simpa using heq), index_eq_ok.2 e1]
      simp only [Res.ok_bind]
      rw [e2]
      simp only [Res.ok_bind]
      rw [setIndex_ok (List.getElem?_eq_some_iff.1 e1).1]
      simp only [Res.ok_bind]
      rw [index_eq_ok.2 e4]
      simp only [Res.ok_bind]
      rw [e5]
      simp only [Res.ok_bind]
      rw [setIndex_ok (List.getElem?_eq_some_iff.1 e4).1]
      simp only [Res.ok_bind]
      rw [setIndex_ok (List.getElem?_eq_some_iff.1 h1).1]
      simp only [Res.ok_bind]
      rcases ht with ⟨h15, a, b, c, a1, b1, c1, rfl⟩ | ⟨h15, rfl⟩
      · rw [if_pos h15, a1]
        simp only [Res.ok_bind]
        rw [b1]
        simp only [Res.ok_bind]
        by_cases hw : t.wn < 65536
        · rw [dif_pos hw] at c1 ⊢
          rw [c1]
          rfl
        · rw [dif_neg hw] at c1
          cases c1
      · rw [if_neg h15]
        rfl

theorem adjust_self {s : CollectSubframe} {g : Gst} : (s.adjust g).wn = g.wn ∧ (s.adjust g).subframe = g.tow / 30 := by
  unfold adjust
  split
  · exact ⟨rfl, rfl⟩
  · rename_i h
    constructor <;> omega

theorem adjust_of {s : CollectSubframe} {g : Gst} (h : s.wn = g.wn ∧ s.subframe = g.tow / 30) : s.adjust g = s := by
  unfold adjust
  rw [if_neg]
  omega

theorem subframe_wn {g g' : Gst} (h : g.subframe = g'.subframe) : g.wn = g'.wn := by
  have : g.subframe.wn = g'.subframe.wn := by rw [h]
  exact this

theorem subframe_tow {g g' : Gst} (h : g.subframe = g'.subframe) : g.tow / 30 = g'.tow / 30 := by
  have e : g.subframe.tow = g'.subframe.tow := by rw [h]
  have e' : g.tow / 30 * 30 = g'.tow / 30 * 30 := e
  omega

theorem adjust_eq {s : CollectSubframe} {g g' : Gst} (h : g.subframe = g'.subframe) : s.adjust g = s.adjust g' := by
  have h1 : g.wn = g'.wn := subframe_wn h
  have h3 : g.tow / 30 = g'.tow / 30 := subframe_tow h
  unfold adjust
  rw [h1, h3]

/-- Pages of two satellites in the same subframe, in either order. -/
theorem feed_comm {s s1 s2 : CollectSubframe} {d d' : OsnmaDataMessage} {v v' : Svn} {g g' : Gst}
    {out out' : Option (HkrootMessage × MackMessage × Gst)} (hv : v ≠ v') (hg : g.subframe = g'.subframe)
    (h : s.feed d v g = .ok (s1, out)) (h' : s1.feed d' v' g' = .ok (s2, out')) :
    ∃ s1', s.feed d' v' g' = .ok (s1', out') ∧ s1'.feed d v g = .ok (s2, out) := by
  have hidx : v.idx ≠ v'.idx := by
    intro e
    apply hv
    unfold Svn.idx at e
    have a := v.h1; have b := v'.h1
    cases v; cases v'
    simp only [Svn.mk.injEq]
    dsimp only at e a b
    omega
  have t1 := adjust_self (s := s) (g := g)
  have hgw : g.wn = g'.wn := subframe_wn hg
  have hgt : g.tow / 30 = g'.tow / 30 := subframe_tow hg
  have te := adjust_eq (s := s) hg
  rw [feed_eq_ok] at h h'
  simp only [feed_eq_ok]
  rw [← te]
  revert h
  generalize s.adjust g = t at t1
  intro h
  have at' : ∀ a b c, ({ t with hkroot := a, mack := b, numValid := c } : CollectSubframe).adjust g = { t with hkroot := a, mack := b, numValid := c } :=
    fun a b c => adjust_of t1
  have at'' : ∀ a b c, ({ t with hkroot := a, mack := b, numValid := c } : CollectSubframe).adjust g' = { t with hkroot := a, mack := b, numValid := c } :=
    fun a b c => adjust_of (by rw [← hgw, ← hgt]; exact t1)
  have a0 : t.adjust g = t := adjust_of t1
  have a1 : t.adjust g' = t := adjust_of (by rw [← hgw, ← hgt]; exact t1)
  obtain ⟨va, n1, ⟨ne, rfl, rfl⟩ | ⟨eq, hk, mk, hk', mk', e1, e2, e3, e4, rfl, ht⟩⟩ := h
  · rw [a1] at h'
    obtain ⟨vb, m1, ⟨me, rfl, rfl⟩ | ⟨meq, hk, mk, hk', mk', e1, e2, e3, e4, rfl, ht⟩⟩ := h'
    · exact ⟨_, ⟨vb, m1, .inl ⟨me, rfl, rfl⟩⟩, va, by rw [a0]; exact n1, .inl ⟨ne, by rw [a0], rfl⟩⟩
    · refine ⟨_, ⟨vb, m1, .inr ⟨meq, hk, mk, hk', mk', e1, e2, e3, e4, rfl, ht⟩⟩, va, ?_, .inl ⟨ne, ?_, rfl⟩⟩
      · rw [at']
        dsimp only
        rw [List.getElem?_set_ne (Ne.symm hidx)]
        exact n1
      · rw [at']
  · rw [at''] at h'
    dsimp only at h'
    rw [List.getElem?_set_ne hidx, List.getElem?_set_ne hidx, List.getElem?_set_ne hidx] at h'
    obtain ⟨vb, m1, ⟨me, rfl, rfl⟩ | ⟨meq, hkb, mkb, hkb', mkb', f1, f2, f3, f4, rfl, htb⟩⟩ := h'
    · refine ⟨_, ⟨vb, m1, .inl ⟨me, rfl, rfl⟩⟩, va, by rw [a0]; exact n1, .inr ⟨eq, hk, mk, hk', mk', ?_⟩⟩
      rw [a0]
      exact ⟨e1, e2, e3, e4, rfl, ht⟩
    · refine ⟨_, ⟨vb, m1, .inr ⟨meq, hkb, mkb, hkb', mkb', f1, f2, f3, f4, rfl, htb⟩⟩, va, ?_, .inr ⟨eq, hk, mk, hk', mk', ?_⟩⟩
      · rw [at']
        dsimp only
        rw [List.getElem?_set_ne (Ne.symm hidx)]
        exact n1
      · rw [at']
        dsimp only
        rw [List.getElem?_set_ne (Ne.symm hidx), List.getElem?_set_ne (Ne.symm hidx)]
        refine ⟨e1, e2, e3, e4, ?_, ht⟩
        congr 1 <;> exact List.set_comm _ _ hidx

/-- A page that is not the last one completes nothing. -/
theorem feed_notLast {s s' : CollectSubframe} {d : OsnmaDataMessage} {v : Svn} {g : Gst} {out : Option (HkrootMessage × MackMessage × Gst)}
    (hl : ¬ g.LastPage) (h : s.feed d v g = .ok (s', out)) : out = none := by
  obtain ⟨valid, _, ⟨_, _, rfl⟩ | ⟨e, _, _, _, _, _, _, _, _, _, ⟨h15, _⟩ | ⟨_, rfl⟩⟩⟩ := feed_eq_ok.1 h
  · rfl
  · exfalso
    apply hl
    unfold Gst.LastPage
    unfold wordNum at e
    omega
  · rfl

end CollectSubframe

variable {C : Crypto} {S : Storage}

/-- `feed_osnma`, for a page that is not all zeros. -/
theorem feedOsnma_eq_ok {o o' : Osnma C} {d : OsnmaDataMessage} {v : Svn} {g : Gst} (hz : ¬ d.val.all (fun x => x == 0#8) = true) :
    o.feedOsnma S d v g = .ok o' ↔ ∃ sf out, o.subframe.feed d v g = .ok (sf, out) ∧
      ((out = none ∧ o' = { o with subframe := sf }) ∨
        ∃ hk m gg data, out = some (hk, m, gg) ∧ o.data.processSubframe S hk m v gg = .ok data ∧ o' = ⟨sf, data⟩) := by
  unfold Osnma.feedOsnma
  rw [if_neg hz]
  constructor
  · intro h
    obtain ⟨⟨sf, out⟩, h1, h⟩ := Res.bind_eq_ok.1 h
    refine ⟨sf, out, h1, ?_⟩
    cases out with
    | none => simp only [Res.pure_eq, Res.ok.injEq] at h; exact .inl ⟨rfl, h.symm⟩
    | some x =>
      obtain ⟨hk, m, gg⟩ := x
      dsimp only at h
      obtain ⟨data, h2, h3⟩ := Res.bind_eq_ok.1 h
      simp only [Res.pure_eq, Res.ok.injEq] at h3
      exact .inr ⟨hk, m, gg, data, rfl, h2, h3.symm⟩
  · rintro ⟨sf, out, h1, ⟨rfl, rfl⟩ | ⟨hk, m, gg, data, rfl, h2, rfl⟩⟩
    · rw [h1]; rfl
    · rw [h1]
      simp only [Res.ok_bind]
      rw [h2]
      rfl

/-- Exchanging two independent calls, not both words. -/
theorem run_swap {o o1 o2 : Osnma C} {c c' : Call} (hi : c.Independent c') (hp : ¬ (c.IsWord ∧ c'.IsWord)) (h : c.run S o = .ok o1)
    (h' : c'.run S o1 = .ok o2) : ∃ o1', c'.run S o = .ok o1' ∧ c.run S o1' = .ok o2 := by
  have zero : ∀ (d : OsnmaDataMessage) (v : Svn) (g : Gst), d.val.all (fun x => x == 0#8) = true → ∀ o : Osnma C,
      (Call.osnma d v g).run S o = .ok o := by
    intro d v g hz o
    show o.feedOsnma S d v g = _
    unfold Osnma.feedOsnma
    rw [if_pos hz]
    rfl
  cases c with
  | inav w v g b =>
    cases c' with
    | inav => exact absurd ⟨trivial, trivial⟩ hp
    | osnma d' v' g' =>
      by_cases hz : d'.val.all (fun x => x == 0#8) = true
      · rw [zero d' v' g' hz] at h'
        cases h'
        exact ⟨o, zero d' v' g' hz o, h⟩
      · obtain ⟨sf, out, f1, f2⟩ := (feedOsnma_eq_ok hz).1 (show o1.feedOsnma S d' v' g' = .ok o2 from h')
        obtain ⟨nav, n1, n2⟩ := Res.bind_eq_ok.1 (show o.feedInav S w v g b = .ok o1 from h)
        simp only [Res.pure_eq, Res.ok.injEq] at n2
        subst n2
        obtain rfl := CollectSubframe.feed_notLast hi f1
        rcases f2 with ⟨_, rfl⟩ | ⟨_, _, _, _, e, _⟩
        · refine ⟨{ o with subframe := sf }, (feedOsnma_eq_ok hz).2 ⟨sf, none, f1, .inl ⟨rfl, rfl⟩⟩, ?_⟩
          show Osnma.feedInav S _ w v g b = _
          unfold Osnma.feedInav
          dsimp only
          rw [n1]
          rfl
        · cases e
  | osnma d v g =>
    cases c' with
    | inav w' v' g' b' =>
      by_cases hz : d.val.all (fun x => x == 0#8) = true
      · rw [zero d v g hz] at h
        cases h
        exact ⟨o2, h', zero d v g hz o2⟩
      · obtain ⟨sf, out, f1, f2⟩ := (feedOsnma_eq_ok hz).1 (show o.feedOsnma S d v g = .ok o1 from h)
        obtain rfl := CollectSubframe.feed_notLast hi f1
        rcases f2 with ⟨_, rfl⟩ | ⟨_, _, _, _, e, _⟩
        · obtain ⟨nav, n1, n2⟩ := Res.bind_eq_ok.1 (show Osnma.feedInav S { o with subframe := sf } w' v' g' b' = .ok o2 from h')
          simp only [Res.pure_eq, Res.ok.injEq] at n2
          subst n2
          refine ⟨{ o with data := { o.data with data := { o.data.data with navmessage := nav } } }, ?_, ?_⟩
          · show Osnma.feedInav S _ w' v' g' b' = _
            unfold Osnma.feedInav
            dsimp only at n1
            rw [n1]
            rfl
          · exact (feedOsnma_eq_ok hz).2 ⟨sf, none, f1, .inl ⟨rfl, rfl⟩⟩
        · cases e
    | osnma d' v' g' =>
      obtain ⟨hv, hg, hl⟩ := hi
      by_cases hz : d.val.all (fun x => x == 0#8) = true
      · rw [zero d v g hz] at h
        cases h
        exact ⟨o2, h', zero d v g hz o2⟩
      by_cases hz' : d'.val.all (fun x => x == 0#8) = true
      · rw [zero d' v' g' hz'] at h'
        cases h'
        exact ⟨o, zero d' v' g' hz' o, h⟩
      obtain ⟨sf, out, f1, f2⟩ := (feedOsnma_eq_ok hz).1 (show o.feedOsnma S d v g = .ok o1 from h)
      obtain ⟨sf', out', f1', f2'⟩ := (feedOsnma_eq_ok hz').1 (show o1.feedOsnma S d' v' g' = .ok o2 from h')
      have hsub : o1.subframe = sf := by
        rcases f2 with ⟨_, rfl⟩ | ⟨_, _, _, _, _, _, rfl⟩ <;> rfl
      rw [hsub] at f1'
      obtain ⟨s1', k1, k2⟩ := CollectSubframe.feed_comm hv hg f1 f1'
      by_cases hg1 : g.LastPage
      · obtain rfl := CollectSubframe.feed_notLast (fun h2 => hl ⟨hg1, h2⟩) f1'
        rcases f2' with ⟨_, rfl⟩ | ⟨_, _, _, _, e, _⟩
        · refine ⟨{ o with subframe := s1' }, (feedOsnma_eq_ok hz').2 ⟨s1', none, k1, .inl ⟨rfl, rfl⟩⟩, ?_⟩
          refine (feedOsnma_eq_ok hz).2 ⟨sf', out, k2, ?_⟩
          rcases f2 with ⟨rfl, rfl⟩ | ⟨hk, m, gg, data, rfl, p1, rfl⟩
          · exact .inl ⟨rfl, rfl⟩
          · exact .inr ⟨hk, m, gg, data, rfl, p1, rfl⟩
        · cases e
      · obtain rfl := CollectSubframe.feed_notLast hg1 f1
        rcases f2 with ⟨_, rfl⟩ | ⟨_, _, _, _, e, _⟩
        · rcases f2' with ⟨rfl, rfl⟩ | ⟨hk, m, gg, data, rfl, p1, rfl⟩
          · exact ⟨{ o with subframe := s1' }, (feedOsnma_eq_ok hz').2 ⟨s1', none, k1, .inl ⟨rfl, rfl⟩⟩,
              (feedOsnma_eq_ok hz).2 ⟨sf', none, k2, .inl ⟨rfl, rfl⟩⟩⟩
          · exact ⟨⟨s1', data⟩, (feedOsnma_eq_ok hz').2 ⟨s1', _, k1, .inr ⟨hk, m, gg, data, rfl, p1, rfl⟩⟩,
              (feedOsnma_eq_ok hz).2 ⟨sf', none, k2, .inl ⟨rfl, rfl⟩⟩⟩
        · cases e

end Verif
