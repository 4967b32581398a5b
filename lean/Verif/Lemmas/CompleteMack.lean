import Verif.Lemmas.Authentic
import Verif.Spec.Complete

/-! # Lemmas: a MACK that was received whole is found in the store -/

namespace Verif
open CollectNavMessage

variable {C : Crypto} {S : Storage}

/-! ## Lists -/

/-- Sum over a list without repetitions is at most the sum over a list that contains it. -/
theorem sum_map_le_of_subset {α : Type} [DecidableEq α] (f : α → Nat) {l m : List α} (hn : l.Nodup) (hs : ∀ x ∈ l, x ∈ m) :
    (l.map f).sum ≤ (m.map f).sum := by
  induction l generalizing m with
  | nil => simp
  | cons a l ih =>
    have ha : a ∈ m := hs a (by simp)
    have hp := (List.perm_cons_erase ha).map f
    have := ih (m := m.erase a) (List.nodup_cons.1 hn).2 (fun x hx => by
      refine (List.mem_erase_of_ne ?_).2 (hs x (by simp [hx]))
      rintro rfl
      exact (List.nodup_cons.1 hn).1 hx)
    rw [hp.sum_nat]
    simp only [List.map_cons, List.sum_cons]
    omega

theorem length_le_of_nodup {α : Type} [DecidableEq α] {l m : List α} (hn : l.Nodup) (hs : ∀ x ∈ l, x ∈ m) :
    l.length ≤ m.length := by
  have key : ∀ l : List α, (l.map (fun _ => 1)).sum = l.length := by
    intro l
    induction l with
    | nil => rfl
    | cons a l ih => rw [List.map_cons, List.sum_cons, ih, List.length_cons]; omega
  have := sum_map_le_of_subset (fun _ => 1) hn hs
  rwa [key, key] at this

theorem nodup_of_count_le {α : Type} [DecidableEq α] {l : List α} (h : ∀ a, l.count a ≤ 1) : l.Nodup :=
  List.nodup_iff_count.2 (fun a => h a)

/-- In a strictly decreasing list of subframes, the distance to the first one bounds the position. -/
theorem decreasing_index {L : List Gst} (hd : L.Pairwise (fun a b => b.abs < a.abs)) (hal : ∀ g ∈ L, g.Aligned) {top : Int}
    (htop : ∀ g ∈ L, g.abs ≤ top) {i : Nat} {g : Gst} (hi : L[i]? = some g) : g.abs + 30 * i ≤ top := by
  induction i generalizing L g with
  | zero => have := htop g (List.mem_of_getElem? hi); omega
  | succ i ih =>
    cases L with
    | nil => simp at hi
    | cons a L =>
      have hlt := List.pairwise_cons.1 hd
      obtain ⟨b, hb⟩ : ∃ b, (a :: L)[i]? = some b := by
        have := (List.getElem?_eq_some_iff.1 hi).1
        exact ⟨_, List.getElem?_eq_getElem (by omega)⟩
      have h1 := ih hd hal htop hb
      have h2 : g.abs < b.abs := by
        have := List.pairwise_iff_getElem.1 hd i (i+1) (List.getElem?_eq_some_iff.1 hb).1 (List.getElem?_eq_some_iff.1 hi).1 (by omega)
        rwa [(List.getElem?_eq_some_iff.1 hb).2, (List.getElem?_eq_some_iff.1 hi).2] at this
      have a1 := hal g (List.mem_of_getElem? hi)
      have a2 := hal b (List.mem_of_getElem? hb)
      unfold Gst.Aligned at a1 a2
      push_cast
      omega

theorem eraseDups_decreasing {l : List Gst} (h : l.Pairwise (fun a b => b.abs ≤ a.abs)) :
    l.eraseDups.Pairwise (fun a b => b.abs < a.abs) := by
  generalize hn : l.length = n
  induction n using Nat.strongRecOn generalizing l with
  | ind n ih =>
    cases l with
    | nil => simp
    | cons a l =>
      rw [List.eraseDups_cons, List.pairwise_cons]
      obtain ⟨h1, h2⟩ := List.pairwise_cons.1 h
      constructor
      · intro b hb
        rw [List.mem_eraseDups, List.mem_filter] at hb
        have := h1 b hb.1
        have hne : b ≠ a := by simpa using hb.2
        have : b.abs ≠ a.abs := fun h => hne (Gst.abs_inj h)
        omega
      · have hl := List.length_filter_le (fun b => !b == a) l
        exact ih _ (by simp at hn; omega) (h2.sublist List.filter_sublist) rfl

/-! ## What the collector outputs -/

theorem feedPages_append {s s' : CollectSubframe} {ps qs : List Page} {outs : List SubframeOut}
    (h : feedPages s (ps ++ qs) = .ok (s', outs)) :
    ∃ s1 o1 o2, feedPages s ps = .ok (s1, o1) ∧ feedPages s1 qs = .ok (s', o2) ∧ outs = o1 ++ o2 := by
  induction ps generalizing s outs with
  | nil => exact ⟨s, [], outs, rfl, h, rfl⟩
  | cons p ps ih =>
    simp only [List.cons_append, feedPages] at h
    cases hp : s.feed p.data p.svn p.gst with
    | panic w => rw [hp] at h; cases h
    | ok x =>
      obtain ⟨s2, o⟩ := x
      rw [hp] at h
      dsimp only at h
      cases hr : feedPages s2 (ps ++ qs) with
      | panic w => rw [hr] at h; cases h
      | ok y =>
        obtain ⟨s3, os⟩ := y
        rw [hr] at h
        simp only [Res.ok.injEq, Prod.mk.injEq] at h
        obtain ⟨rfl, rfl⟩ := h
        obtain ⟨s1, o1, o2, e1, e2, e3⟩ := ih hr
        refine ⟨s1, o :: o1, o2, ?_, e2, by rw [e3]; rfl⟩
        simp only [feedPages, hp, e1]

/-- Every emitted message has the subframe of its page. -/
theorem emitted_sub {ps : List Page} {s0 s : CollectSubframe} {outs : List SubframeOut} {pre : List Page} {o0 : List SubframeOut}
    (hpre : feedPages .new pre = .ok (s0, o0)) (h : feedPages s0 ps = .ok (s, outs)) {c : MackCall} (hc : c ∈ emitted ps outs) :
    ∃ p ∈ ps, c.svn = p.svn ∧ c.gst = p.sub := by
  induction ps generalizing s0 outs pre o0 with
  | nil => simp [emitted] at hc
  | cons p ps ih =>
    simp only [feedPages] at h
    cases hp : s0.feed p.data p.svn p.gst with
    | panic w => rw [hp] at h; cases h
    | ok x =>
      obtain ⟨s2, o⟩ := x
      rw [hp] at h
      dsimp only at h
      cases hr : feedPages s2 ps with
      | panic w => rw [hr] at h; cases h
      | ok y =>
        obtain ⟨s3, os⟩ := y
        rw [hr] at h
        simp only [Res.ok.injEq, Prod.mk.injEq] at h
        obtain ⟨rfl, rfl⟩ := h
        have hem : emitted (p :: ps) (o :: os) = emitted [p] [o] ++ emitted ps os := emitted_append (ps := [p]) (outs := [o]) rfl
        rw [hem, List.mem_append] at hc
        rcases hc with hc | hc
        · cases o with
          | none => simp [emitted] at hc
          | some y =>
            obtain ⟨hk, m, g⟩ := y
            simp only [emitted, List.zip_cons_cons, List.zip_nil_right, List.filterMap_cons, Option.map_some, List.filterMap_nil,
              List.mem_singleton] at hc
            subst hc
            have := (C04_collected_subframe pre p s0 s2 o0 hk m g hpre hp).1
            exact ⟨p, by simp, rfl, this⟩
        · obtain ⟨q, hq, h'⟩ := ih (feedPages_snoc hpre hp) hr hc
          exact ⟨q, by simp [hq], h'⟩

/-- Messages are emitted in the order of the pages. -/
theorem emitted_chron {ps : List Page} {s0 s : CollectSubframe} {outs : List SubframeOut} {pre : List Page} {o0 : List SubframeOut}
    (hpre : feedPages .new pre = .ok (s0, o0)) (h : feedPages s0 ps = .ok (s, outs))
    (hchr : ps.Pairwise (fun p q => p.sub.abs ≤ q.sub.abs)) : (emitted ps outs).Pairwise (fun a b => a.gst.abs ≤ b.gst.abs) := by
  induction ps generalizing s0 outs pre o0 with
  | nil => simp [emitted]
  | cons p ps ih =>
    obtain ⟨s1, a1, a2, f1, f2, rfl⟩ := feedPages_append (ps := [p]) (qs := ps) h
    have hl := feedPages_length f1
    have hpre' : ∃ o', feedPages .new (pre ++ [p]) = .ok (s1, o') := by
      simp only [feedPages] at f1
      cases hp : s0.feed p.data p.svn p.gst with
      | panic w => rw [hp] at f1; cases f1
      | ok x =>
        obtain ⟨s2, o⟩ := x
        rw [hp] at f1
        simp only [Res.ok.injEq, Prod.mk.injEq] at f1
        obtain ⟨rfl, _⟩ := f1
        exact ⟨_, feedPages_snoc hpre hp⟩
    obtain ⟨o', hpre'⟩ := hpre'
    have hem : emitted (p :: ps) (a1 ++ a2) = emitted [p] a1 ++ emitted ps a2 := emitted_append (ps := [p]) hl
    rw [hem, List.pairwise_append]
    obtain ⟨c1, c2⟩ := List.pairwise_cons.1 hchr
    refine ⟨?_, ih hpre' f2 c2, ?_⟩
    · have : (emitted [p] a1).length ≤ 1 := by
        unfold emitted
        refine Nat.le_trans (List.length_filterMap_le _ _) ?_
        rw [List.length_zip]; simp; omega
      match hE : emitted [p] a1, this with
      | [], _ => exact List.Pairwise.nil
      | [_], _ => simp
    · intro x hx y hy
      obtain ⟨p1, hp1, _, e1⟩ := emitted_sub hpre f1 hx
      obtain ⟨p2, hp2, _, e2⟩ := emitted_sub hpre' f2 hy
      rw [List.mem_singleton] at hp1
      subst hp1
      rw [e1, e2]
      exact c1 p2 hp2

theorem emitted_count (ps : List Page) (outs : List SubframeOut) (svn : Svn) :
    ((emitted ps outs).map (·.svn)).count svn = ((outsOf svn ps outs).filter Option.isSome).length := by
  unfold emitted outsOf
  induction ps generalizing outs with
  | nil => simp
  | cons p ps ih =>
    cases outs with
    | nil => simp
    | cons x o =>
      simp only [List.zip_cons_cons, List.filterMap_cons]
      cases x with
      | none =>
        simp only [Option.map_none]
        rw [ih]
        by_cases hsv : p.svn = svn
        · rw [List.filter_cons_of_pos (by simpa using hsv)]; simp
        · rw [List.filter_cons_of_neg (by simpa using hsv)]
      | some y =>
        simp only [Option.map_some, List.map_cons]
        by_cases hsv : p.svn = svn
        · rw [List.filter_cons_of_pos (by simpa using hsv)]
          simp only [List.map_cons]
          rw [hsv, List.count_cons_self, ih, List.filter_cons_of_pos (by rfl), List.length_cons]
        · rw [List.filter_cons_of_neg (by simpa using hsv), List.count_cons_of_ne hsv, ih]

/-- Chronological pages split into those before, in and after a subframe. -/
theorem split_pages (g : Gst) {ps : List Page} (h : ps.Pairwise (fun p q => p.sub.abs ≤ q.sub.abs)) :
    ∃ a b c, ps = a ++ b ++ c ∧ (∀ p ∈ a, p.sub.abs < g.abs) ∧ (∀ p ∈ b, p.sub = g) ∧ (∀ p ∈ c, g.abs < p.sub.abs) := by
  induction ps with
  | nil => exact ⟨[], [], [], rfl, by simp, by simp, by simp⟩
  | cons p ps ih =>
    obtain ⟨h1, h2⟩ := List.pairwise_cons.1 h
    obtain ⟨a, b, c, rfl, e1, e2, e3⟩ := ih h2
    rcases Int.lt_trichotomy p.sub.abs g.abs with hlt | heq | hgt
    · exact ⟨p :: a, b, c, by simp, by simpa using ⟨hlt, e1⟩, e2, e3⟩
    · have ha : a = [] := by
        cases a with
        | nil => rfl
        | cons q a =>
          have := h1 q (by simp)
          have := e1 q (by simp)
          omega
      subst ha
      exact ⟨[], p :: b, c, by simp, by simp, by simpa using ⟨Gst.abs_inj heq, e2⟩, e3⟩
    · have ha : a = [] := by
        cases a with
        | nil => rfl
        | cons q a =>
          have := h1 q (by simp)
          have := e1 q (by simp)
          omega
      have hb : b = [] := by
        cases b with
        | nil => rfl
        | cons q b =>
          have := h1 q (by simp)
          rw [e2 q (by simp)] at this
          omega
      subst ha hb
      exact ⟨[], [], p :: c, by simp, by simp, by simp, by simpa using ⟨hgt, e3⟩⟩

theorem flatMap_take_drop {l : List Byte} (ps : List Page) (f : Page → List Byte)
    (hw : ps.map Page.word = List.range 15) (hl : l.length = 60) (hf : ∀ p ∈ ps, f p = (l.drop (4 * p.word)).take 4) :
    ps.flatMap f = l := by
  have h1 : ps.flatMap f = (ps.map Page.word).flatMap (fun w => (l.drop (4 * w)).take 4) := by
    rw [List.flatMap_map]
    unfold List.flatMap
    rw [List.map_congr_left hf]
  rw [h1, hw]
  have gen : ∀ n, 4 * n ≤ 60 → (List.range n).flatMap (fun w => (l.drop (4 * w)).take 4) = l.take (4 * n) := by
    intro n
    induction n with
    | zero => simp
    | succ n ih =>
      intro hn
      rw [List.range_succ, List.flatMap_append, ih (by omega)]
      simp only [List.flatMap_cons, List.flatMap_nil, List.append_nil]
      rw [show 4 * (n + 1) = 4 * n + 4 by omega, List.take_add]
  rw [gen 15 (by omega), List.take_of_length_le (by omega)]

theorem nmasCode_inj {a b : NmaStatus} (h : nmasCode a = nmasCode b) : a = b := by
  cases a <;> cases b <;> simp_all [nmasCode]

/-- A message received for a satellite and subframe whose MACK was received whole is that MACK. -/
theorem ReceivedMack.whole {hist : List Call} {prna : Svn} {g : Gst} {st st' : NmaStatus} {msg msg' : MackMessage}
    (hw : WholeMack hist prna g st msg) (hr : ReceivedMack hist prna g st' msg') : msg' = msg ∧ st' = st := by
  obtain ⟨ps, h1, h2, h3, h4, h5⟩ := hr
  have hin : ∀ q ∈ ps, q ∈ pagesIn hist prna g := by
    intro q hq
    unfold pagesIn
    rw [List.mem_filter]
    refine ⟨h1.subset hq, ?_⟩
    simp [(h3 q hq).1, (h3 q hq).2]
  refine ⟨?_, ?_⟩
  · apply Subtype.ext
    rw [h4]
    exact flatMap_take_drop ps _ h2 msg.2 (fun p hp => hw.mack p (hin p hp))
  · apply nmasCode_inj
    rw [← h5]
    cases ps with
    | nil => simp at h2
    | cons p ps =>
      have hp0 : p.word = 0 := by
        rw [List.map_cons, List.range_eq_range', List.range'_succ] at h2
        exact (List.cons.inj h2).1
      rw [← hw.status p (hin p (by simp)) hp0]
      have hlen : p.hkroot.length = 1 := by unfold Page.hkroot; simp [p.data.2]
      unfold bitField
      rw [List.flatMap_cons, bitsOf_append, List.drop_zero, List.drop_zero,
        List.take_append_of_le_length (by rw [bitsOf_length, hlen]; omega)]

/-- A MACK that was received whole, and is recent enough, is found in the store. -/
theorem whole_get_inv (hS : S.Consistent) {hist : List Call} {o : Osnma C} (hinv : PagesInv S hist o)
    (hchr : (pagesOf hist).Pairwise (fun p q => p.sub.abs ≤ q.sub.abs))
    (hroom : ∀ g : Gst, ∃ sats : List Svn, sats.length ≤ S.numSats ∧ ∀ p ∈ pagesOf hist, p.sub = g → p.svn ∈ sats)
    {top : Int} (htop : ∀ p ∈ pagesOf hist, p.sub.abs ≤ top)
    {prna : Svn} {g : Gst} {st : NmaStatus} {msg : MackMessage} (hw : WholeMack hist prna g st msg)
    (hdepth : top - g.abs < 30 * S.mackDepth) : o.data.data.mack.get S prna g = .ok (some (msg, st)) := by
  obtain ⟨outs, hf, hst, hrecv⟩ := hinv
  obtain ⟨a, b, c, hps, ea, eb, ec⟩ := split_pages g hchr
  rw [hps] at hf
  obtain ⟨s2, o12, o3, f12, f3, rfl⟩ := feedPages_append hf
  obtain ⟨s1, o1, o2, f1, f2, rfl⟩ := feedPages_append f12
  have hem : emitted (pagesOf hist) (o1 ++ o2 ++ o3) = emitted a o1 ++ emitted b o2 ++ emitted c o3 := by
    rw [hps, emitted_append (by rw [← feedPages_length f12]), emitted_append (feedPages_length f1)]
  have ga := fun x hx => emitted_sub (ps := a) (pre := []) (o0 := []) rfl f1 (c := x) hx
  have gb := fun x hx => emitted_sub f1 f2 (c := x) hx
  have gc := fun x hx => emitted_sub f12 f3 (c := x) hx
  -- messages of the subframe
  have hfil : (emitted (pagesOf hist) (o1 ++ o2 ++ o3)).filter (fun c => c.gst == g) = emitted b o2 := by
    rw [hem, List.filter_append, List.filter_append]
    have r1 : (emitted a o1).filter (fun c => c.gst == g) = [] := by
      rw [List.filter_eq_nil_iff]
      intro x hx hxg
      obtain ⟨p, hp, _, h2⟩ := ga x hx
      have := ea p hp
      rw [← h2, beq_iff_eq.1 hxg] at this
      omega
    have r2 : (emitted b o2).filter (fun c => c.gst == g) = emitted b o2 := by
      rw [List.filter_eq_self]
      intro x hx
      obtain ⟨p, hp, _, h2⟩ := gb x hx
      rw [h2, eb p hp]; simp
    have r3 : (emitted c o3).filter (fun c => c.gst == g) = [] := by
      rw [List.filter_eq_nil_iff]
      intro x hx hxg
      obtain ⟨p, hp, _, h2⟩ := gc x hx
      have := ec p hp
      rw [← h2, beq_iff_eq.1 hxg] at this
      omega
    rw [r1, r2, r3]; simp
  have hlast : ∀ p, a.getLast? = some p → p.sub ≠ g := by
    intro p hp he
    have := ea p (List.mem_of_getLast? hp)
    rw [he] at this; omega
  have hcount : ∀ v, ((emitted b o2).map (·.svn)).count v
      = if (List.range 15).Sublist ((b.filter (fun p => p.svn == v)).map Page.word) then 1 else 0 := by
    intro v
    rw [emitted_count]
    exact C05_collected_once a b g v eb hlast s1 s2 o1 o2 f1 f2
  have hone : ∀ v, ((emitted b o2).map (·.svn)).count v ≤ 1 := by
    intro v; rw [hcount]; split <;> omega
  have hpin : pagesIn hist prna g = b.filter (fun p => p.svn == prna) := by
    unfold pagesIn
    rw [hps, List.filter_append, List.filter_append]
    have r1 : a.filter (fun p => p.svn == prna && p.sub == g) = [] := by
      rw [List.filter_eq_nil_iff]
      intro p hp hc
      have := ea p hp
      simp only [Bool.and_eq_true, beq_iff_eq] at hc
      rw [hc.2] at this; omega
    have r2 : c.filter (fun p => p.svn == prna && p.sub == g) = [] := by
      rw [List.filter_eq_nil_iff]
      intro p hp hc
      have := ec p hp
      simp only [Bool.and_eq_true, beq_iff_eq] at hc
      rw [hc.2] at this; omega
    rw [r1, r2, List.nil_append, List.append_nil]
    apply List.filter_congr
    intro p hp
    rw [eb p hp]; simp
  have hmem : prna ∈ (emitted b o2).map (·.svn) := by
    have := hcount prna
    rw [← hpin, if_pos hw.words] at this
    exact List.count_pos_iff.1 (by omega)
  obtain ⟨x, hx, hxs⟩ := List.mem_map.1 hmem
  have hxg : x.gst = g := by
    obtain ⟨p, hp, _, h2⟩ := gb x hx
    rw [h2, eb p hp]
  have hlen : (emitted b o2).length ≤ S.numSats := by
    obtain ⟨sats, l1, l2⟩ := hroom g
    have := length_le_of_nodup (m := sats) (nodup_of_count_le hone) (by
      intro v hv
      obtain ⟨y, hy, rfl⟩ := List.mem_map.1 hv
      obtain ⟨p, hp, h1, _⟩ := gb y hy
      rw [h1]
      exact l2 p (by rw [hps]; simp [hp]) (eb p hp))
    rw [List.length_map] at this
    omega
  have hsubs : ∀ y ∈ emitted (pagesOf hist) (o1 ++ o2 ++ o3), ∃ p ∈ pagesOf hist, y.gst = p.sub := by
    intro y hy
    rw [hem, List.mem_append, List.mem_append] at hy
    rcases hy with (hy | hy) | hy
    · obtain ⟨p, hp, _, h2⟩ := ga y hy; exact ⟨p, by rw [hps]; simp [hp], h2⟩
    · obtain ⟨p, hp, _, h2⟩ := gb y hy; exact ⟨p, by rw [hps]; simp [hp], h2⟩
    · obtain ⟨p, hp, _, h2⟩ := gc y hy; exact ⟨p, by rw [hps]; simp [hp], h2⟩
  have hchr' : (emitted (pagesOf hist) (o1 ++ o2 ++ o3)).Pairwise (fun a b => a.gst.abs ≤ b.gst.abs) := by
    rw [← hps] at hf
    exact emitted_chron (pre := []) (o0 := []) rfl hf hchr
  obtain ⟨m, hm1, hm2⟩ := C09_get_chronological hS _ hchr' prna g
  rw [hst] at hm1
  cases hm1
  rw [hm2]
  unfold expectedMack
  have hxm : x ∈ emitted (pagesOf hist) (o1 ++ o2 ++ o3) := by rw [hem]; simp [hx]
  rw [hfil, List.take_of_length_le hlen, if_pos]
  · obtain ⟨y, hy⟩ : ∃ y, (emitted b o2).find? (fun c => c.svn == prna) = some y := by
      rw [← Option.isSome_iff_exists, List.find?_isSome]
      exact ⟨x, hx, by simpa using hxs⟩
    rw [hy]
    have hym := List.mem_of_find?_eq_some hy
    have hys : y.svn = prna := by simpa using List.find?_some hy
    have hyg : y.gst = g := by
      obtain ⟨p, hp, _, h2⟩ := gb y hym
      rw [h2, eb p hp]
    have hr := hrecv y (by rw [hem]; simp [hym])
    rw [hys, hyg] at hr
    obtain ⟨e1, e2⟩ := hr.whole hw
    simp [e1, e2]
  · have hgm : g ∈ recentGsts (emitted (pagesOf hist) (o1 ++ o2 ++ o3)) := by
      unfold recentGsts
      rw [List.mem_eraseDups, List.mem_reverse, List.mem_map]
      exact ⟨x, hxm, hxg⟩
    obtain ⟨i, hi, he⟩ := List.mem_iff_getElem.1 hgm
    have hdec : (recentGsts (emitted (pagesOf hist) (o1 ++ o2 ++ o3))).Pairwise (fun a b => b.abs < a.abs) := by
      unfold recentGsts
      apply eraseDups_decreasing
      rw [List.pairwise_reverse, List.pairwise_map]
      exact hchr'
    have hsub : ∀ g' ∈ recentGsts (emitted (pagesOf hist) (o1 ++ o2 ++ o3)), ∃ p ∈ pagesOf hist, g' = p.sub := by
      intro g' hg'
      unfold recentGsts at hg'
      rw [List.mem_eraseDups, List.mem_reverse, List.mem_map] at hg'
      obtain ⟨y, hy, rfl⟩ := hg'
      exact hsubs y hy
    have hidx := decreasing_index hdec (fun g' hg' => by
        obtain ⟨p, _, rfl⟩ := hsub g' hg'
        exact Gst.subframe_aligned p.gst)
      (top := top) (fun g' hg' => by
        obtain ⟨p, hp, rfl⟩ := hsub g' hg'
        exact htop p hp)
      (i := i) (g := g) (by rw [List.getElem?_eq_getElem hi, he])
    rw [List.mem_iff_getElem]
    refine ⟨i, ?_, by rw [List.getElem_take, he]⟩
    rw [List.length_take]
    omega

/-- The same for a history without panics. -/
theorem whole_get (hS : S.Consistent) {o0 : Osnma C} (h0 : o0.Fresh S) {hist : List Call} {o : Osnma C} (h : run S o0 hist = .ok o)
    (hchr : (pagesOf hist).Pairwise (fun p q => p.sub.abs ≤ q.sub.abs))
    (hroom : ∀ g : Gst, ∃ sats : List Svn, sats.length ≤ S.numSats ∧ ∀ p ∈ pagesOf hist, p.sub = g → p.svn ∈ sats)
    {top : Int} (htop : ∀ p ∈ pagesOf hist, p.sub.abs ≤ top)
    {prna : Svn} {g : Gst} {st : NmaStatus} {msg : MackMessage} (hw : WholeMack hist prna g st msg)
    (hdepth : top - g.abs < 30 * S.mackDepth) : o.data.data.mack.get S prna g = .ok (some (msg, st)) :=
  whole_get_inv hS (received_run hS h0 h) hchr hroom htop hw hdepth

end Verif
