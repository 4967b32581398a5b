import Verif.Spec.NavMachine
import Verif.Lemmas.NavGet

/-! # Lemmas: the subframes of the reference machine and those of the store -/

namespace Verif
open CollectSubframe (snoc_induction)

variable {S : Storage} {C : Crypto}

/-! ## Ages -/

theorem laterSubframes_snoc_same {p : List InavCall} {c : InavCall} (g : Gst) (h : ∃ d ∈ p, d.gst.subframe = c.gst.subframe) :
    laterSubframes (p ++ [c]) g = laterSubframes p g := by
  obtain ⟨d, hd, he⟩ := h
  unfold laterSubframes
  rw [List.map_append, List.filter_append, List.eraseDups_append]
  by_cases hl : g.abs < c.gst.subframe.abs
  · have hm : c.gst.subframe ∈ (p.map (fun c => c.gst.subframe)).filter (fun h => decide (g.abs < h.abs)) := by
      rw [List.mem_filter]
      exact ⟨List.mem_map.2 ⟨d, hd, he⟩, by simpa using hl⟩
    have hf : List.filter (fun h => decide (g.abs < h.abs)) (List.map (fun c => c.gst.subframe) [c]) = [c.gst.subframe] := by simp [hl]
    rw [hf]
    have : [c.gst.subframe].removeAll ((p.map (fun c => c.gst.subframe)).filter (fun h => decide (g.abs < h.abs))) = [] := by
      unfold List.removeAll
      rw [List.filter_cons_of_neg (by rw [List.elem_eq_contains, List.contains_eq_mem]; simp only [hm, decide_true]; decide)]; rfl
    rw [this]; simp
  · simp [hl, List.removeAll]

theorem laterSubframes_snoc_new {p : List InavCall} {c : InavCall} {g : Gst} (h : ∀ d ∈ p, d.gst.subframe ≠ c.gst.subframe)
    (hl : g.abs < c.gst.subframe.abs) : laterSubframes (p ++ [c]) g = laterSubframes p g + 1 := by
  unfold laterSubframes
  rw [List.map_append, List.filter_append, List.eraseDups_append]
  have hm : c.gst.subframe ∉ (p.map (fun c => c.gst.subframe)).filter (fun h => decide (g.abs < h.abs)) := by
    rw [List.mem_filter]
    rintro ⟨h1, _⟩
    obtain ⟨d, hd, he⟩ := List.mem_map.1 h1
    exact h d hd he
  rw [List.length_append]
  congr 1
  have hf : List.filter (fun h => decide (g.abs < h.abs)) (List.map (fun c => c.gst.subframe) [c]) = [c.gst.subframe] := by simp [hl]
  rw [hf]
  have : [c.gst.subframe].removeAll ((p.map (fun c => c.gst.subframe)).filter (fun h => decide (g.abs < h.abs))) = [c.gst.subframe] := by
    unfold List.removeAll
    rw [List.filter_cons_of_pos (by rw [List.elem_eq_contains, List.contains_eq_mem]; simp only [hm, decide_false]; decide)]; rfl
  rw [this]; rfl

theorem laterSubframes_zero {p : List InavCall} {g : Gst} (h : ∀ d ∈ p, d.gst.subframe.abs ≤ g.abs) : laterSubframes p g = 0 := by
  unfold laterSubframes
  have : (p.map (fun c => c.gst.subframe)).filter (fun h => decide (g.abs < h.abs)) = [] := by
    rw [List.filter_eq_nil_iff]
    intro x hx
    obtain ⟨d, hd, rfl⟩ := List.mem_map.1 hx
    have := h d hd
    simp only [decide_eq_true_eq]; omega
  rw [this]; rfl

theorem NavKind.latest_mem {kd : NavKind} {p : List InavCall} {v : Svn} {f : NavField} {d : InavCall} (h : kd.latest p v f = some d) : d ∈ p := by
  unfold NavKind.latest at h
  exact (List.mem_filter.1 (List.mem_of_getLast? h)).1

theorem Chronological.le_last {p : List InavCall} {c : InavCall} (h : Chronological (p ++ [c])) :
    ∀ d ∈ p ++ [c], d.gst.subframe.abs ≤ c.gst.subframe.abs := by
  induction p using snoc_induction generalizing c with
  | h0 => intro d hd; simp at hd; subst hd; omega
  | h1 p a ih =>
    intro d hd
    rcases List.mem_append.1 hd with hd | hd
    · have := ih h.init d hd
      have := h.last
      omega
    · simp at hd; subst hd; omega

/-- Ages after a word. -/
theorem NavKind.fieldAge_snoc {p : List InavCall} {c : InavCall} (h : Chronological (p ++ [c])) (kd : NavKind) (v : Svn) (f : NavField) :
    ((∃ d ∈ p, d.gst.subframe = c.gst.subframe) →
      kd.fieldAge (p ++ [c]) v f = if c.svn = v ∧ kd.carries c f = true then 0 else kd.fieldAge p v f) ∧
    ((∀ d ∈ p, d.gst.subframe ≠ c.gst.subframe) →
      kd.fieldAge (p ++ [c]) v f = if c.svn = v ∧ kd.carries c f = true then 0 else min 255 (kd.fieldAge p v f + 1)) := by
  have hz : laterSubframes (p ++ [c]) c.gst.subframe = 0 := laterSubframes_zero h.le_last
  unfold fieldAge
  rw [latest_snoc]
  by_cases hc : c.svn = v ∧ kd.carries c f = true
  · rw [if_pos hc]; dsimp only; rw [hz, if_pos hc, if_pos hc]; exact ⟨fun _ => rfl, fun _ => rfl⟩
  · rw [if_neg hc, if_neg hc, if_neg hc]
    cases hl : kd.latest p v f with
    | none => exact ⟨fun _ => rfl, fun _ => rfl⟩
    | some d =>
      dsimp only
      refine ⟨fun hs => by rw [laterSubframes_snoc_same _ hs], fun hn => ?_⟩
      have hm := latest_mem hl
      have h1 := h.le_last d (by simp [hm])
      have h2 : d.gst.subframe.abs ≠ c.gst.subframe.abs := fun he => hn d hm (Gst.abs_inj he)
      rw [laterSubframes_snoc_new hn (by omega)]
      omega

theorem NavKind.ages_own {kd : NavKind} {c : InavCall} {A : NavField → Nat} :
    kd.fields.map (fun f => if kd.carries c f = true then 0 else A f)
      = match kd.upd c with
        | some u => (kd.fields.map A).set u.idx 0
        | none => kd.fields.map A := by
  cases hu : kd.upd c with
  | none =>
    apply List.map_congr_left
    intro f hf
    rw [kd.upd_none hu f hf]; simp
  | some u =>
    obtain ⟨f', h1, h2, _, _, _, h6⟩ := kd.upd_some hu
    apply List.ext_getElem?
    intro i
    rw [List.getElem?_set, List.getElem?_map, List.getElem?_map]
    have hl : u.idx < kd.fields.length := (List.getElem?_eq_some_iff.1 h1).1
    by_cases hi : u.idx = i
    · subst hi
      rw [h1, if_pos rfl, if_pos (by simpa using hl)]
      simp [h2]
    · rw [if_neg hi]
      cases hf : kd.fields[i]? with
      | none => rfl
      | some f =>
        have : kd.carries c f = false := by
          rw [← Bool.not_eq_true]; intro hc; exact hi (h6 i f hf hc).symm
        simp [this]

theorem NavItem.feedUpd_age (u : Option Upd) (v : Svn) (x : NavItem) :
    (x.feedUpd u v).age = match u with
      | some u => (x.assign v).age.set u.idx 0
      | none => (x.assign v).age := by
  unfold NavItem.feedUpd
  split
  · rw [NavItem.copyWord_age]
  · rfl

/-! ## Entries -/

/-- The entries of one kind of a subframe of the store are those of the machine. -/
structure EntriesOf (n : Nat) (kd : NavKind) (p : List InavCall) (A : Svn → NavField → Nat) (a : Svn → Nat) (g : Gst) (l : List NavItem) :
    Prop where
  good : NavSlot.Good n kd l
  full : FullSlot kd p g l False False
  age : ∀ x ∈ l, ∀ v, x.svn = some v → x.age = kd.fields.map (A v)
  auth : ∀ x ∈ l, ∀ v, x.svn = some v → x.authbits = a v
  unassigned : ∀ x ∈ l, x.svn = none → x.authbits = 0
  unseen : ∀ v, (∀ c ∈ p, c.svn ≠ v) → a v = 0

theorem NavItem.feedUpd_auth_eq {kd : NavKind} {x : NavItem} (hw : x.Wf kd) {c : InavCall} (hs : x.svn = some c.svn) :
    (x.feedUpd (kd.upd c) c.svn).authbits = if (x.feedUpd (kd.upd c) c.svn).data = x.data then x.authbits else 0 := by
  cases hu : kd.upd c with
  | none =>
    have : x.feedUpd none c.svn = x := by unfold NavItem.feedUpd; exact NavItem.assign_same hs
    rw [if_pos (by rw [this]), this]
  | some u =>
    have he : x.feedUpd (some u) c.svn = x.copyWord u.lo u.hi u.src u.idx := by
      unfold NavItem.feedUpd; dsimp only; rw [NavItem.assign_same hs]
    have hfit := kd.fits hu
    by_cases hsrc : (x.data.drop u.lo).take (u.hi - u.lo) = u.src
    · have : x.copyWord u.lo u.hi u.src u.idx = { x with age := x.age.set u.idx 0 } := by
        unfold NavItem.copyWord; dsimp only; rw [if_neg (by simpa using hsrc)]
      rw [if_pos (by rw [he, this]), he, this]
    · have h0 : (x.copyWord u.lo u.hi u.src u.idx).authbits = 0 := by
        unfold NavItem.copyWord; dsimp only; rw [if_pos hsrc]
      rw [if_neg, he, h0]
      intro hd
      rw [he, NavItem.copyWord_data _ _ _ _ _ hfit.le] at hd
      apply hsrc
      rw [← hd]
      have := hfit.hi; have := hfit.len; have := hw.data; have := hfit.le
      rw [List.append_assoc, List.drop_append, List.drop_eq_nil_of_le (by simp; omega), List.nil_append,
        show u.lo - (List.take u.lo x.data).length = 0 by simp only [List.length_take]; omega, List.drop_zero,
        List.take_append_of_le_length (by omega), List.take_of_length_le (by omega)]

theorem NavKind.latest_none {kd : NavKind} {p : List InavCall} {v : Svn} (h : ∀ c ∈ p, c.svn ≠ v) (f : NavField) : kd.latest p v f = none := by
  unfold NavKind.latest
  rw [List.getLast?_eq_none_iff, List.filter_eq_nil_iff]
  intro c hc; simp [h c hc]

theorem NavKind.latest_other {kd : NavKind} {p : List InavCall} {c : InavCall} {v : Svn} (h : c.svn ≠ v) (f : NavField) :
    kd.latest (p ++ [c]) v f = kd.latest p v f := by
  rw [latest_snoc, if_neg (fun hh => h hh.1)]

theorem NavKind.expected_other {kd : NavKind} {p : List InavCall} {c : InavCall} {v : Svn} (h : c.svn ≠ v) :
    kd.expected (p ++ [c]) v = kd.expected p v := by
  unfold expected fieldAfter
  congr 1
  funext f
  rw [latest_other h]

/-- A word on the entries of a subframe. -/
theorem EntriesOf.feed {n : Nat} (hn : 0 < n) {kd : NavKind} {p : List InavCall} {c : InavCall} {A : Svn → NavField → Nat} {a : Svn → Nat}
    {b : List NavItem} (h : EntriesOf n kd p A a c.gst.subframe b) (hf : ∃ sats : List Svn, sats.length ≤ n ∧ ∀ d ∈ p ++ [c], d.svn ∈ sats)
    (hA : ∀ v, (∀ d ∈ p, d.svn ≠ v) → ∀ f, A v f = 255)
    (hA' : ∀ v f, kd.fieldAge (p ++ [c]) v f = if c.svn = v ∧ kd.carries c f = true then 0 else A v f) :
    EntriesOf n kd (p ++ [c]) (kd.fieldAge (p ++ [c])) (fun v => if kd.expected (p ++ [c]) v = kd.expected p v then a v else 0)
      c.gst.subframe (updSel c.svn (NavItem.feedUpd (kd.upd c) c.svn) b) := by
  obtain ⟨i, x, hx, hu, hcs, hoth, hgood, hfull⟩ := h.full.upd hn h.good hf
  have hxm := List.mem_of_getElem? hx
  have hi : i < b.length := (List.getElem?_eq_some_iff.1 hx).1
  have hxw := h.good.wf x hxm
  -- the entries after the update
  have hcase : ∀ y ∈ updSel c.svn (NavItem.feedUpd (kd.upd c) c.svn) b,
      y = x.feedUpd (kd.upd c) c.svn ∨ (y ∈ b ∧ y.svn ≠ some c.svn) := by
    intro y hy
    rw [hu] at hy
    obtain ⟨j, hj, he⟩ := List.mem_iff_getElem.1 hy
    have hj' : j < b.length := by simpa using hj
    rw [List.getElem_set] at he
    split at he
    · exact .inl he.symm
    · rename_i hij
      exact .inr ⟨by rw [← he]; exact List.getElem_mem hj', hoth j y (by rw [List.getElem?_eq_getElem hj', he]) hij⟩
  refine ⟨hgood, hfull, ?_, ?_, ?_, ?_⟩
  · intro y hy v hv
    rcases hcase y hy with rfl | ⟨hyb, hys⟩
    · rw [NavItem.feedUpd_svn] at hv; cases hv
      have h1 : (x.assign c.svn).age = kd.fields.map (A c.svn) := by
        rcases hcs with hs | ⟨hs, hp⟩
        · rw [NavItem.assign_same hs]; exact h.age x hxm _ hs
        · have : (x.assign c.svn).age = x.age := by unfold NavItem.assign; rw [hs]
          rw [this]
          have h2 := ((h.full.inv x hxm).unassigned hs).2
          have h3 := hxw.age
          apply List.ext_getElem (by simpa using h3)
          intro j h4 h5
          rw [List.getElem_map, hA _ hp]
          exact h2 _ (List.getElem_mem h4)
      rw [NavItem.feedUpd_age, h1]
      have h2 : kd.fields.map (kd.fieldAge (p ++ [c]) c.svn) = kd.fields.map (fun f => if kd.carries c f = true then 0 else A c.svn f) := by
        apply List.map_congr_left
        intro f _
        rw [hA']; simp
      rw [h2, NavKind.ages_own]
    · have hne : c.svn ≠ v := fun he => hys (by rw [hv, he])
      rw [h.age y hyb v hv]
      apply List.map_congr_left
      intro f _
      rw [hA', if_neg (fun hh => hne hh.1)]
  · intro y hy v hv
    rcases hcase y hy with rfl | ⟨hyb, hys⟩
    · rw [NavItem.feedUpd_svn] at hv; cases hv
      have hbits := ((hfull.inv _ hy).bits (hgood.wf _ hy) (NavItem.feedUpd_svn ..)).2
      rcases hcs with hs | ⟨hs, hp⟩
      · rw [NavItem.feedUpd_auth_eq hxw hs, h.auth x hxm _ hs, hbits, ((h.full.inv x hxm).bits hxw hs).2]
        simp only [List.append_cancel_right_eq]
      · rw [h.unseen _ hp]
        have h0 : (x.feedUpd (kd.upd c) c.svn).authbits = 0 := by
          rcases NavItem.feedUpd_auth (kd.upd c) c.svn x with h | ⟨h', _⟩
          · exact h
          · rw [h', h.unassigned x hxm hs]
        rw [h0]; simp
    · have hne : c.svn ≠ v := fun he => hys (by rw [hv, he])
      rw [NavKind.expected_other hne, if_pos rfl]
      exact h.auth y hyb v hv
  · intro y hy hs
    rcases hcase y hy with rfl | ⟨hyb, hys⟩
    · rw [NavItem.feedUpd_svn] at hs; cases hs
    · exact h.unassigned y hyb hs
  · intro v hv
    rw [h.unseen v (fun d hd => hv d (by simp [hd]))]; simp

/-! ## Subframes -/

/-- A subframe of the store is one of the machine. -/
structure FrameOf (S : Storage) (f : NavFrame) (s : NavSlot) : Prop where
  gst : f.gst = s.gst
  last : ∃ q c, f.words = q ++ [c] ∧ c.gst.subframe = f.gst
  chr : Chronological f.words
  entries : ∀ kd, EntriesOf S.numSats kd f.words (kd.fieldAge f.words) (f.auth kd) s.gst (s.items kd)

/-- The subframes of the store are those of the machine. -/
inductive Frames (S : Storage) : List NavFrame → List NavSlot → Prop
  | nil : Frames S [] []
  | cons {f : NavFrame} {s : NavSlot} {fs : List NavFrame} {L : List NavSlot} (h : FrameOf S f s) (t : Frames S fs L) : Frames S (f :: fs) (s :: L)

theorem Frames.take {fs : List NavFrame} {L : List NavSlot} (h : Frames S fs L) (n : Nat) : Frames S (fs.take n) (L.take n) := by
  induction h generalizing n with
  | nil => simp; exact .nil
  | cons h t ih =>
    cases n with
    | zero => simp; exact .nil
    | succ n => exact .cons h (ih n)

theorem EntriesOf.base_nil (n : Nat) (kd : NavKind) (g : Gst) :
    EntriesOf n kd [] (fun _ _ => 255) (fun _ => 0) g (List.replicate n kd.newItem) := by
  refine ⟨NavSlot.Good.replicate n kd, ⟨?_, ?_, ?_⟩, ?_, ?_, ?_, fun _ _ => rfl⟩
  · intro x hx; rw [List.eq_of_mem_replicate hx]; exact FullInv.new kd [] _
  · intro x hx v hv; rw [List.eq_of_mem_replicate hx, NavKind.newItem_svn] at hv; cases hv
  · intro d hd; simp at hd
  · intro x hx v hv; rw [List.eq_of_mem_replicate hx, NavKind.newItem_svn] at hv; cases hv
  · intro x hx v hv; rw [List.eq_of_mem_replicate hx, NavKind.newItem_svn] at hv; cases hv
  · intro x hx _; rw [List.eq_of_mem_replicate hx, NavKind.newItem_authbits]

theorem EntriesOf.older {n : Nat} {kd : NavKind} {p : List InavCall} {A : Svn → NavField → Nat} {a : Svn → Nat} {g : Gst} {l : List NavItem}
    (h : EntriesOf n kd p A a g l) (g' : Gst) : EntriesOf n kd p (fun v f => min 255 (A v f + 1)) a g' (l.map NavItem.older) := by
  refine ⟨h.good.older, ⟨?_, ?_, ?_⟩, ?_, ?_, ?_, h.unseen⟩
  · intro x hx
    obtain ⟨y, hy, rfl⟩ := List.mem_map.1 hx
    exact (h.full.inv y hy).older (fun h => h.elim) (fun h => h.elim)
  · intro x hx v hv
    obtain ⟨y, hy, rfl⟩ := List.mem_map.1 hx
    exact h.full.fed y hy v hv
  · intro d hd
    obtain ⟨x, hx, hxs⟩ := h.full.all d hd
    exact ⟨x.older, List.mem_map_of_mem hx, hxs⟩
  · intro x hx v hv
    obtain ⟨y, hy, rfl⟩ := List.mem_map.1 hx
    simp only [NavItem.older]
    rw [h.age y hy v hv, List.map_map]; rfl
  · intro x hx v hv
    obtain ⟨y, hy, rfl⟩ := List.mem_map.1 hx
    exact h.auth y hy v hv
  · intro x hx hv
    obtain ⟨y, hy, rfl⟩ := List.mem_map.1 hx
    exact h.unassigned y hy hv

theorem NavKind.fieldAge_unseen {kd : NavKind} {p : List InavCall} {v : Svn} (h : ∀ c ∈ p, c.svn ≠ v) (f : NavField) :
    kd.fieldAge p v f = 255 := by
  unfold fieldAge; rw [latest_none h]

theorem Chronological.single (c : InavCall) : Chronological [c] := by
  intro i a b _ hb
  simp at hb

/-- The subframes after a word. -/
theorem Frames.word (hn : 0 < S.numSats) {fs : List NavFrame} {L : List NavSlot} (h : Frames S fs L) {c : InavCall}
    (hw : ∀ f, fs.head? = some f → Chronological (f.words ++ [c]) ∧ Fits S (f.words ++ [c])) :
    Frames S (wordReceived S.navDepth c fs) (navStep S L c) := by
  cases h with
  | nil =>
    refine .cons ⟨rfl, ⟨[], c, rfl, rfl⟩, Chronological.single c, ?_⟩ .nil
    intro kd
    rw [NavSlot.step_items, NavSlot.step_gst]
    have hb : (NavSlot.base S.numSats c.gst.subframe ([] : List NavSlot).head?).items kd = List.replicate S.numSats kd.newItem := by
      cases kd <;> rfl
    rw [hb]
    have := (EntriesOf.base_nil S.numSats kd c.gst.subframe).feed (c := c) hn ⟨[c.svn], hn, by simp⟩ (fun _ _ _ => rfl) (by
      intro v f
      rw [((NavKind.fieldAge_snoc (p := []) (Chronological.single c) kd v f).2 (by simp))]
      rfl)
    simpa only [ite_self, List.nil_append] using this
  | @cons f s fs L hf ht =>
    obtain ⟨hchr, hfit⟩ := hw f rfl
    obtain ⟨q, d, hq, hd⟩ := hf.last
    have hle : ∀ e ∈ f.words, e.gst.subframe.abs ≤ f.gst.abs := by
      have := hf.chr; rw [hq] at this
      rw [hq, ← hd]; exact this.le_last
    refine .cons ⟨rfl, ⟨f.words, c, rfl, rfl⟩, hchr, ?_⟩ ?_
    · intro kd
      rw [NavSlot.step_items, NavSlot.step_gst]
      have hbase := NavSlot.base_items S.numSats c.gst.subframe (s :: L).head? kd
      rcases hbase with ⟨h, _⟩ | ⟨s', hs', ⟨hg, he⟩ | ⟨hg, he⟩⟩
      · cases h
      · cases hs'
        rw [he]
        have hent := hf.entries kd
        rw [hg] at hent
        refine hent.feed hn hfit (fun v hv f => NavKind.fieldAge_unseen hv f) ?_
        intro v fl
        refine (NavKind.fieldAge_snoc hchr kd v fl).1 ⟨d, by rw [hq]; simp, ?_⟩
        rw [hd, hf.gst, hg]
      · cases hs'
        rw [he]
        refine ((hf.entries kd).older c.gst.subframe).feed hn hfit (fun v hv f => by rw [NavKind.fieldAge_unseen hv f]; rfl) ?_
        intro v fl
        refine (NavKind.fieldAge_snoc hchr kd v fl).2 ?_
        intro e hem hee
        have h1 := hle e hem
        have h2 := hchr.le_last d (by rw [hq]; simp)
        rw [hee] at h1
        rw [hd] at h2
        apply hg
        rw [← hf.gst]
        exact Gst.abs_inj (by omega)
    · unfold navTail; dsimp only
      by_cases hg : s.gst = c.gst.subframe
      · rw [if_pos hg, if_pos (by rw [hf.gst]; exact hg)]; exact ht
      · rw [if_neg hg, if_neg (by rw [hf.gst]; exact hg)]
        exact (Frames.cons hf ht).take _

end Verif
