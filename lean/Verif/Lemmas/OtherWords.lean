import Verif.Spec.OtherWords
import Verif.Props.StorageSize

/-! # Two machines with different words of other satellites -/

namespace Verif

variable {S : Storage} {C : Crypto} {root0 : Option MerkleTreeNode} {pk0 : Option (PublicKey C)} {slow : Bool}
  {kd : NavKind} {v : Svn} {hist hist' : List Call}

/-- The word carries a part of the data. -/
def InavCall.partOf (kd : NavKind) (v : Svn) (c : InavCall) : Bool := c.svn == v && kd.fields.any (fun f => kd.carries c f)

theorem latest_parts (p : List InavCall) {f : NavField} (hf : f ∈ kd.fields) : kd.latest (p.filter (InavCall.partOf kd v)) v f = kd.latest p v f := by
  unfold NavKind.latest
  rw [List.filter_filter]
  congr 1
  refine List.filter_congr fun c _ => ?_
  unfold InavCall.partOf
  cases h1 : c.svn == v with
  | false => rfl
  | true =>
    cases h2 : kd.carries c f with
    | false => rfl
    | true =>
      have : kd.fields.any (fun f => kd.carries c f) = true := List.any_eq_true.2 ⟨f, hf, h2⟩
      rw [this]; rfl

theorem expected_parts (p : List InavCall) : kd.expected (p.filter (InavCall.partOf kd v)) v = kd.expected p v := by
  unfold NavKind.expected NavKind.fieldAfter
  rw [List.flatMap_def, List.flatMap_def]
  congr 1
  refine List.map_congr_left fun f hf => ?_
  rw [latest_parts p hf]

theorem laterSubframes_congr {p p' : List InavCall} (h : ∀ g, (∃ c ∈ p, c.gst.subframe = g) ↔ ∃ c ∈ p', c.gst.subframe = g) (g : Gst) :
    laterSubframes p g = laterSubframes p' g := by
  have key : ∀ {p p' : List InavCall}, (∀ g, (∃ c ∈ p, c.gst.subframe = g) → ∃ c ∈ p', c.gst.subframe = g) → laterSubframes p g ≤ laterSubframes p' g := by
    intro p p' h
    unfold laterSubframes
    refine length_le_of_nodup_subset _ _ (nodup_eraseDups _ _ (Nat.le_refl _)) fun x hx => ?_
    rw [List.mem_eraseDups, List.mem_filter, List.mem_map] at hx ⊢
    exact ⟨h x hx.1, hx.2⟩
  exact Nat.le_antisymm (key fun g => (h g).1) (key fun g => (h g).2)

/-- Two subframes of two machines are alike as regards the data. -/
structure FrameLike (kd : NavKind) (v : Svn) (f f' : NavFrame) : Prop where
  gst : f.gst = f'.gst
  parts : f.words.filter (InavCall.partOf kd v) = f'.words.filter (InavCall.partOf kd v)
  has : f.Has v ↔ f'.Has v
  subs : ∀ g, (∃ c ∈ f.words, c.gst.subframe = g) ↔ ∃ c ∈ f'.words, c.gst.subframe = g
  auth : f.auth kd v = f'.auth kd v

theorem FrameLike.symm {f f' : NavFrame} (h : FrameLike kd v f f') : FrameLike kd v f' f :=
  ⟨h.gst.symm, h.parts.symm, h.has.symm, fun g => (h.subs g).symm, h.auth.symm⟩

theorem FrameLike.data {f f' : NavFrame} (h : FrameLike kd v f f') : f.data kd v = f'.data kd v := by
  unfold NavFrame.data
  rw [← expected_parts f.words, ← expected_parts f'.words, h.parts]

theorem FrameLike.ages {f f' : NavFrame} (h : FrameLike kd v f f') :
    kd.fields.map (kd.fieldAge f.words v) = kd.fields.map (kd.fieldAge f'.words v) := by
  refine List.map_congr_left fun x hx => ?_
  unfold NavKind.fieldAge
  rw [← latest_parts f.words hx, ← latest_parts f'.words hx, h.parts]
  cases kd.latest (f'.words.filter (InavCall.partOf kd v)) v x with
  | none => rfl
  | some c => dsimp only; rw [laterSubframes_congr h.subs]

/-- Two lists of subframes are alike. -/
inductive FramesLike (kd : NavKind) (v : Svn) : List NavFrame → List NavFrame → Prop
  | nil : FramesLike kd v [] []
  | cons {f f' : NavFrame} {l l' : List NavFrame} (h : FrameLike kd v f f') (t : FramesLike kd v l l') : FramesLike kd v (f :: l) (f' :: l')

variable {fs fs' : List NavFrame}

theorem FramesLike.symm (h : FramesLike kd v fs fs') : FramesLike kd v fs' fs := by
  induction h with
  | nil => exact .nil
  | cons h _ ih => exact .cons h.symm ih

theorem FramesLike.take (h : FramesLike kd v fs fs') (n : Nat) : FramesLike kd v (fs.take n) (fs'.take n) := by
  induction h generalizing n with
  | nil => rw [List.take_nil]; exact .nil
  | cons h _ ih =>
    cases n with
    | zero => exact .nil
    | succ n => exact .cons h (ih n)

theorem FramesLike.mem (h : FramesLike kd v fs fs') {f : NavFrame} (hf : f ∈ fs) : ∃ f' ∈ fs', FrameLike kd v f f' := by
  induction h with
  | nil => cases hf
  | @cons a a' l l' h _ ih =>
    rcases List.mem_cons.1 hf with rfl | hf
    · exact ⟨a', by simp, h⟩
    · obtain ⟨x, hx, e⟩ := ih hf
      exact ⟨x, List.mem_cons_of_mem _ hx, e⟩

theorem FramesLike.authenticated (h : FramesLike kd v fs fs') : authenticated fs kd v = authenticated fs' kd v := by
  unfold Verif.authenticated
  induction h with
  | nil => rfl
  | @cons a a' l l' h _ ih =>
    rw [List.find?_cons, List.find?_cons, h.auth]
    cases hd : decide (40 ≤ a'.auth kd v) with
    | false => exact ih
    | true =>
      dsimp only
      rw [Option.map_some, Option.map_some, h.data, h.auth, h.gst]
      unfold NavKind.newestAge
      rw [h.ages]

theorem FramesLike.counts (h : FramesLike kd v fs fs') {f f' : NavFrame} (hf : FrameLike kd v f f') {u : TagUse} (hc : u.CountsFor C fs kd v f) :
    u.CountsFor C fs' kd v f' := by
  obtain ⟨h1, h2, h3, h4, y, hy, h5, h6, h7, h8, h9⟩ := hc
  obtain ⟨y', hy', e⟩ := h.mem hy
  refine ⟨h1, h2, h3, hf.has.1 h4, y', hy', by rw [← e.gst]; exact h5, e.has.1 h6, ?_, by rw [← hf.data, ← e.data]; exact h8, by rw [← hf.data]; exact h9⟩
  unfold NavKind.oldestAge at h7 ⊢
  rw [← e.ages]
  exact h7

theorem FramesLike.checked (h : FramesLike kd v fs fs') (us : NavKind → List TagUse) : FramesLike kd v (tagsChecked C us fs) (tagsChecked C us fs') := by
  have key : ∀ {l l'}, FramesLike kd v l l' → FramesLike kd v
      (l.map (fun f => { f with auth := fun kd v => min 65535 (f.auth kd v + gainFor C fs (us kd) kd v f) }))
      (l'.map (fun f => { f with auth := fun kd v => min 65535 (f.auth kd v + gainFor C fs' (us kd) kd v f) })) := by
    intro l l' hl
    induction hl with
    | nil => exact .nil
    | @cons a a' l l' ha _ ih =>
      refine .cons ⟨ha.gst, ha.parts, ha.has, ha.subs, ?_⟩ ih
      dsimp only
      rw [ha.auth]
      congr 2
      refine Nat.le_antisymm (gain_mono (List.Sublist.refl _) fun u _ hu => h.counts ha hu) (gain_mono (List.Sublist.refl _) fun u _ hu => h.symm.counts ha.symm hu)
  exact key h

/-- The words added to two subframes do not make a difference. -/
theorem FrameLike.word {f f' : NavFrame} (h : FrameLike kd v f f') {c c' : InavCall} (hs : c.gst.subframe = c'.gst.subframe)
    (hp : [c].filter (InavCall.partOf kd v) = [c'].filter (InavCall.partOf kd v)) (hh : (f.Has v ∨ c.svn = v) ↔ (f'.Has v ∨ c'.svn = v)) :
    FrameLike kd v ⟨c.gst.subframe, f.words ++ [c], fun kd v => if kd.expected (f.words ++ [c]) v = f.data kd v then f.auth kd v else 0⟩
      ⟨c'.gst.subframe, f'.words ++ [c'], fun kd v => if kd.expected (f'.words ++ [c']) v = f'.data kd v then f'.auth kd v else 0⟩ := by
  have hpp : (f.words ++ [c]).filter (InavCall.partOf kd v) = (f'.words ++ [c']).filter (InavCall.partOf kd v) := by
    rw [List.filter_append, List.filter_append, h.parts, hp]
  refine ⟨hs, hpp, ?_, fun g => ?_, ?_⟩
  · unfold NavFrame.Has at hh ⊢
    simp only [List.mem_append, List.mem_singleton] at hh ⊢
    constructor
    · rintro ⟨d, hd | rfl, e⟩
      · rcases hh.1 (.inl ⟨d, hd, e⟩) with ⟨x, hx, e⟩ | e
        · exact ⟨x, .inl hx, e⟩
        · exact ⟨c', .inr rfl, e⟩
      · rcases hh.1 (.inr e) with ⟨x, hx, e⟩ | e
        · exact ⟨x, .inl hx, e⟩
        · exact ⟨c', .inr rfl, e⟩
    · rintro ⟨d, hd | rfl, e⟩
      · rcases hh.2 (.inl ⟨d, hd, e⟩) with ⟨x, hx, e⟩ | e
        · exact ⟨x, .inl hx, e⟩
        · exact ⟨c, .inr rfl, e⟩
      · rcases hh.2 (.inr e) with ⟨x, hx, e⟩ | e
        · exact ⟨x, .inl hx, e⟩
        · exact ⟨c, .inr rfl, e⟩
  · simp only [List.mem_append, List.mem_singleton]
    have := h.subs g
    constructor
    · rintro ⟨d, hd | rfl, e⟩
      · obtain ⟨x, hx, e⟩ := this.1 ⟨d, hd, e⟩
        exact ⟨x, .inl hx, e⟩
      · exact ⟨c', .inr rfl, hs ▸ e⟩
    · rintro ⟨d, hd | rfl, e⟩
      · obtain ⟨x, hx, e⟩ := this.2 ⟨d, hd, e⟩
        exact ⟨x, .inl hx, e⟩
      · exact ⟨c, .inr rfl, hs ▸ e⟩
  · dsimp only
    rw [← expected_parts (f.words ++ [c]), ← expected_parts (f'.words ++ [c']), hpp, h.data, h.auth]

/-- A word that makes no difference in the current subframe. -/
theorem FrameLike.skip {f f' : NavFrame} (h : FrameLike kd v f f') {c : InavCall} (hg : f.gst = c.gst.subframe)
    (hp : [c].filter (InavCall.partOf kd v) = []) (hh : c.svn = v → f.Has v) (hs : ∃ d ∈ f.words, d.gst.subframe = c.gst.subframe) :
    FrameLike kd v ⟨c.gst.subframe, f.words ++ [c], fun kd v => if kd.expected (f.words ++ [c]) v = f.data kd v then f.auth kd v else 0⟩ f' := by
  have hpp : (f.words ++ [c]).filter (InavCall.partOf kd v) = f.words.filter (InavCall.partOf kd v) := by
    rw [List.filter_append, hp, List.append_nil]
  refine ⟨by rw [← hg]; exact h.gst, by rw [hpp]; exact h.parts, ?_, fun g => ?_, ?_⟩
  · rw [← h.has]
    unfold NavFrame.Has at hh ⊢
    simp only [List.mem_append, List.mem_singleton]
    constructor
    · rintro ⟨d, hd | rfl, e⟩
      · exact ⟨d, hd, e⟩
      · exact hh e
    · rintro ⟨d, hd, e⟩
      exact ⟨d, .inl hd, e⟩
  · rw [← h.subs g]
    simp only [List.mem_append, List.mem_singleton]
    constructor
    · rintro ⟨d, hd | rfl, e⟩
      · exact ⟨d, hd, e⟩
      · obtain ⟨x, hx, ex⟩ := hs
        exact ⟨x, hx, ex.trans e⟩
    · rintro ⟨d, hd, e⟩
      exact ⟨d, .inl hd, e⟩
  · dsimp only
    rw [← h.auth, if_pos]
    unfold NavFrame.data
    rw [← expected_parts (f.words ++ [c]), ← expected_parts f.words, hpp]

theorem InavCall.Beside.parts {c : InavCall} {h : List Call} (hc : c.Beside kd v h) : [c].filter (InavCall.partOf kd v) = [] := by
  rw [List.filter_eq_nil_iff]
  intro d hd
  obtain rfl := List.mem_singleton.1 hd
  unfold InavCall.partOf
  rcases hc with hc | ⟨_, hc⟩
  · simp [hc]
  · intro hh
    rw [Bool.and_eq_true] at hh
    obtain ⟨f, hf, e⟩ := List.any_eq_true.1 hh.2
    rw [hc f hf] at e
    cases e

theorem SameFor.symm (h : SameFor kd v hist hist') : SameFor kd v hist' hist := by
  induction h with
  | nil => exact .nil
  | both _ c ih => exact .both ih c
  | other _ c c' hc hc' hs ih => exact .other ih c' c hc' hc hs.symm
  | left _ c hc hs ih => exact .right ih c hc hs
  | right _ c hc hs ih => exact .left ih c hc hs

theorem inavsOf_call (h : List Call) (c : InavCall) : inavsOf (h ++ [c.call]) = inavsOf h ++ [c] := inavsOf_inav h c

theorem pagesOf_call (h : List Call) (c : InavCall) : pagesOf (h ++ [c.call]) = pagesOf h := pagesOf_inav h _ _ _ _

theorem SameFor.pages (h : SameFor kd v hist hist') : pagesOf hist = pagesOf hist' := by
  induction h with
  | nil => rfl
  | both _ c ih => unfold pagesOf at ih ⊢; rw [List.filterMap_append, List.filterMap_append, ih]
  | other _ c c' hc hc' hs ih => rw [pagesOf_call, pagesOf_call, ih]
  | left _ c hc hs ih => rw [pagesOf_call, ih]
  | right _ c hc hs ih => rw [pagesOf_call, ih]

theorem machines_agree_pages {rs rs' : List Received} {log log' : List (KeyEvent C)} (h : NavMachine root0 pk0 S slow hist rs log fs)
    (h' : NavMachine root0 pk0 S slow hist' rs' log' fs') (hp : pagesOf hist = pagesOf hist') : rs = rs' ∧ log = log' := by
  obtain ⟨a, b⟩ := C63_contains_key_machine h
  obtain ⟨a', b'⟩ := C63_contains_key_machine h'
  rw [hp] at a
  obtain rfl := a.unique a'
  exact ⟨rfl, C62_machine_deterministic b b'⟩

/-- In a machine with no subframes no word was received. -/
theorem NavMachine.no_frames {rs : List Received} {log : List (KeyEvent C)} (h : NavMachine root0 pk0 S slow hist rs log []) : inavsOf hist = [] :=
  h.ends.2.symm

/-- The first subframe has all the words. -/
theorem NavMachine.first {rs : List Received} {log : List (KeyEvent C)} {f : NavFrame} (h : NavMachine root0 pk0 S slow hist rs log (f :: fs)) :
    f.words = inavsOf hist := h.ends.2

/-- A further word in a subframe with words is in the current subframe. -/
theorem NavMachine.current {rs : List Received} {log : List (KeyEvent C)} {f : NavFrame} (h : NavMachine root0 pk0 S slow hist rs log (f :: fs))
    {c : InavCall} (hc : Chronological (inavsOf hist ++ [c])) (hs : c.SubframeSeen hist) : f.gst = c.gst.subframe := by
  obtain ⟨d, hd, e⟩ := hs
  obtain ⟨r, l, e1, e2, e3⟩ := h.ends.1 f (by simp)
  have e0 := h.first
  have hl : f.gst.abs ≤ c.gst.subframe.abs := by
    rw [e3]
    exact hc.le_last l (by rw [← e0]; exact List.mem_append_left _ (List.mem_of_getLast? e2))
  have hd' : d.gst.subframe.abs ≤ f.gst.abs := by
    obtain ⟨z, hz⟩ : ∃ z, inavsOf hist = z ++ [l] := by
      rw [← e0]
      rcases List.eq_nil_or_concat f.words with e | ⟨y, x, e⟩
      · rw [e] at e2; cases e2
      · rw [List.concat_eq_append] at e
        rw [e, List.getLast?_concat] at e2
        exact ⟨y, by rw [e, Option.some.inj e2]⟩
    have hc' := hc.pre
    rw [hz] at hc' hd
    rw [e3]
    exact hc'.le_last d hd
  rw [e] at hd'
  exact Gst.abs_inj (by omega)

theorem FramesLike.words {rs rs' : List Received} {log log' : List (KeyEvent C)} (hL : FramesLike kd v fs fs') (m : NavMachine root0 pk0 S slow hist rs log fs)
    (m' : NavMachine root0 pk0 S slow hist' rs' log' fs') {c c' : InavCall} (hs : c.gst.subframe = c'.gst.subframe)
    (hp : [c].filter (InavCall.partOf kd v) = [c'].filter (InavCall.partOf kd v))
    (hh : ((∃ d ∈ inavsOf hist, d.svn = v) ∨ c.svn = v) ↔ ((∃ d ∈ inavsOf hist', d.svn = v) ∨ c'.svn = v)) :
    FramesLike kd v (wordReceived S.navDepth c fs) (wordReceived S.navDepth c' fs') := by
  cases hL with
  | nil =>
    unfold wordReceived
    rw [m.no_frames, m'.no_frames] at hh
    have hh : c.svn = v ↔ c'.svn = v := by simpa using hh
    refine .cons ⟨hs, hp, ?_, fun g => ?_, rfl⟩ .nil
    · unfold NavFrame.Has
      simpa using hh
    · simp [hs]
  | @cons f f' l l' hf hl =>
    unfold wordReceived
    dsimp only
    refine .cons (hf.word hs hp ?_) ?_
    · unfold NavFrame.Has
      rw [m.first, m'.first]
      exact hh
    · rw [hf.gst, hs]
      split
      · exact hl
      · exact (FramesLike.cons hf hl).take _

theorem FramesLike.left {rs : List Received} {log : List (KeyEvent C)} (hL : FramesLike kd v fs fs') (m : NavMachine root0 pk0 S slow hist rs log fs)
    {c : InavCall} (hc : Chronological (inavsOf hist ++ [c])) (hb : c.Beside kd v hist) (hs : c.SubframeSeen hist) :
    FramesLike kd v (wordReceived S.navDepth c fs) fs' := by
  cases hL with
  | nil =>
    obtain ⟨d, hd, _⟩ := hs
    rw [m.no_frames] at hd
    cases hd
  | @cons f f' l l' hf hl =>
    have hg := m.current hc hs
    unfold wordReceived
    dsimp only
    rw [if_pos hg]
    refine .cons (hf.skip hg hb.parts ?_ ?_) hl
    · intro e
      unfold NavFrame.Has
      rw [m.first]
      rcases hb with hb | hb
      · exact absurd e hb
      · exact hb.1
    · rw [m.first]; exact hs

/-- The two machines have alike subframes. -/
theorem SameFor.frames (h : SameFor kd v hist hist') {rs rs' : List Received} {log log' : List (KeyEvent C)}
    (m : NavMachine root0 pk0 S slow hist rs log fs) (m' : NavMachine root0 pk0 S slow hist' rs' log' fs')
    (hc : Chronological (inavsOf hist)) (hc' : Chronological (inavsOf hist')) :
    FramesLike kd v fs fs' ∧ ((∃ d ∈ inavsOf hist, d.svn = v) ↔ ∃ d ∈ inavsOf hist', d.svn = v) := by
  induction h generalizing rs rs' log log' fs fs' with
  | nil =>
    have e : fs = [] := by
      generalize hh : ([] : List Call) = x at m
      cases m <;> first | rfl | simp at hh
    have e' : fs' = [] := by
      generalize hh : ([] : List Call) = x at m'
      cases m' <;> first | rfl | simp at hh
    subst e; subst e'
    exact ⟨.nil, Iff.rfl⟩
  | @both h h' hS c ih =>
    obtain ⟨s, hs, n⟩ := (machine_snoc (t := ⟨rs, log, fs⟩)).1 m
    obtain ⟨s', hs', n'⟩ := (machine_snoc (t := ⟨rs', log', fs'⟩)).1 m'
    have hcb : Chronological (inavsOf h) := by rw [inavsOf_append'] at hc; exact hc.pre
    have hcb' : Chronological (inavsOf h') := by rw [inavsOf_append'] at hc'; exact hc'.pre
    obtain ⟨hL, hH⟩ := ih hs hs' hcb hcb'
    have hag := machines_agree_pages hs hs' hS.pages
    have hag' := machines_agree_pages m m' (SameFor.both hS c).pages
    obtain ⟨sr, sl, sf⟩ := s
    obtain ⟨sr', sl', sf'⟩ := s'
    dsimp only at *
    obtain ⟨rfl, rfl⟩ := hag
    cases c with
    | inav w u g b =>
      have n := n.word_inv
      have n' := n'.word_inv
      cases n; cases n'
      have hH' : ((∃ d ∈ inavsOf h, d.svn = v) ∨ u = v) ↔ ((∃ d ∈ inavsOf h', d.svn = v) ∨ u = v) := by rw [hH]
      refine ⟨hL.words hs hs' rfl rfl hH', ?_⟩
      rw [inavsOf_append', inavsOf_append']
      simp only [inavsOf, List.filterMap_cons, List.filterMap_nil, List.mem_append, List.mem_singleton] at hH' ⊢
      constructor
      · rintro ⟨d, hd | rfl, e⟩
        · rcases hH'.1 (.inl ⟨d, hd, e⟩) with ⟨x, hx, e⟩ | e
          · exact ⟨x, .inl hx, e⟩
          · exact ⟨_, .inr rfl, e⟩
        · exact ⟨_, .inr rfl, e⟩
      · rintro ⟨d, hd | rfl, e⟩
        · rcases hH'.2 (.inl ⟨d, hd, e⟩) with ⟨x, hx, e⟩ | e
          · exact ⟨x, .inl hx, e⟩
          · exact ⟨_, .inr rfl, e⟩
        · exact ⟨_, .inr rfl, e⟩
    | osnma d u g =>
      refine ⟨?_, by rw [inavsOf_osnma, inavsOf_osnma]; exact hH⟩
      rw [hS.pages] at n
      rcases Move.page_inv (p := ⟨d, u, g⟩) n with ⟨e, hq⟩ | ⟨r, l₁, l₂, gs, hz, hr, h₁, h₂, h₃, e⟩
      · rcases Move.page_inv (p := ⟨d, u, g⟩) n' with ⟨e', _⟩ | ⟨r', _, _, _, hz, hr, _⟩
        · cases e; cases e'
          exact hL
        · rcases hq with hq | hq
          · rw [hz] at hq; cases hq
          · exact absurd hr (hq r')
      · rcases Move.page_inv (p := ⟨d, u, g⟩) n' with ⟨_, hq⟩ | ⟨r', l₁', l₂', gs', hz', hr', h₁', h₂', h₃', e'⟩
        · rcases hq with hq | hq
          · rw [hz] at hq; cases hq
          · exact absurd hr (hq r)
        · cases e; cases e'
          have er := hr.unique hr'
          subst er
          have e1 : l₁ = l₁' := Exactly.unique (fun _ _ => by
            intro ⟨d, hd, he⟩ ⟨d', hd', he'⟩
            obtain rfl := hd.unique hd'
            exact DsmMessage.unique he he') h₁ h₁'
          subst e1
          have e2 : l₂ = l₂' := List.append_cancel_left hag'.2
          subst e2
          cases h₃ with
          | none =>
            cases h₃' with
            | none => exact hL
          | key k t1 t10 t11 h1 h10 h11 =>
            cases h₃' with
            | key _ t1' t10' t11' h1' h10' h11' =>
              obtain rfl : t1 = t1' := Gst.abs_inj (by omega)
              obtain rfl : t10 = t10' := Gst.abs_inj (by omega)
              obtain rfl : t11 = t11' := Gst.abs_inj (by omega)
              exact hL.checked _
  | @other h h' hS c c' hb hb' hsub ih =>
    obtain ⟨s, hs, n⟩ := (machine_snoc (t := ⟨rs, log, fs⟩)).1 m
    obtain ⟨s', hs', n'⟩ := (machine_snoc (t := ⟨rs', log', fs'⟩)).1 m'
    rw [inavsOf_call] at hc hc'
    obtain ⟨hL, hH⟩ := ih hs hs' hc.pre hc'.pre
    have n : (⟨rs, log, fs⟩ : MState C) = _ := Move.word_inv n
    have n' : (⟨rs', log', fs'⟩ : MState C) = _ := Move.word_inv n'
    have hH' : ((∃ d ∈ inavsOf h, d.svn = v) ∨ c.svn = v) ↔ ((∃ d ∈ inavsOf h', d.svn = v) ∨ c'.svn = v) := by
      constructor
      · rintro (hx | hx)
        · exact .inl (hH.1 hx)
        · rcases hb with hb | hb
          · exact absurd hx hb
          · exact .inl (hH.1 hb.1)
      · rintro (hx | hx)
        · exact .inl (hH.2 hx)
        · rcases hb' with hb | hb
          · exact absurd hx hb
          · exact .inl (hH.2 hb.1)
    refine ⟨?_, ?_⟩
    · have a : fs = wordReceived S.navDepth c s.fs := congrArg MState.fs n
      have a' : fs' = wordReceived S.navDepth c' s'.fs := congrArg MState.fs n'
      rw [a, a']
      exact hL.words hs hs' hsub (by rw [hb.parts, hb'.parts]) hH'
    · rw [inavsOf_call, inavsOf_call]
      simp only [List.mem_append, List.mem_singleton]
      constructor
      · rintro ⟨d, hd, e⟩
        have : (∃ d ∈ inavsOf h, d.svn = v) ∨ c.svn = v := by
          rcases hd with hd | rfl
          · exact .inl ⟨d, hd, e⟩
          · exact .inr e
        rcases hH'.1 this with ⟨x, hx, e⟩ | e
        · exact ⟨x, .inl hx, e⟩
        · exact ⟨c', .inr rfl, e⟩
      · rintro ⟨d, hd, e⟩
        have : (∃ d ∈ inavsOf h', d.svn = v) ∨ c'.svn = v := by
          rcases hd with hd | rfl
          · exact .inl ⟨d, hd, e⟩
          · exact .inr e
        rcases hH'.2 this with ⟨x, hx, e⟩ | e
        · exact ⟨x, .inl hx, e⟩
        · exact ⟨c, .inr rfl, e⟩
  | @left h h' hS c hb hsub ih =>
    obtain ⟨s, hs, n⟩ := (machine_snoc (t := ⟨rs, log, fs⟩)).1 m
    rw [inavsOf_call] at hc
    obtain ⟨hL, hH⟩ := ih hs m' hc.pre hc'
    have n : (⟨rs, log, fs⟩ : MState C) = _ := Move.word_inv n
    have a : fs = wordReceived S.navDepth c s.fs := congrArg MState.fs n
    rw [a]
    refine ⟨hL.left hs hc hb hsub, ?_⟩
    rw [inavsOf_call, ← hH]
    simp only [List.mem_append, List.mem_singleton]
    constructor
    · rintro ⟨d, hd | rfl, e⟩
      · exact ⟨d, hd, e⟩
      · rcases hb with hb | hb
        · exact absurd e hb
        · exact hb.1
    · rintro ⟨d, hd, e⟩
      exact ⟨d, .inl hd, e⟩
  | @right h h' hS c hb hsub ih =>
    obtain ⟨s, hs, n⟩ := (machine_snoc (t := ⟨rs', log', fs'⟩)).1 m'
    rw [inavsOf_call] at hc'
    obtain ⟨hL, hH⟩ := ih m hs hc hc'.pre
    have n : (⟨rs', log', fs'⟩ : MState C) = _ := Move.word_inv n
    have a : fs' = wordReceived S.navDepth c s.fs := congrArg MState.fs n
    rw [a]
    refine ⟨(hL.symm.left hs hc' hb hsub).symm, ?_⟩
    rw [inavsOf_call, hH]
    simp only [List.mem_append, List.mem_singleton]
    constructor
    · rintro ⟨d, hd, e⟩
      exact ⟨d, .inl hd, e⟩
    · rintro ⟨d, hd | rfl, e⟩
      · exact ⟨d, hd, e⟩
      · rcases hb with hb | hb
        · exact absurd e hb
        · exact hb.1

end Verif
