import Verif.Props.StorageSize

/-! # C82: reported data is kept and does not get older -/

namespace Verif
open CollectSubframe (snoc_induction)

variable {S : Storage} {C : Crypto} {root0 : Option MerkleTreeNode} {pk0 : Option (PublicKey C)} {slow : Bool}
  {hist before after : List Call} {log log₁ log₂ : List (KeyEvent C)} {o₁ o₂ : Osnma C} {fs : List NavFrame}

/-- The authentication bits saturate. -/
theorem NavMachine.auth_le {rs : List Received} (h : NavMachine root0 pk0 S slow hist rs log fs) : ∀ f ∈ fs, ∀ kd v, f.auth kd v ≤ 65535 := by
  induction h with
  | nil => intro f hf; cases hf
  | @word hist rs log fs c h ih =>
    intro f hf kd v
    cases fs with
    | nil =>
      unfold wordReceived at hf
      rw [List.mem_singleton.1 hf]
      exact Nat.zero_le _
    | cons a l =>
      unfold wordReceived at hf
      rcases List.mem_cons.1 hf with rfl | hf
      · dsimp only
        split
        · exact ih a (by simp) kd v
        · exact Nat.zero_le _
      · split at hf
        · exact ih f (List.mem_cons_of_mem _ hf) kd v
        · exact ih f (List.mem_of_mem_take hf) kd v
  | zero p _ hz ih => exact ih
  | page p _ hz hn ih => exact ih
  | subframe p r _ hz hr h₁ h₂ h₃ ih =>
    cases h₃ with
    | none => exact ih
    | key k t1 t10 t11 h1 h10 h11 =>
      intro f hf kd v
      unfold tagsChecked at hf
      obtain ⟨g, hg, rfl⟩ := List.mem_map.1 hf
      exact Nat.min_le_left _ _

/-- What is left of a subframe after more calls: it is still held, with the same data and not fewer bits, or only later ones are. -/
def Kept (S : Storage) (kd : NavKind) (v : Svn) (f : NavFrame) (fs : List NavFrame) : Prop :=
  (∃ x ∈ fs, x.gst = f.gst ∧ f.words <+: x.words ∧ x.data kd v = f.data kd v ∧ f.auth kd v ≤ x.auth kd v) ∨
    (fs.length = S.navDepth ∧ ∀ x ∈ fs, f.gst.abs < x.gst.abs)

/-- Until the subframe of the last word ends, the words do not change the data of the satellite. -/
def SteadyUntilEnd (kd : NavKind) (v : Svn) (before after : List InavCall) : Prop :=
  ∀ p r l, after = p ++ r → before.getLast? = some l → (∀ c ∈ p, c.gst.subframe = l.gst.subframe) → kd.expected (before ++ p) v = kd.expected before v

theorem kept_run (hpos : 0 < S.navDepth) {kd : NavKind} {v : Svn} {rs₁ rs₂ : List Received} {fs₁ fs₂ : List NavFrame}
    (h₁ : NavMachine root0 pk0 S slow before rs₁ log₁ fs₁) (h₂ : NavMachine root0 pk0 S slow (before ++ after) rs₂ log₂ fs₂)
    (hc : Chronological (inavsOf (before ++ after))) (hst : SteadyUntilEnd kd v (inavsOf before) (inavsOf after)) {f : NavFrame} (hf : f ∈ fs₁) :
    Kept S kd v f fs₂ := by
  induction after using snoc_induction generalizing rs₂ log₂ fs₂ with
  | h0 =>
    rw [List.append_nil] at h₂
    obtain ⟨_, _, rfl⟩ := C63_machine_deterministic h₁ h₂
    exact .inl ⟨f, hf, rfl, List.prefix_refl _, rfl, Nat.le_refl _⟩
  | h1 after c ih =>
    rw [← List.append_assoc] at h₂ hc
    obtain ⟨s, hs, m⟩ := (machine_snoc (t := ⟨rs₂, log₂, fs₂⟩)).1 h₂
    have hc' : Chronological (inavsOf (before ++ after)) := by
      rw [inavsOf_append'] at hc; exact hc.pre
    have hst' : SteadyUntilEnd kd v (inavsOf before) (inavsOf after) := by
      intro p r l e hl hp
      exact hst p (r ++ inavsOf [c]) l (by rw [inavsOf_append', e, List.append_assoc]) hl hp
    have ih := ih hs hc' hst'
    cases c with
    | osnma d w g =>
      rcases (Move.page_inv (p := ⟨d, w, g⟩) m) with ⟨e, _⟩ | ⟨r, l₁, l₂, fs', _, _, _, _, hu, e⟩
      · have : fs₂ = s.fs := by rw [← e]
        rw [this]; exact ih
      · obtain rfl : fs₂ = fs' := by
          have := congrArg MState.fs e
          exact this
        generalize l₂ = l₂ at hu
        cases hu with
        | none => exact ih
        | key k t1 t10 t11 h1 h10 h11 =>
          rcases ih with ⟨x, hx, e1, e2, e3, e4⟩ | ⟨e1, e2⟩
          · refine .inl ⟨_, List.mem_map.2 ⟨x, hx, rfl⟩, e1, e2, e3, ?_⟩
            have := hs.auth_le x hx kd v
            dsimp only
            omega
          · refine .inr ⟨by unfold tagsChecked; rw [List.length_map]; exact e1, fun x hx => ?_⟩
            obtain ⟨y, hy, rfl⟩ := List.mem_map.1 hx
            exact e2 y hy
    | inav w u g b =>
      have e : fs₂ = wordReceived S.navDepth ⟨w, u, g, b⟩ s.fs := congrArg MState.fs (Move.word_inv m)
      rw [e]
      have hdec := hs.decreasing hc'
      have hends := hs.ends
      have hce : inavsOf (before ++ after ++ [Call.inav w u g b]) = inavsOf (before ++ after) ++ [⟨w, u, g, b⟩] := inavsOf_inav _ ⟨w, u, g, b⟩
      rw [hce] at hc
      generalize hcc : (⟨w, u, g, b⟩ : InavCall) = c at *
      obtain ⟨r0, l0, f1, f2, f3⟩ := h₁.ends.1 f hf
      cases hfs : s.fs with
      | nil =>
        rw [hfs] at ih
        rcases ih with ⟨x, hx, _⟩ | ⟨e1, _⟩
        · cases hx
        · simp at e1; omega
      | cons a l =>
        rw [hfs] at ih hdec hends
        have ha : a.words = inavsOf (before ++ after) := hends.2
        obtain ⟨ra, la, a1, a2, a3⟩ := hends.1 a (by simp)
        have hac : a.gst.abs ≤ c.gst.subframe.abs := by
          rw [a3]
          exact hc.le_last la (by rw [← ha]; exact List.mem_append_left _ (List.mem_of_getLast? a2))
        rw [List.map_cons, List.pairwise_cons] at hdec
        unfold wordReceived
        dsimp only
        by_cases hg : a.gst = c.gst.subframe
        · rw [if_pos hg]
          rcases ih with ⟨x, hx, e1, e2, e3, e4⟩ | ⟨e1, e2⟩
          · rcases List.mem_cons.1 hx with rfl | hx
            · -- the current subframe
              have hsame : kd.expected (x.words ++ [c]) v = x.data kd v := by
                obtain ⟨lb, hlb⟩ : ∃ lb, (inavsOf before).getLast? = some lb := by
                  cases hq : inavsOf before with
                  | nil => rw [hq] at f1; rw [(List.append_eq_nil_iff.1 f1.symm).1] at f2; cases f2
                  | cons y ys => exact ⟨_, List.getLast?_eq_some_getLast (by simp)⟩
                have hfb : f.gst.abs ≤ lb.gst.subframe.abs := by
                  obtain ⟨bb, hbb⟩ : ∃ bb, inavsOf before = bb ++ [lb] := by
                    rcases List.eq_nil_or_concat (inavsOf before) with q | ⟨y, z, q⟩
                    · rw [q] at hlb; cases hlb
                    · rw [List.concat_eq_append] at q
                      rw [q, List.getLast?_concat] at hlb
                      exact ⟨y, by rw [q, Option.some.inj hlb]⟩
                  have cb : Chronological (inavsOf before) := by rw [inavsOf_append'] at hc'; exact hc'.pre
                  rw [f3]
                  rw [hbb] at cb
                  exact cb.le_last l0 (by rw [← hbb, f1]; exact List.mem_append_left _ (List.mem_of_getLast? f2))
                have hlbc : ∀ d ∈ inavsOf after ++ [c], d.gst.subframe = lb.gst.subframe := by
                  intro d hd
                  have hdc : d.gst.subframe.abs ≤ c.gst.subframe.abs := by
                    refine hc.le_last d ?_
                    rw [inavsOf_append', List.append_assoc]
                    exact List.mem_append_right _ hd
                  have hbd : lb.gst.subframe.abs ≤ d.gst.subframe.abs := by
                    have hpw := hc.pairwise
                    rw [inavsOf_append', List.append_assoc, List.pairwise_append] at hpw
                    exact hpw.2.2 lb (List.mem_of_getLast? hlb) d hd
                  refine Gst.abs_inj ?_
                  rw [← hg, e1] at hdc
                  omega
                have s1 := hst (inavsOf after ++ [c]) [] lb (by rw [inavsOf_append', ← hcc]; simp [inavsOf]) hlb hlbc
                have s2 := hst (inavsOf after) [c] lb (by rw [inavsOf_append', ← hcc]; simp [inavsOf]) hlb (fun d hd => hlbc d (List.mem_append_left _ hd))
                unfold NavFrame.data
                rw [ha, inavsOf_append', List.append_assoc, s1, s2]
              refine .inl ⟨_, List.mem_cons_self, ?_, ?_, ?_, ?_⟩
              · dsimp only; rw [← hg, e1]
              · dsimp only; exact e2.trans (List.prefix_append _ _)
              · rw [← e3]; exact hsame
              · dsimp only; rw [if_pos hsame]; exact e4
            · exact .inl ⟨x, List.mem_cons_of_mem _ hx, e1, e2, e3, e4⟩
          · refine .inr ⟨e1, fun x hx => ?_⟩
            rcases List.mem_cons.1 hx with rfl | hx
            · dsimp only; rw [← hg]; exact e2 a (by simp)
            · exact e2 x (List.mem_cons_of_mem _ hx)
        · rw [if_neg hg]
          have hlt : a.gst.abs < c.gst.subframe.abs := by
            have : a.gst.abs ≠ c.gst.subframe.abs := fun e => hg (Gst.abs_inj e)
            omega
          rcases ih with ⟨x, hx, e1, e2, e3, e4⟩ | ⟨e1, e2⟩
          · by_cases hin : x ∈ (a :: l).take (S.navDepth - 1)
            · exact .inl ⟨x, List.mem_cons_of_mem _ hin, e1, e2, e3, e4⟩
            · right
              have hxa : x.gst.abs ≤ a.gst.abs := by
                rcases List.mem_cons.1 hx with rfl | hx
                · exact Int.le_refl _
                · have := hdec.1.1 x.gst (List.mem_map.2 ⟨x, hx, rfl⟩); omega
              have hxd : x ∈ (a :: l).drop (S.navDepth - 1) := by
                rw [← List.take_append_drop (S.navDepth - 1) (a :: l)] at hx
                exact (List.mem_append.1 hx).resolve_left hin
              have hlen : S.navDepth - 1 < (a :: l).length := by
                refine Nat.lt_of_not_le fun hle => ?_
                rw [List.drop_eq_nil_of_le hle] at hxd
                cases hxd
              refine ⟨by rw [List.length_cons, List.length_take]; omega, fun y hy => ?_⟩
              rcases List.mem_cons.1 hy with rfl | hy
              · dsimp only; rw [← e1]; omega
              · have hp : (((a :: l).take (S.navDepth - 1) ++ (a :: l).drop (S.navDepth - 1)).map NavFrame.gst).Pairwise (fun a b => b.abs < a.abs) := by
                  rw [List.take_append_drop, List.map_cons, List.pairwise_cons]
                  exact hdec.1
                rw [List.map_append, List.pairwise_append] at hp
                have := hp.2.2 y.gst (List.mem_map.2 ⟨y, hy, rfl⟩) x.gst (List.mem_map.2 ⟨x, hxd, rfl⟩)
                rw [e1] at this
                exact this
          · refine .inr ⟨?_, fun y hy => ?_⟩
            · rw [List.length_cons, List.length_take, e1]; omega
            · rcases List.mem_cons.1 hy with rfl | hy
              · have := e2 a (by simp); dsimp only; omega
              · exact e2 y (List.mem_of_mem_take hy)

/-- Of two prefixes of words in order, that which ends in an earlier subframe is a prefix of the other. -/
theorem prefix_of_earlier {w p q : List InavCall} (hc : Chronological w) (hp : p <+: w) (hq : q <+: w) {a b : InavCall} (ha : p.getLast? = some a)
    (hb : q.getLast? = some b) (hlt : a.gst.subframe.abs < b.gst.subframe.abs) : p <+: q := by
  rcases Nat.le_total p.length q.length with hl | hl
  · exact List.prefix_of_prefix_length_le hp hq hl
  · exfalso
    obtain ⟨s, hs⟩ := List.prefix_of_prefix_length_le hq hp hl
    obtain ⟨r, hr⟩ := hp
    have c1 : Chronological p := by rw [← hr] at hc; exact hc.pre
    obtain ⟨z, hz⟩ : ∃ z, p = z ++ [a] := by
      rcases List.eq_nil_or_concat p with e | ⟨y, x, e⟩
      · rw [e] at ha; cases ha
      · rw [List.concat_eq_append] at e
        rw [e, List.getLast?_concat] at ha
        exact ⟨y, by rw [e, Option.some.inj ha]⟩
    have hm : b ∈ p := by rw [← hs]; exact List.mem_append_left _ (List.mem_of_getLast? hb)
    rw [hz] at c1 hm
    have := c1.le_last b hm
    omega

/-- **C82.**  Words and pages are fed in chronological order, with not more satellites than places.  After some of the calls (`before`) the receiver reports data of a
satellite.  If until the end of the current subframe the words of the satellite do not change its data, then after any further calls (`after`): if nothing is reported, at least as
many subframes with words as the storage has places are later than the reported time; and if data is reported, it is of the same time or a later one and made of words received up to a
not earlier point; if that is in the same subframe, it is the same data with at least as many authentication bits. -/
theorem C82_reports_last (hS : S.Consistent) (ho : (Osnma.new S root0 pk0 slow : Osnma C).Fresh S)
    (h₁ : Logs S (Osnma.new S root0 pk0 slow) before log₁ o₁) (h₂ : Logs S (Osnma.new S root0 pk0 slow) (before ++ after) log₂ o₂)
    (hpages : (pagesOf (before ++ after)).Pairwise (fun a b => a.sub.abs ≤ b.sub.abs)) (hwords : Chronological (inavsOf (before ++ after)))
    (hfits : Fits S (inavsOf (before ++ after))) {kd : NavKind} {v : Svn} {d₁ : NavMessageData} (hd₁ : o₁.get S kd v = .ok (some d₁))
    (hst : ∀ p r l, inavsOf after = p ++ r → (inavsOf before).getLast? = some l → (∀ c ∈ p, c.gst.subframe = l.gst.subframe) →
      kd.expected (inavsOf before ++ p) v = kd.expected (inavsOf before) v)
    {res : Option NavMessageData} (hres : o₂.get S kd v = .ok res) :
    match res with
    | none => S.navDepth ≤ laterSubframes (inavsOf (before ++ after)) d₁.gst
    | some d₂ => d₁.gst.abs ≤ d₂.gst.abs ∧
        ∃ q q' l l', q <+: q' ∧ q <+: inavsOf before ∧ q' <+: inavsOf (before ++ after) ∧ q.getLast? = some l ∧ q'.getLast? = some l' ∧
          d₁.data = kd.expected q v ∧ d₂.data = kd.expected q' v ∧
          (l'.gst.subframe = l.gst.subframe → d₂.data = d₁.data ∧ d₁.authbits ≤ d₂.authbits) := by
  have hpb : (pagesOf before).Pairwise (fun a b => a.sub.abs ≤ b.sub.abs) := by
    unfold pagesOf at hpages ⊢
    rw [List.filterMap_append] at hpages
    exact (List.pairwise_append.1 hpages).1
  have hwb : Chronological (inavsOf before) := by rw [inavsOf_append'] at hwords; exact hwords.pre
  have hfb : Fits S (inavsOf before) := by
    obtain ⟨sats, f1, f2⟩ := hfits
    exact ⟨sats, f1, fun c hc => f2 c (by rw [inavsOf_append']; exact List.mem_append_left _ hc)⟩
  obtain ⟨rs₁, fs₁, m₁, get₁⟩ := C63_reference_machine hS ho h₁ hpb hwb hfb
  obtain ⟨rs₂, fs₂, m₂, get₂⟩ := C63_reference_machine hS ho h₂ hpages hwords hfits
  have g₁ := get₁ kd v _ hd₁
  have g₂ := get₂ kd v _ hres
  unfold authenticated at g₁ g₂
  cases hf : fs₁.find? (fun f => decide (40 ≤ f.auth kd v)) with
  | none => rw [hf] at g₁; cases g₁
  | some f =>
    rw [hf] at g₁
    simp only [Option.map_some, Option.some.injEq, Prod.mk.injEq] at g₁
    have hfm := List.mem_of_find?_eq_some hf
    have hf40 : 40 ≤ f.auth kd v := by have := List.find?_some hf; exact of_decide_eq_true this
    have hk := kept_run hS.nav_pos m₁ m₂ hwords hst hfm
    obtain ⟨r1, l1, e1, e2, e3⟩ := m₁.ends.1 f hfm
    have hdec := m₂.decreasing hwords
    cases res with
    | none =>
      cases hf' : fs₂.find? (fun f => decide (40 ≤ f.auth kd v)) with
      | some y => rw [hf'] at g₂; cases g₂
      | none =>
        dsimp only
        rcases hk with ⟨x, hx, _, _, _, hx4⟩ | ⟨k1, k2⟩
        · have := List.find?_eq_none.1 hf' x hx
          exact absurd (decide_eq_true (Nat.le_trans hf40 hx4)) this
        · have hle : d₁.gst.abs ≤ f.gst.abs := by rw [g₁.2.2]; omega
          rw [← k1, ← List.length_map (f := NavFrame.gst)]
          unfold laterSubframes
          refine length_le_of_nodup_subset _ _ ?_ fun x hx => ?_
          · refine List.Pairwise.imp ?_ hdec.1
            intro a b hab e
            rw [e] at hab; omega
          · obtain ⟨z, hz, rfl⟩ := List.mem_map.1 hx
            rw [List.mem_eraseDups, List.mem_filter, decide_eq_true_eq]
            obtain ⟨c, hc, e⟩ := hdec.2 z hz
            refine ⟨List.mem_map.2 ⟨c, hc, e.symm⟩, ?_⟩
            have := k2 z hz
            omega
    | some d₂ =>
      dsimp only
      cases hf' : fs₂.find? (fun f => decide (40 ≤ f.auth kd v)) with
      | none => rw [hf'] at g₂; cases g₂
      | some y =>
        rw [hf'] at g₂
        simp only [Option.map_some, Option.some.injEq, Prod.mk.injEq] at g₂
        obtain ⟨j, j1, j2, j3⟩ := find?_index hf'
        have hym := List.mem_of_getElem? j1
        obtain ⟨r2, l2, e4, e5, e6⟩ := m₂.ends.1 y hym
        have hp1 : f.words <+: inavsOf (before ++ after) := by
          rw [inavsOf_append']
          exact (show f.words <+: inavsOf before from ⟨r1, e1.symm⟩).trans (List.prefix_append _ _)
        have hp2 : y.words <+: inavsOf (before ++ after) := ⟨r2, e4.symm⟩
        -- later, or the same subframe
        have hcase : (y.gst = f.gst ∧ f.words <+: y.words ∧ y.data kd v = f.data kd v ∧ f.auth kd v ≤ y.auth kd v) ∨ f.gst.abs < y.gst.abs := by
          rcases hk with ⟨x, hx, x1, x2, x3, x4⟩ | ⟨_, k2⟩
          · obtain ⟨i, hi⟩ := List.getElem?_of_mem hx
            have hji : ¬ i < j := fun hlt => by
              have := j3 i x hlt hi
              rw [decide_eq_false_iff_not] at this
              exact this (Nat.le_trans hf40 x4)
            rcases Nat.lt_or_ge j i with hlt | hge
            · right
              have := List.pairwise_iff_getElem.1 ((List.pairwise_map (R := fun a b : Gst => b.abs < a.abs)).1 hdec.1) j i
                (List.getElem?_eq_some_iff.1 j1).1 (List.getElem?_eq_some_iff.1 hi).1 hlt
              rw [(List.getElem?_eq_some_iff.1 j1).2, (List.getElem?_eq_some_iff.1 hi).2, x1] at this
              exact this
            · obtain rfl : i = j := by omega
              rw [hi] at j1
              obtain rfl := Option.some.inj j1
              exact .inl ⟨x1, x2, x3, x4⟩
          · exact .inr (k2 y hym)
        have hpre : f.words <+: y.words := by
          rcases hcase with ⟨_, h, _⟩ | h
          · exact h
          · exact prefix_of_earlier hwords hp1 hp2 e2 e5 (by rw [← e3, ← e6]; exact h)
        refine ⟨?_, f.words, y.words, l1, l2, hpre, ⟨r1, e1.symm⟩, hp2, e2, e5, g₁.1, g₂.1, fun hl => ?_⟩
        · obtain ⟨s, hs⟩ := hpre
          rw [g₁.2.2, g₂.2.2, e3, e6]
          have hchr : Chronological (f.words ++ s) := by rw [hs]; rw [e4] at hwords; exact hwords.pre
          have := newest_append kd v hchr e2 (l' := l2) (by rw [hs]; exact e5)
          rw [hs] at this
          exact this
        · rcases hcase with ⟨_, _, h3, h4⟩ | h
          · rw [g₁.1, g₂.1, g₁.2.1, g₂.2.1]
            exact ⟨h3, h4⟩
          · rw [e3, e6, hl] at h
            omega

end Verif
