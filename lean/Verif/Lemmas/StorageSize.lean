import Verif.Spec.StorageSize
import Verif.Props.ReportedTime
import Verif.Props.KeyMachine
import Verif.Lemmas.Interleaving
import Verif.Lemmas.CompleteMack
import Verif.Lemmas.ColdStart
import Verif.Props.Switch

/-! # Machines with storages of different sizes -/

namespace Verif
open CollectSubframe (snoc_induction)

variable {S S' : Storage} {C : Crypto} {root0 : Option MerkleTreeNode} {pk0 : Option (PublicKey C)} {slow slow' : Bool}
  {hist : List Call} {log : List (KeyEvent C)}

/-! ## Frames lined up -/

/-- The frames `fs` are the first `n` of `fs'`, with authentication bits related by `R`. -/
structure Lined (R : Nat → Nat → Prop) (n : Nat) (fs fs' : List NavFrame) : Prop where
  len : fs.length = min n fs'.length
  get : ∀ {i : Nat} {f f' : NavFrame}, fs[i]? = some f → fs'[i]? = some f' → f.gst = f'.gst ∧ f.words = f'.words ∧ ∀ kd v, R (f.auth kd v) (f'.auth kd v)

variable {R : Nat → Nat → Prop} {n n' : Nat} {fs fs' : List NavFrame}

theorem Lined.ofLong (h : Lined R n fs fs') {i : Nat} {f' : NavFrame} (hf : fs'[i]? = some f') (hi : i < n) : ∃ f, fs[i]? = some f := by
  have := (List.getElem?_eq_some_iff.1 hf).1
  exact ⟨fs[i]'(by rw [h.len]; omega), List.getElem?_eq_getElem _⟩

theorem Lined.ofShort (h : Lined R n fs fs') {i : Nat} {f : NavFrame} (hf : fs[i]? = some f) : i < n ∧ ∃ f', fs'[i]? = some f' := by
  have := (List.getElem?_eq_some_iff.1 hf).1
  rw [h.len] at this
  exact ⟨by omega, fs'[i]'(by omega), List.getElem?_eq_getElem _⟩

theorem Lined.word (h : Lined R n fs fs') (hn : 1 ≤ n) (hnn : n ≤ n') (hR : R 0 0) (c : InavCall) :
    Lined R n (wordReceived n c fs) (wordReceived n' c fs') := by
  cases fs with
  | nil =>
    have : fs' = [] := by
      have := h.len
      simp only [List.length_nil] at this
      exact List.eq_nil_of_length_eq_zero (by omega)
    subst this
    unfold wordReceived
    refine ⟨by simp; omega, ?_⟩
    intro i f f' hf hf'
    rw [hf] at hf'
    obtain rfl := Option.some.inj hf'
    refine ⟨rfl, rfl, fun kd v => ?_⟩
    cases i with
    | zero => simp at hf; subst hf; exact hR
    | succ i => simp at hf
  | cons f fs =>
    cases fs' with
    | nil => have := h.len; simp at this
    | cons f' fs' =>
      have h0 := h.get (i := 0) rfl rfl
      have hl := h.len
      simp only [List.length_cons] at hl
      have hhead : ∀ kd v, R (if kd.expected (f.words ++ [c]) v = f.data kd v then f.auth kd v else 0)
          (if kd.expected (f'.words ++ [c]) v = f'.data kd v then f'.auth kd v else 0) := by
        intro kd v
        unfold NavFrame.data
        rw [h0.2.1]
        split
        · exact h0.2.2 kd v
        · exact hR
      unfold wordReceived
      dsimp only
      by_cases hg : f.gst = c.gst.subframe
      · rw [if_pos hg, if_pos (h0.1 ▸ hg)]
        refine ⟨by simp only [List.length_cons]; omega, ?_⟩
        intro i x x' hx hx'
        cases i with
        | zero =>
          simp only [List.getElem?_cons_zero, Option.some.injEq] at hx hx'
          subst hx; subst hx'
          exact ⟨rfl, by dsimp only; rw [h0.2.1], hhead⟩
        | succ i => exact h.get (i := i + 1) (by simpa using hx) (by simpa using hx')
      · rw [if_neg hg, if_neg (h0.1 ▸ hg)]
        refine ⟨?_, ?_⟩
        · simp only [List.length_cons, List.length_take]; omega
        intro i x x' hx hx'
        cases i with
        | zero =>
          simp only [List.getElem?_cons_zero, Option.some.injEq] at hx hx'
          subst hx; subst hx'
          exact ⟨rfl, by dsimp only; rw [h0.2.1], hhead⟩
        | succ i =>
          rw [List.getElem?_cons_succ, List.getElem?_take] at hx hx'
          split at hx
          · split at hx'
            · exact h.get hx hx'
            · cases hx'
          · cases hx

theorem Lined.checked (h : Lined R n fs fs') {us us' : NavKind → List TagUse}
    (hg : ∀ {i : Nat} {f f' : NavFrame}, fs[i]? = some f → fs'[i]? = some f' → ∀ kd v a b, R a b →
      R (min 65535 (a + gainFor C fs (us kd) kd v f)) (min 65535 (b + gainFor C fs' (us' kd) kd v f'))) :
    Lined R n (tagsChecked C us fs) (tagsChecked C us' fs') := by
  unfold tagsChecked
  refine ⟨by rw [List.length_map, List.length_map]; exact h.len, ?_⟩
  intro i x x' hx hx'
  rw [List.getElem?_map, Option.map_eq_some_iff] at hx hx'
  obtain ⟨f, hf, rfl⟩ := hx
  obtain ⟨f', hf', rfl⟩ := hx'
  have := h.get hf hf'
  exact ⟨this.1, this.2.1, fun kd v => hg hf hf' kd v _ _ (this.2.2 kd v)⟩

/-! ## Two machines -/

theorem machines_agree {rs rs' : List Received} {log log' : List (KeyEvent C)} (h : NavMachine root0 pk0 S slow hist rs log fs)
    (h' : NavMachine root0 pk0 S' slow' hist rs' log' fs') : rs = rs' ∧ log = log' := by
  obtain ⟨a, b⟩ := C63_contains_key_machine h
  obtain ⟨a', b'⟩ := C63_contains_key_machine h'
  obtain rfl := a.unique a'
  exact ⟨rfl, C62_machine_deterministic b b'⟩

theorem Move.word_inv {ps : List Page} {s t : MState C} {w : InavWord} {v : Svn} {g : Gst} {b : InavBand}
    (m : Move root0 pk0 S slow ps s (.inav w v g b) t) : t = ⟨s.rs, s.log, wordReceived S.navDepth ⟨w, v, g, b⟩ s.fs⟩ := by
  generalize hc : Call.inav w v g b = c at m
  cases m with
  | word c => cases hc; rfl
  | quiet p _ => cases hc
  | subframe p r _ _ _ _ _ => cases hc

theorem Move.page_inv {ps : List Page} {s t : MState C} {p : Page} (m : Move root0 pk0 S slow ps s (.osnma p.data p.svn p.gst) t) :
    (t = s ∧ (p.data.val.all (fun x => x == 0#8) = true ∨ ∀ r, ¬ CompletesSubframe ps p r)) ∨
    ∃ r l₁ l₂ fs', p.data.val.all (fun x => x == 0#8) = false ∧ CompletesSubframe ps p r ∧
      Exactly (fun e => ∃ data, CompletesDsmWith (s.rs.map Received.dsmCall) r.dsmCall data ∧ DsmMessage root0 pk0 s.log r data e) l₁ ∧
      Exactly (fun e => ∃ k, e = .tesla k ∧ TeslaMessage (s.log ++ l₁) r k) l₂ ∧
      KeyUsed S slow ((s.rs ++ [r]).map Received.mackCall) (s.log ++ l₁ ++ l₂) s.fs l₂ fs' ∧
      t = ⟨s.rs ++ [r], s.log ++ l₁ ++ l₂, fs'⟩ := by
  generalize hc : Call.osnma p.data p.svn p.gst = c at m
  cases m with
  | word c => cases hc
  | quiet q hq =>
    obtain rfl : p = q := by cases p; cases q; cases hc; rfl
    exact .inl ⟨rfl, hq⟩
  | @subframe l₁ l₂ fs' q r hz hr h₁ h₂ h₃ =>
    obtain rfl : p = q := by cases p; cases q; cases hc; rfl
    exact .inr ⟨r, l₁, l₂, fs', hz, hr, h₁, h₂, h₃, rfl⟩

/-- Two machines whose key steps keep the frames lined up have their frames lined up. -/
theorem lined_machines (hw : S.Within S') (hpos : 0 < S.navDepth) (hR : R 0 0) {rs rs' : List Received} {log log' : List (KeyEvent C)}
    (h : NavMachine root0 pk0 S slow hist rs log fs) (h' : NavMachine root0 pk0 S' slow' hist rs' log' fs')
    (hk : ∀ (h0 : List Call) (p : Page) (r : Received) (rest : List Call), hist = h0 ++ .osnma p.data p.svn p.gst :: rest →
      p.data.val.all (fun x => x == 0#8) = false → CompletesSubframe (pagesOf h0) p r →
      ∀ rs l gs gs', NavMachine root0 pk0 S slow h0 rs l gs → NavMachine root0 pk0 S' slow' h0 rs l gs' → Lined R S.navDepth gs gs' →
      ∀ lg k (t1 t10 t11 : Gst), k.gst = r.gst → KeyEvent.tesla k ∈ lg → (∃ rest, log = lg ++ rest) → t1.abs = k.gst.abs - 30 → t11.abs = k.gst.abs - 330 →
        Lined R S.navDepth (tagsChecked C (tagsDue S slow ((rs ++ [r]).map Received.mackCall) lg k t1 t10 t11) gs)
          (tagsChecked C (tagsDue S' slow' ((rs ++ [r]).map Received.mackCall) lg k t1 t10 t11) gs')) :
    Lined R S.navDepth fs fs' := by
  induction hist using snoc_induction generalizing rs rs' log log' fs fs' with
  | h0 =>
    have e : fs = [] := by
      generalize hh : ([] : List Call) = x at h
      cases h <;> first | rfl | simp at hh
    have e' : fs' = [] := by
      generalize hh : ([] : List Call) = x at h'
      cases h' <;> first | rfl | simp at hh
    subst e; subst e'
    exact ⟨by simp, by simp⟩
  | h1 hist c ih =>
    obtain ⟨s, hs, m⟩ := (machine_snoc (t := ⟨rs, log, fs⟩)).1 h
    obtain ⟨s', hs', m'⟩ := (machine_snoc (t := ⟨rs', log', fs'⟩)).1 h'
    have hag := machines_agree hs hs'
    have hag' := machines_agree h h'
    have ih' : ∀ lx, s.log ++ lx = log → Lined R S.navDepth s.fs s'.fs := by
      intro lx hlx
      refine ih hs hs' ?_
      intro h0 p r rest he hz hc rs1 l gs gs' m1 m2 hl lg k t1 t10 t11 e1 e2 e3 e4 e5
      obtain ⟨r2, e3⟩ := e3
      exact hk h0 p r (rest ++ [c]) (by rw [he, List.append_assoc]; rfl) hz hc rs1 l gs gs' m1 m2 hl lg k t1 t10 t11 e1 e2
        ⟨r2 ++ lx, by rw [← hlx, e3, List.append_assoc]⟩ e4 e5
    obtain ⟨sr, sl, sf⟩ := s
    obtain ⟨sr', sl', sf'⟩ := s'
    dsimp only at *
    obtain ⟨rfl, rfl⟩ := hag
    cases c with
    | inav w v g b =>
      have m := m.word_inv
      have m' := m'.word_inv
      cases m; cases m'
      exact (ih' [] (List.append_nil _)).word hpos hw.nav hR _
    | osnma d v g =>
      rcases Move.page_inv (p := ⟨d, v, g⟩) m with ⟨e, hq⟩ | ⟨r, l₁, l₂, gs, hz, hr, h₁, h₂, h₃, e⟩
      · rcases Move.page_inv (p := ⟨d, v, g⟩) m' with ⟨e', _⟩ | ⟨r', _, _, _, hz, hr, _⟩
        · cases e; cases e'
          exact ih' [] (List.append_nil _)
        · rcases hq with hq | hq
          · rw [hz] at hq; cases hq
          · exact absurd hr (hq r')
      · rcases Move.page_inv (p := ⟨d, v, g⟩) m' with ⟨_, hq⟩ | ⟨r', l₁', l₂', gs', hz', hr', h₁', h₂', h₃', e'⟩
        · rcases hq with hq | hq
          · rw [hz] at hq; cases hq
          · exact absurd hr (hq r)
        · cases e; cases e'
          have hL := ih' (l₁ ++ l₂) (by rw [List.append_assoc])
          have er := hr.unique hr'
          subst er
          have e1 : l₁ = l₁' := Exactly.unique (fun _ _ => by
            intro ⟨d, hd, he⟩ ⟨d', hd', he'⟩
            obtain rfl := hd.unique hd'
            exact DsmMessage.unique he he') h₁ h₁'
          subst e1
          have e2 : l₂ = l₂' := List.append_cancel_left hag'.2
          subst e2
          cases h₃ with
          | none =>
            cases h₃' with
            | none => exact hL
          | key k t1 t10 t11 h1 h10 h11 =>
            cases h₃' with
            | key _ t1' t10' t11' h1' h10' h11' =>
              obtain rfl : t1 = t1' := Gst.abs_inj (by omega)
              obtain rfl : t10 = t10' := Gst.abs_inj (by omega)
              obtain rfl : t11 = t11' := Gst.abs_inj (by omega)
              have hkg : k.gst = r.gst := by
                rcases h₂ with ⟨e, ⟨k', he, ht⟩, hl⟩ | ⟨hl, _⟩
                · obtain rfl := (List.singleton_inj.1 hl)
                  cases he
                  exact ht.gst
                · cases hl
              exact hk hist ⟨d, v, g⟩ r [] rfl hz hr sr sl sf sf' hs hs' hL _ k t1 t10 t11 hkg (by simp) ⟨[], by rw [List.append_nil]⟩ h1 h11

/-! ## More storage -/

theorem find?_take_mono {α : Type} {p : α → Bool} {l : List α} {a b : Nat} (hab : a ≤ b) {x : α} (h : (l.take a).find? p = some x) :
    (l.take b).find? p = some x := by
  have : l.take b = l.take a ++ (l.take b).drop a := by
    conv => lhs; rw [← List.take_append_drop a (l.take b)]
    rw [List.take_take, Nat.min_eq_left hab]
  rw [this, List.find?_append, h]
  rfl

theorem expectedMack_mono (hw : S.Within S') {macks : List MackCall} {v : Svn} {g : Gst} {x : MackMessage × NmaStatus}
    (h : expectedMack S macks v g = some x) : expectedMack S' macks v g = some x := by
  unfold expectedMack at h ⊢
  by_cases hm : g ∈ (recentGsts macks).take S.mackDepth
  · rw [if_pos hm, Option.map_eq_some_iff] at h
    obtain ⟨c, hc, rfl⟩ := h
    rw [if_pos ((List.take_subset_take_left _ hw.mack) hm), find?_take_mono hw.sats hc]
    rfl
  · rw [if_neg hm] at h; cases h

theorem acceptedTags_sub (hw : S.Within S') (macks : List MackCall) (k : Key) (ok : Key → Prop) (g : Gst) (adkd : Nat) (v : Svn) :
    (acceptedTags C S macks k ok g adkd v).Sublist (acceptedTags C S' macks k ok g adkd v) := by
  unfold acceptedTags
  cases h : expectedMack S macks v g with
  | none => exact List.nil_sublist _
  | some x => rw [expectedMack_mono hw h]; exact List.Sublist.refl _

theorem flatMap_sub {α β : Type} (l : List α) {f g : α → List β} (h : ∀ x, (f x).Sublist (g x)) : (l.flatMap f).Sublist (l.flatMap g) := by
  induction l with
  | nil => exact List.Sublist.refl _
  | cons a l ih => rw [List.flatMap_cons, List.flatMap_cons]; exact (h a).append ih

theorem tagsDue_sub (hw : S.Within S') (hsl : slow' = true → slow = true) (macks : List MackCall) (log : List (KeyEvent C)) (k : Key) (t1 t10 t11 : Gst)
    (kd : NavKind) : (tagsDue S slow macks log k t1 t10 t11 kd).Sublist (tagsDue S' slow' macks log k t1 t10 t11 kd) := by
  have hfast : ∀ a v, (if slow then [] else acceptedTags C S macks k (· = k) t1 a v).Sublist
      (if slow' then [] else acceptedTags C S' macks k (· = k) t1 a v) := by
    intro a v
    cases slow
    · cases slow'
      · exact acceptedTags_sub hw ..
      · cases hsl rfl
    · exact List.nil_sublist _
  cases kd <;> refine flatMap_sub _ fun v => ?_
  · exact (hfast 0 v).append (acceptedTags_sub hw ..)
  · exact hfast 4 v

theorem sum_map_mono {α : Type} {l l' : List α} (h : l.Sublist l') {f g : α → Nat} (hfg : ∀ x ∈ l, f x ≤ g x) : (l.map f).sum ≤ (l'.map g).sum := by
  induction h with
  | slnil => exact Nat.le_refl _
  | cons a _ ih => have := ih hfg; simp only [List.map_cons, List.sum_cons]; omega
  | cons_cons a _ ih =>
    have := ih (fun x hx => hfg x (List.mem_cons_of_mem _ hx))
    have := hfg a List.mem_cons_self
    simp only [List.map_cons, List.sum_cons]; omega

theorem gain_mono {us us' : List TagUse} (hs : us.Sublist us') {kd : NavKind} {v : Svn} {f f' : NavFrame}
    (hc : ∀ u ∈ us, u.CountsFor C fs kd v f → u.CountsFor C fs' kd v f') : gainFor C fs us kd v f ≤ gainFor C fs' us' kd v f' := by
  unfold gainFor
  refine sum_map_mono hs fun u hu => ?_
  by_cases h : u.CountsFor C fs kd v f
  · rw [if_pos h, if_pos (hc u hu h)]; exact Nat.le_refl _
  · rw [if_neg h]; exact Nat.zero_le _

theorem Lined.counts (h : Lined R n fs fs') {i : Nat} {f f' : NavFrame} (hf : fs[i]? = some f) (hf' : fs'[i]? = some f') {kd : NavKind} {v : Svn}
    {u : TagUse} (hc : u.CountsFor C fs kd v f) : u.CountsFor C fs' kd v f' := by
  obtain ⟨h1, h2, h3, h4, y, hy, h5, h6, h7, h8, h9⟩ := hc
  obtain ⟨e1, e2, _⟩ := h.get hf hf'
  obtain ⟨j, hj⟩ := List.getElem?_of_mem hy
  obtain ⟨_, y', hj'⟩ := h.ofShort hj
  obtain ⟨g1, g2, _⟩ := h.get hj hj'
  unfold NavFrame.data NavFrame.Has at *
  rw [e2] at h4 h8 h9
  rw [g1] at h5
  rw [g2] at h6 h7 h8
  exact ⟨h1, h2, h3, h4, y', List.mem_of_getElem? hj', h5, h6, h7, h8, h9⟩

/-- With more storage there are at least as many authentication bits. -/
theorem machines_mono (hw : S.Within S') (hsl : slow' = true → slow = true) (hpos : 0 < S.navDepth) {rs rs' : List Received} {log log' : List (KeyEvent C)}
    (h : NavMachine root0 pk0 S slow hist rs log fs) (h' : NavMachine root0 pk0 S' slow' hist rs' log' fs') :
    Lined (· ≤ ·) S.navDepth fs fs' := by
  refine lined_machines hw hpos (Nat.le_refl 0) h h' ?_
  intro h0 p r rest _ _ _ rs l gs gs' _ _ hL lg k t1 t10 t11 _ _ _ _ _
  refine hL.checked fun hf hf' kd v a b hab => ?_
  have := gain_mono (C := C) (tagsDue_sub hw hsl ((rs ++ [r]).map Received.mackCall) lg k t1 t10 t11 kd) (v := v) (kd := kd)
    (fun u _ => hL.counts hf hf' (u := u))
  omega

/-! ## Enough storage -/

/-- Each satellite completes the messages of a subframe once. -/
theorem received_once {ps : List Page} {rs : List Received} (h : ReceivedIn ps rs) (hchr : ps.Pairwise (fun p q => p.sub.abs ≤ q.sub.abs)) :
    (rs.map (fun r => (r.svn, r.gst))).Nodup ∧ (∀ r ∈ rs, ∃ p ∈ ps, p.svn = r.svn ∧ p.sub = r.gst) ∧
    ∀ r ∈ rs, (∃ p, ps.getLast? = some p ∧ p.sub = r.gst) →
      15 ≤ (inOrder 0 ((sinceSubframe ps r.gst).filter (fun q => q.svn == r.svn))).length := by
  have keep : ∀ {ps : List Page} {rs : List Received} {p : Page}, (∀ r ∈ rs, ∃ q ∈ ps, q.svn = r.svn ∧ q.sub = r.gst) →
      (∀ r ∈ rs, (∃ q, ps.getLast? = some q ∧ q.sub = r.gst) →
        15 ≤ (inOrder 0 ((sinceSubframe ps r.gst).filter (fun q => q.svn == r.svn))).length) →
      (ps ++ [p]).Pairwise (fun p q => p.sub.abs ≤ q.sub.abs) → ∀ r ∈ rs, p.sub = r.gst →
      15 ≤ (inOrder 0 ((sinceSubframe ps r.gst).filter (fun q => q.svn == r.svn))).length := by
    intro ps rs p h1 h2 h3 r hr hp
    refine h2 r hr ?_
    obtain ⟨q, hq, _, hqs⟩ := h1 r hr
    rcases List.eq_nil_or_concat ps with rfl | ⟨l, a, rfl⟩
    · cases hq
    rw [List.concat_eq_append] at *
    refine ⟨a, List.getLast?_concat, Gst.abs_inj ?_⟩
    have h4 := List.pairwise_append.1 h3
    have a1 : a.sub.abs ≤ p.sub.abs := h4.2.2 a (by simp) p (by simp)
    have a2 : q.sub.abs ≤ a.sub.abs := by
      rcases List.mem_append.1 hq with hq | hq
      · exact (List.pairwise_append.1 h4.1).2.2 q hq a (by simp)
      · rw [List.mem_singleton.1 hq]; exact Int.le_refl _
    rw [hqs] at a2
    rw [hp] at a1
    omega
  induction h with
  | nil => exact ⟨by simp, by simp, by simp⟩
  | @skip ps rs p h hn ih =>
    obtain ⟨i1, i2, i3⟩ := ih (List.pairwise_append.1 hchr).1
    refine ⟨i1, fun r hr => ?_, fun r hr hl => ?_⟩
    · obtain ⟨q, hq, e⟩ := i2 r hr
      exact ⟨q, by simp [hq], e⟩
    · obtain ⟨q, hq, hqs⟩ := hl
      rw [List.getLast?_concat] at hq
      obtain rfl := Option.some.inj hq
      have := keep i2 i3 hchr r hr hqs
      rw [sinceSubframe_append, if_pos hqs, List.filter_append]
      simp only [List.filter_cons, List.filter_nil]
      split
      · rw [inOrder_snoc]
        split
        · rw [List.length_append]; omega
        · exact this
      · rw [List.append_nil]; exact this
  | @got ps rs p r0 h hr0 ih =>
    obtain ⟨i1, i2, i3⟩ := ih (List.pairwise_append.1 hchr).1
    refine ⟨?_, fun r hr => ?_, fun r hr hl => ?_⟩
    · rw [List.map_append, List.nodup_append]
      refine ⟨i1, by simp, ?_⟩
      intro x hx y hy e
      subst e
      obtain ⟨r, hr, he⟩ := List.mem_map.1 hx
      simp only [List.map_cons, List.map_nil, List.mem_singleton] at hy
      rw [hy] at he
      have e1 : r.svn = r0.svn := congrArg Prod.fst he
      have e2 : r.gst = r0.gst := congrArg Prod.snd he
      have := keep i2 i3 hchr r hr (hr0.gst.symm.trans e2.symm)
      have hw := hr0.words
      rw [e1, e2, hr0.svn, hr0.gst] at this
      omega
    · rcases List.mem_append.1 hr with hr | hr
      · obtain ⟨q, hq, e⟩ := i2 r hr
        exact ⟨q, by simp [hq], e⟩
      · rw [List.mem_singleton.1 hr]
        exact ⟨p, by simp, hr0.svn.symm, hr0.gst.symm⟩
    · obtain ⟨q, hq, hqs⟩ := hl
      rw [List.getLast?_concat] at hq
      obtain rfl := Option.some.inj hq
      rw [sinceSubframe_append, if_pos hqs, List.filter_append]
      rcases List.mem_append.1 hr with hr | hr
      · have := keep i2 i3 hchr r hr hqs
        simp only [List.filter_cons, List.filter_nil]
        split
        · rw [inOrder_snoc]
          split
          · rw [List.length_append]; omega
          · exact this
        · rw [List.append_nil]; exact this
      · rw [List.mem_singleton.1 hr]
        rw [hr0.gst, hr0.svn]
        simp only [List.filter_cons, List.filter_nil, beq_self_eq_true, if_true]
        rw [inOrder_snoc, hr0.words, hr0.last, if_pos rfl, List.length_append, hr0.words]
        simp

theorem expectedMack_enough (hw : S.Within S') {ps : List Page} {rs : List Received} (hr : ReceivedIn ps rs)
    (hchr : ps.Pairwise (fun p q => p.sub.abs ≤ q.sub.abs))
    (hfit : ∀ g : Gst, ∃ sats : List Svn, sats.length ≤ S.numSats ∧ ∀ p ∈ ps, p.sub = g → p.svn ∈ sats) {top : Int}
    (htop : ∀ r ∈ rs, r.gst.abs ≤ top) {g : Gst} (hg : top - g.abs < 30 * S.mackDepth) (v : Svn) :
    expectedMack S (rs.map Received.mackCall) v g = expectedMack S' (rs.map Received.mackCall) v g := by
  obtain ⟨r1, r2, _⟩ := received_once hr hchr
  have hmono : ((rs.map Received.mackCall).map (·.gst)).Pairwise (fun a b => a.abs ≤ b.abs) := by
    have := (List.pairwise_map (f := Page.sub) (R := fun a b : Gst => a.abs ≤ b.abs)).2 hchr
    rw [List.map_map]
    exact this.sublist (received_sublist hr)
  have hdec : (recentGsts (rs.map Received.mackCall)).Pairwise (fun a b => b.abs < a.abs) := by
    unfold recentGsts
    exact eraseDups_decreasing (List.pairwise_reverse.2 hmono)
  have hmem : ∀ x ∈ recentGsts (rs.map Received.mackCall), ∃ r ∈ rs, r.gst = x := by
    intro x hx
    unfold recentGsts at hx
    rw [List.mem_eraseDups, List.mem_reverse, List.map_map] at hx
    obtain ⟨r, hr, rfl⟩ := List.mem_map.1 hx
    exact ⟨r, hr, rfl⟩
  have hlen : ((rs.map Received.mackCall).filter (fun c => c.gst == g)).length ≤ S.numSats := by
    obtain ⟨sats, l1, l2⟩ := hfit g
    have hn : (((rs.map Received.mackCall).filter (fun c => c.gst == g)).map (·.svn)).Nodup := by
      rw [List.filter_map, List.map_map]
      have h1 := r1.sublist ((List.filter_sublist (p := fun r : Received => r.gst == g) (l := rs)).map (fun r => (r.svn, r.gst)))
      rw [List.nodup_iff_pairwise_ne, List.pairwise_map] at h1 ⊢
      refine List.Pairwise.imp_of_mem ?_ h1
      intro a b ha hb hab he
      refine hab ?_
      rw [Prod.mk.injEq]
      refine ⟨he, ?_⟩
      have ea : a.gst = g := beq_iff_eq.1 (List.mem_filter.1 ha).2
      have eb : b.gst = g := beq_iff_eq.1 (List.mem_filter.1 hb).2
      rw [ea, eb]
    have := length_le_of_nodup (m := sats) hn (by
      intro x hx
      obtain ⟨c, hc, rfl⟩ := List.mem_map.1 hx
      rw [List.mem_filter] at hc
      obtain ⟨r, hr, rfl⟩ := List.mem_map.1 hc.1
      obtain ⟨p, hp, e1, e2⟩ := r2 r hr
      have := l2 p hp (e2.trans (beq_iff_eq.1 hc.2))
      rw [e1] at this; exact this)
    rw [List.length_map] at this
    omega
  unfold expectedMack
  rw [List.take_of_length_le hlen, List.take_of_length_le (Nat.le_trans hlen hw.sats)]
  have hiff : g ∈ (recentGsts (rs.map Received.mackCall)).take S.mackDepth ↔ g ∈ (recentGsts (rs.map Received.mackCall)).take S'.mackDepth := by
    constructor
    · exact fun h => List.take_subset_take_left _ hw.mack h
    · intro h
      obtain ⟨i, hi⟩ := List.getElem?_of_mem (List.mem_of_mem_take h)
      have := decreasing_index hdec (fun x hx => by
        obtain ⟨r, hr, rfl⟩ := hmem x hx
        obtain ⟨p, _, _, e⟩ := r2 r hr
        rw [← e]; exact Gst.subframe_aligned _) (top := top) (fun x hx => by obtain ⟨r, hr, rfl⟩ := hmem x hx; exact htop r hr) hi
      have hlt : i < S.mackDepth := by omega
      refine List.mem_of_getElem? (i := i) ?_
      rw [List.getElem?_take, if_pos hlt]
      exact hi
  by_cases h : g ∈ (recentGsts (rs.map Received.mackCall)).take S.mackDepth
  · rw [if_pos h, if_pos (hiff.1 h)]
  · rw [if_neg h, if_neg (fun x => h (hiff.2 x))]

/-- The frames of the machine are in order. -/
theorem NavMachine.decreasing {rs : List Received} (h : NavMachine root0 pk0 S slow hist rs log fs) (hc : Chronological (inavsOf hist)) :
    (fs.map NavFrame.gst).Pairwise (fun a b => b.abs < a.abs) ∧ ∀ f ∈ fs, ∃ c ∈ inavsOf hist, f.gst = c.gst.subframe := by
  have hmem : ∀ f ∈ fs, ∃ c ∈ inavsOf hist, f.gst = c.gst.subframe := by
    intro f hf
    obtain ⟨r, l, e1, e2, e3⟩ := h.ends.1 f hf
    exact ⟨l, by rw [e1]; exact List.mem_append_left _ (List.mem_of_getLast? e2), e3⟩
  refine ⟨?_, hmem⟩
  clear hmem
  induction h with
  | nil => simp
  | @word hist rs log fs c h ih =>
    rw [inavsOf_inav] at hc
    have ih := ih hc.init
    cases fs with
    | nil => simp [wordReceived]
    | cons f fs =>
      obtain ⟨r, l, e1, e2, e3⟩ := h.ends.1 f (by simp)
      have hle : f.gst.abs ≤ c.gst.subframe.abs := by
        rw [e3]
        exact hc.le_last l (by rw [e1]; simp [List.mem_of_getLast? e2])
      rw [List.map_cons, List.pairwise_cons] at ih
      unfold wordReceived
      dsimp only
      by_cases hg : f.gst = c.gst.subframe
      · rw [if_pos hg, List.map_cons, List.pairwise_cons]
        exact ⟨fun x hx => by rw [← hg]; exact ih.1 x hx, ih.2⟩
      · rw [if_neg hg, List.map_cons, List.pairwise_cons]
        have hlt : f.gst.abs < c.gst.subframe.abs := by
          have : f.gst.abs ≠ c.gst.subframe.abs := fun e => hg (Gst.abs_inj e)
          omega
        refine ⟨fun x hx => ?_, ?_⟩
        · rw [List.map_take] at hx
          have := List.mem_of_mem_take hx
          rw [List.map_cons, List.mem_cons] at this
          rcases this with rfl | hx
          · exact hlt
          · have := ih.1 x hx; dsimp only; omega
        · rw [List.map_take]
          refine List.Pairwise.sublist (List.take_sublist _ _) ?_
          rw [List.map_cons, List.pairwise_cons]
          exact ih
  | zero p _ hz ih => rw [inavsOf_osnma] at hc; exact ih hc
  | page p _ hz hn ih => rw [inavsOf_osnma] at hc; exact ih hc
  | subframe p r _ hz hr h₁ h₂ h₃ ih =>
    rw [inavsOf_osnma] at hc
    cases h₃ with
    | none => exact ih hc
    | key k t1 t10 t11 h1 h10 h11 =>
      have := ih hc
      unfold tagsChecked
      rw [List.map_map]
      exact this

theorem acceptedTags_exact {macks : List MackCall} {k : Key} {ok : Key → Prop} {g : Gst} {adkd : Nat} {v : Svn}
    (h : expectedMack S macks v g = expectedMack S' macks v g) :
    acceptedTags C S macks k ok g adkd v = acceptedTags C S' macks k ok g adkd v := by
  unfold acceptedTags
  rw [h]

theorem acceptedTags_dummy {macks : List MackCall} {k : Key} {ok : Key → Prop} {g : Gst} {v : Svn} {a : Nat}
    (h : ∀ c ∈ macks, ∀ t ∈ mackTags c.mack k.chain c.svn, t.adkd = a → t.cop = 0) : ∀ u ∈ acceptedTags C S macks k ok g a v, u.tag.cop = 0 := by
  unfold acceptedTags
  cases he : expectedMack S macks v g with
  | none => intro u hu; cases hu
  | some x =>
    obtain ⟨msg, st⟩ := x
    dsimp only
    split
    · unfold expectedMack at he
      split at he
      · obtain ⟨c, hc, e⟩ := Option.map_eq_some_iff.1 he
        have hcm := (List.mem_filter.1 (List.mem_of_mem_take (List.mem_of_find?_eq_some hc))).1
        have hv : c.svn = v := by have := List.find?_some hc; exact beq_iff_eq.1 this
        cases e
        intro u hu
        obtain ⟨t, ht, rfl⟩ := List.mem_map.1 hu
        rw [List.mem_filter] at ht
        rw [← hv] at ht
        exact h c hcm t ht.1 (beq_iff_eq.1 ht.2)
      · cases he
    · intro u hu; cases hu

/-- The tags that are not dummy tags. -/
def notDummy (us : List TagUse) : List TagUse := us.filter (fun u => u.tag.cop != 0)

theorem notDummy_nil {us : List TagUse} (h : ∀ u ∈ us, u.tag.cop = 0) : notDummy us = [] := by
  unfold notDummy
  rw [List.filter_eq_nil_iff]
  intro u hu
  rw [h u hu]
  simp

theorem gain_notDummy (us : List TagUse) (kd : NavKind) (v : Svn) (f : NavFrame) : gainFor C fs (notDummy us) kd v f = gainFor C fs us kd v f := by
  unfold gainFor notDummy
  induction us with
  | nil => rfl
  | cons u us ih =>
    rw [List.filter_cons]
    by_cases hc : u.tag.cop = 0
    · rw [if_neg (by rw [hc]; simp), ih, List.map_cons, List.sum_cons, if_neg (fun h => h.2.1 hc), Nat.zero_add]
    · rw [if_pos (bne_iff_ne.2 hc), List.map_cons, List.sum_cons, ih, List.map_cons, List.sum_cons]

theorem notDummy_flatMap (l : List Svn) {f g : Svn → List TagUse} (h : ∀ v, notDummy (f v) = notDummy (g v)) :
    notDummy (l.flatMap f) = notDummy (l.flatMap g) := by
  induction l with
  | nil => rfl
  | cons a l ih =>
    have := h a
    unfold notDummy at *
    rw [List.flatMap_cons, List.flatMap_cons, List.filter_append, List.filter_append, this, ih]

theorem acceptedTags_gst {macks : List MackCall} {k : Key} {ok : Key → Prop} {g : Gst} {v : Svn} {a : Nat} {u : TagUse}
    (h : u ∈ acceptedTags C S macks k ok g a v) : u.gst = g := by
  unfold acceptedTags at h
  split at h
  · cases h
  · split at h
    · obtain ⟨t, _, rfl⟩ := List.mem_map.1 h
      rfl
    · cases h

theorem tagsDue_gst {macks : List MackCall} {lg : List (KeyEvent C)} {k : Key} {t1 t10 t11 : Gst} {kd : NavKind} {u : TagUse}
    (h : u ∈ tagsDue S slow macks lg k t1 t10 t11 kd) : u.gst = t1 ∨ u.gst = t11 ∧ ∃ v, u ∈ acceptedTags C S macks k (PastKey lg t10) t11 12 v := by
  cases kd <;> obtain ⟨v, _, hv⟩ := List.mem_flatMap.1 h
  · rcases List.mem_append.1 hv with hv | hv
    · cases slow
      · exact .inl (acceptedTags_gst hv)
      · cases hv
    · exact .inr ⟨acceptedTags_gst hv, v, hv⟩
  · cases slow
    · exact .inl (acceptedTags_gst hv)
    · cases hv

theorem inavsOf_append' (a b : List Call) : inavsOf (a ++ b) = inavsOf a ++ inavsOf b := by unfold inavsOf; exact List.filterMap_append

/-- With enough storage, more makes no difference to the subframes that are kept. -/
theorem machines_enough (hw : S.Within S') (hpos : 0 < S.navDepth) {rs rs' : List Received} {log log' : List (KeyEvent C)}
    (hord : CallsInOrder hist) (hfit : PagesFit S hist) (hen : S.Enough hist log)
    (h : NavMachine root0 pk0 S slow hist rs log fs) (h' : NavMachine root0 pk0 S' slow hist rs' log' fs') :
    Lined (· = ·) S.navDepth fs fs' := by
  refine lined_machines hw hpos rfl h h' ?_
  intro h0 p r rest he hz hcs rs0 l gs gs' m m' hL lg k t1 t10 t11 hkg hkl hlg e1 e11
  have hsplit : hist = (h0 ++ [.osnma p.data p.svn p.gst]) ++ rest := by rw [he, List.append_assoc]; rfl
  have ho1 : CallsInOrder (h0 ++ [.osnma p.data p.svn p.gst]) := by
    have := hord
    rw [hsplit] at this
    exact (List.pairwise_append.1 this).1
  have w1 : Chronological (inavsOf h0) := CallsInOrder.words (List.pairwise_append.1 ho1).1
  have w3 := ho1.pages
  have w2 : ∀ c ∈ inavsOf h0, c.gst.subframe.abs ≤ p.gst.subframe.abs := by
    intro c hc
    unfold inavsOf at hc
    obtain ⟨x, hx, hxc⟩ := List.mem_filterMap.1 hc
    have := (List.pairwise_append.1 ho1).2.2 x hx _ (List.mem_singleton.2 rfl)
    cases x with
    | inav w v g b => simp at hxc; subst hxc; exact this
    | osnma d v g => simp at hxc
  have hps : pagesOf (h0 ++ [.osnma p.data p.svn p.gst]) = pagesOf h0 ++ [p] := pagesOf_page h0 p.svn p.gst hz
  have hrec : ReceivedIn (pagesOf (h0 ++ [.osnma p.data p.svn p.gst])) (rs0 ++ [r]) := by
    rw [hps]; exact .got p r (C63_contains_key_machine m).1 hcs
  have hrg : r.gst = p.sub := hcs.gst
  have htop : ∀ x ∈ rs0 ++ [r], x.gst.abs ≤ k.gst.abs := by
    intro x hx
    obtain ⟨_, r2, _⟩ := received_once hrec w3
    obtain ⟨q, hq, _, e⟩ := r2 x hx
    rw [hkg, hrg, ← e]
    rw [hps] at hq w3
    rcases List.mem_append.1 hq with hq | hq
    · exact (List.pairwise_append.1 w3).2.2 q hq p (by simp)
    · rw [List.mem_singleton.1 hq]; exact Int.le_refl _
  have hfit0 : ∀ g : Gst, ∃ sats : List Svn, sats.length ≤ S.numSats ∧
      ∀ q ∈ pagesOf (h0 ++ [.osnma p.data p.svn p.gst]), q.sub = g → q.svn ∈ sats := by
    intro g
    obtain ⟨sats, l1, l2⟩ := hfit g
    refine ⟨sats, l1, fun q hq => l2 q ?_⟩
    rw [hsplit, pagesOf_append]
    exact List.mem_append_left _ hq
  have hmack := fun {g : Gst} (hg : k.gst.abs - g.abs < 30 * S.mackDepth) v => expectedMack_enough hw hrec w3 hfit0 htop hg v
  have hm2 : 2 ≤ S.mackDepth ∧ 3 ≤ S.navDepth := by
    rcases hen with h | h
    · omega
    · omega
  have hslow : (∀ v, notDummy (acceptedTags C S ((rs0 ++ [r]).map Received.mackCall) k (PastKey lg t10) t11 12 v) =
        notDummy (acceptedTags C S' ((rs0 ++ [r]).map Received.mackCall) k (PastKey lg t10) t11 12 v)) ∧
      (13 ≤ S.navDepth ∨ ∀ v, ∀ u ∈ acceptedTags C S' ((rs0 ++ [r]).map Received.mackCall) k (PastKey lg t10) t11 12 v, u.tag.cop = 0) := by
    rcases hen with ⟨d1, d2⟩ | ⟨_, _, hno⟩
    · exact ⟨fun v => by rw [acceptedTags_exact (hmack (by omega) v)], .inl d2⟩
    · have hnone : ∀ c ∈ (rs0 ++ [r]).map Received.mackCall, ∀ t ∈ mackTags c.mack k.chain c.svn, t.adkd = 12 → t.cop = 0 := by
        intro c hc t ht
        obtain ⟨x, hx, rfl⟩ := List.mem_map.1 hc
        have q1 := (C63_contains_key_machine h).1
        have q2 := q1
        rw [hsplit, pagesOf_append] at q2
        obtain ⟨ra, rb, q3, rfl⟩ := q2.prefix
        obtain rfl := q3.unique hrec
        refine hno _ q1 x (List.mem_append_left _ hx) k ?_ t ht
        obtain ⟨lr, rfl⟩ := hlg
        exact List.mem_append_left _ hkl
      exact ⟨fun v => by rw [notDummy_nil (acceptedTags_dummy hnone), notDummy_nil (acceptedTags_dummy hnone)], .inr fun v => acceptedTags_dummy hnone⟩
  have hdue : ∀ kd, notDummy (tagsDue S slow ((rs0 ++ [r]).map Received.mackCall) lg k t1 t10 t11 kd) =
      notDummy (tagsDue S' slow ((rs0 ++ [r]).map Received.mackCall) lg k t1 t10 t11 kd) := by
    intro kd
    have e0 : ∀ a v, acceptedTags C S ((rs0 ++ [r]).map Received.mackCall) k (· = k) t1 a v =
        acceptedTags C S' ((rs0 ++ [r]).map Received.mackCall) k (· = k) t1 a v := fun a v => acceptedTags_exact (hmack (by omega) v)
    cases kd
    · refine notDummy_flatMap _ fun v => ?_
      have := hslow.1 v
      unfold notDummy at *
      rw [List.filter_append, List.filter_append, this, e0]
    · refine notDummy_flatMap _ fun v => ?_
      rw [e0]
  have hnear : ∀ kd, ∀ u ∈ notDummy (tagsDue S' slow ((rs0 ++ [r]).map Received.mackCall) lg k t1 t10 t11 kd),
      k.gst.abs - u.gst.abs + 30 < 30 * S.navDepth := by
    intro kd u hu
    unfold notDummy at hu
    rw [List.mem_filter] at hu
    rcases tagsDue_gst hu.1 with hg | ⟨hg, v, hv⟩
    · rw [hg]; omega
    · rcases hslow.2 with h | h
      · rw [hg]; omega
      · have := hu.2
        rw [h v u hv] at this
        cases this
  have hdec := m'.decreasing w1
  refine hL.checked fun {i f f'} hf hf' kd v a b hab => ?_
  have hback : ∀ u ∈ notDummy (tagsDue S' slow ((rs0 ++ [r]).map Received.mackCall) lg k t1 t10 t11 kd),
      u.CountsFor C gs' kd v f' → u.CountsFor C gs kd v f := by
    intro u hu hc
    obtain ⟨h1, h2, h3, h4, y, hy, h5, h6, h7, h8, h9⟩ := hc
    obtain ⟨g1, g2, _⟩ := hL.get hf hf'
    obtain ⟨j, hj⟩ := List.getElem?_of_mem hy
    have hidx := decreasing_index hdec.1 (fun x hx => by
        obtain ⟨z, hz, rfl⟩ := List.mem_map.1 hx
        obtain ⟨c, _, e⟩ := hdec.2 z hz
        rw [e]; exact Gst.subframe_aligned _) (top := k.gst.abs) (fun x hx => by
        obtain ⟨z, hz, rfl⟩ := List.mem_map.1 hx
        obtain ⟨c, hc, e⟩ := hdec.2 z hz
        rw [e, hkg, hrg]; exact w2 c hc) (i := j) (g := y.gst) (by rw [List.getElem?_map, hj]; rfl)
    have hn := hnear kd u hu
    have hjn : j < S.navDepth := by omega
    obtain ⟨y', hj'⟩ := hL.ofLong hj hjn
    obtain ⟨k1, k2, _⟩ := hL.get hj' hj
    unfold NavFrame.data NavFrame.Has at *
    rw [← g2] at h4 h8 h9
    rw [← k1] at h5
    rw [← k2] at h6 h7 h8
    exact ⟨h1, h2, h3, h4, y', List.mem_of_getElem? hj', h5, h6, h7, h8, h9⟩
  rw [← gain_notDummy, ← gain_notDummy (fs := gs'), hdue kd]
  have a1 := gain_mono (C := C) (List.Sublist.refl (notDummy (tagsDue S' slow ((rs0 ++ [r]).map Received.mackCall) lg k t1 t10 t11 kd))) (v := v) (kd := kd)
    (fun u _ => hL.counts hf hf' (u := u))
  have a2 := gain_mono (C := C) (List.Sublist.refl (notDummy (tagsDue S' slow ((rs0 ++ [r]).map Received.mackCall) lg k t1 t10 t11 kd))) (v := v) (kd := kd)
    hback
  rw [hab, Nat.le_antisymm a1 a2]

end Verif
