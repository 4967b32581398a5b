import Verif.Lemmas.MoreHeardKeys

/-! # Lemmas: two machines, one of which hears more, step by step -/

namespace Verif
open CollectSubframe (snoc_induction)

variable {S : Storage} {C : Crypto} {root0 : Option MerkleTreeNode} {pk0 : Option (PublicKey C)} {slow : Bool}
  {hist hist' : List Call} {log log' log₁ : List (KeyEvent C)} {rs rs' rs₁ rs₂ rs₂' : List Received} {fs fs' : List NavFrame} {b : Broadcast C} {G : Svn → Prop}

/-- The tags `us` are those checked with the key `k` when it was accepted, after some of the messages `rs'`. -/
structure Covers (S : Storage) (slow : Bool) (rs' : List Received) (k : Key) (us : NavKind → List TagUse) (rs0 : List Received) (lg : List (KeyEvent C))
    (t1 t10 t11 : Gst) : Prop where
  tags : us = tagsDue S slow (rs0.map Received.mackCall) lg k t1 t10 t11
  h1 : t1.abs = k.gst.abs - 30
  h10 : t10.abs = k.gst.abs - 300
  h11 : t11.abs = k.gst.abs - 330
  part : rs0 <+: rs'
  now : ∃ r ∈ rs0, r.gst = k.gst
  source : sourceKey lg t10 = some k

/-- The second machine is ahead of the first one: it has at least as many authentication bits, also counting what the first one will get from the tags of a key
that it has not accepted yet. -/
structure Ahead (S : Storage) (slow : Bool) (n : Nat) (hist' : List Call) (log : List (KeyEvent C)) (fs : List NavFrame)
    (rs' : List Received) (log' : List (KeyEvent C)) (fs' : List NavFrame) : Prop where
  lined : Lined (· ≤ ·) n fs fs'
  pending : ∀ k, KeyEvent.tesla k ∈ log' → KeyEvent.tesla k ∉ log → (∀ c ∈ hist', c.gst.subframe.abs ≤ k.gst.abs) →
    ∃ us rs0 lg t1 t10 t11, Covers (C := C) S slow rs' k us rs0 lg t1 t10 t11 ∧ Lined (· ≤ ·) n (tagsChecked C us fs) fs'

theorem Covers.longer {k : Key} {us : NavKind → List TagUse} {rs0 : List Received} {lg : List (KeyEvent C)} {t1 t10 t11 : Gst}
    (h : Covers S slow rs' k us rs0 lg t1 t10 t11) (l : List Received) : Covers S slow (rs' ++ l) k us rs0 lg t1 t10 t11 :=
  ⟨h.tags, h.h1, h.h10, h.h11, h.part.trans (List.prefix_append _ _), h.now, h.source⟩

theorem Covers.times {k : Key} {us : NavKind → List TagUse} {rs0 : List Received} {lg : List (KeyEvent C)} {t1 t10 t11 : Gst}
    (h : Covers S slow rs' k us rs0 lg t1 t10 t11) (kd : NavKind) (u : TagUse) (hu : u ∈ us kd) : u.gst.abs - 30 < k.gst.abs := by
  rw [h.tags] at hu
  rcases tagsDue_gst hu with hg | ⟨hg, _⟩
  · rw [hg, h.h1]; omega
  · rw [hg, h.h11]; omega

/-- A page that only the second machine receives. -/
theorem Ahead.extra {n : Nat} {s t : MState C} {p : Page} {ps : List Page} (h : Ahead S slow n hist' log fs s.rs s.log s.fs)
    (hcap : ∀ x ∈ fs, ∀ kd v, x.auth kd v ≤ 65535) (m : Move root0 pk0 S slow ps s (.osnma p.data p.svn p.gst) t)
    (hsrc : ∀ r l₁ k (t10 : Gst), p.data.val.all (fun x => x == 0#8) = false → TeslaMessage (s.log ++ l₁) r k → r.gst = p.sub → t.log = s.log ++ l₁ ++ [.tesla k] → t10.abs = k.gst.abs - 300 → sourceKey t.log t10 = some k) :
    Ahead S slow n (hist' ++ [.osnma p.data p.svn p.gst]) log fs t.rs t.log t.fs := by
  have hmem : ∀ {k : Key}, (∀ c ∈ hist' ++ [.osnma p.data p.svn p.gst], c.gst.subframe.abs ≤ k.gst.abs) → ∀ c ∈ hist', c.gst.subframe.abs ≤ k.gst.abs :=
    fun h c hc => h c (List.mem_append_left _ hc)
  rcases m.page_inv with ⟨rfl, _⟩ | ⟨r, l₁, l₂, fs', hz, hr, h₁, h₂, h₃, rfl⟩
  · exact ⟨h.lined, fun k h1 h2 h3 => h.pending k h1 h2 (hmem h3)⟩
  · dsimp only at hsrc ⊢
    have hl₁ : ∀ k, KeyEvent.tesla k ∉ l₁ := by
      intro k hk
      rcases h₁ with ⟨e, ⟨data, _, hm⟩, rfl⟩ | ⟨rfl, _⟩
      · rw [List.mem_singleton] at hk
        subst hk
        cases hm
      · cases hk
    cases h₃ with
    | none =>
      refine ⟨h.lined, fun k h1 h2 h3 => ?_⟩
      rw [List.append_nil] at h1
      rcases List.mem_append.1 h1 with h1 | h1
      · obtain ⟨us, rs0, lg, t1, t10, t11, c1, c2⟩ := h.pending k h1 h2 (hmem h3)
        exact ⟨us, rs0, lg, t1, t10, t11, c1.longer _, c2⟩
      · exact absurd h1 (hl₁ k)
    | key k t1 t10 t11 e1 e10 e11 =>
      have hm : TeslaMessage (s.log ++ l₁) r k := by
        rcases h₂ with ⟨e, ⟨k', he, ht⟩, hl⟩ | ⟨hl, _⟩
        · obtain rfl := (List.singleton_inj.1 hl)
          cases he
          exact ht
        · cases hl
      refine ⟨h.lined.more hcap _, fun k' h1 h2 h3 => ?_⟩
      rcases List.mem_append.1 h1 with h1 | h1
      · rcases List.mem_append.1 h1 with h1 | h1
        · obtain ⟨us, rs0, lg, u1, u10, u11, c1, c2⟩ := h.pending k' h1 h2 (hmem h3)
          exact ⟨us, rs0, lg, u1, u10, u11, c1.longer _, c2.more (capped_checked _ _) _⟩
        · exact absurd h1 (hl₁ k')
      · rw [List.mem_singleton] at h1
        cases h1
        refine ⟨_, s.rs ++ [r], _, t1, t10, t11, ⟨rfl, e1, e10, e11, List.prefix_refl _, ⟨r, by simp, hm.gst.symm⟩, hsrc r l₁ k t10 hz hm hr.gst rfl e10⟩, ?_⟩
        refine h.lined.checked fun hf hf' kd v a c hac => ?_
        have := gain_mono (C := C) (List.Sublist.refl (tagsDue S slow ((s.rs ++ [r]).map Received.mackCall) (s.log ++ l₁ ++ [.tesla k]) k t1 t10 t11 kd))
          (v := v) (kd := kd) (fun u _ => h.lined.counts hf hf' (u := u))
        omega

/-- A page that the first machine receives after the second one. -/
theorem Ahead.follow {n : Nat} {s t : MState C} {p : Page} {ps : List Page} (h : Ahead S slow n hist' s.log s.fs rs' log' fs')
    (m : Move root0 pk0 S slow ps s (.osnma p.data p.svn p.gst) t)
    (hkey : ∀ r l₁ k, p.data.val.all (fun x => x == 0#8) = false → CompletesSubframe ps p r → TeslaMessage (s.log ++ l₁) r k → t.log = s.log ++ l₁ ++ [.tesla k] → t.rs = s.rs ++ [r] →
      KeyEvent.tesla k ∈ log' ∧ KeyEvent.tesla k ∉ s.log ∧ (∀ c ∈ hist', c.gst.subframe.abs ≤ k.gst.abs) ∧
      (∀ k', KeyEvent.tesla k' ∈ log' → KeyEvent.tesla k' ∉ s.log → (∀ c ∈ hist', c.gst.subframe.abs ≤ k'.gst.abs) → k' = k) ∧
      ∀ us rs0 lg t1 t10 t11, Covers (C := C) S slow rs' k us rs0 lg t1 t10 t11 →
        ∀ kd, (notDummy (tagsDue S slow ((s.rs ++ [r]).map Received.mackCall) t.log k t1 t10 t11 kd)).Sublist (us kd)) :
    Ahead S slow n hist' t.log t.fs rs' log' fs' := by
  rcases m.page_inv with ⟨rfl, _⟩ | ⟨r, l₁, l₂, gs, hz, hr, h₁, h₂, h₃, rfl⟩
  · exact h
  · dsimp only at hkey ⊢
    cases h₃ with
    | none =>
      refine ⟨h.lined, fun k h1 h2 h3 => h.pending k h1 (fun hc => h2 ?_) h3⟩
      exact List.mem_append_left _ (List.mem_append_left _ hc)
    | key k t1 t10 t11 e1 e10 e11 =>
      have hm : TeslaMessage (s.log ++ l₁) r k := by
        rcases h₂ with ⟨e, ⟨k', he, ht⟩, hl⟩ | ⟨hl, _⟩
        · obtain rfl := (List.singleton_inj.1 hl)
          cases he
          exact ht
        · cases hl
      obtain ⟨k1, k2, k3, k4, k5⟩ := hkey r l₁ k hz hr hm rfl rfl
      obtain ⟨us, rs0, lg, u1, u10, u11, c1, c2⟩ := h.pending k k1 k2 k3
      obtain rfl : t1 = u1 := Gst.abs_inj (by rw [e1, c1.h1])
      obtain rfl : t10 = u10 := Gst.abs_inj (by rw [e10, c1.h10])
      obtain rfl : t11 = u11 := Gst.abs_inj (by rw [e11, c1.h11])
      refine ⟨?_, fun k' h1 h2 h3 => ?_⟩
      · refine c2.below (by unfold tagsChecked; rw [List.length_map, List.length_map]) fun {i x y} hx hy => ?_
        unfold tagsChecked at hx hy
        rw [List.getElem?_map, Option.map_eq_some_iff] at hx hy
        obtain ⟨z, hz, rfl⟩ := hx
        obtain ⟨z', hz', rfl⟩ := hy
        rw [hz] at hz'
        obtain rfl := Option.some.inj hz'
        refine ⟨rfl, rfl, fun kd v => ?_⟩
        dsimp only
        rw [← gain_notDummy]
        have := gain_mono (C := C) (k5 us rs0 lg t1 t10 t11 c1 kd) (kd := kd) (v := v) (f := z) (f' := z) (fs := s.fs) (fs' := s.fs) (fun u _ hc => hc)
        omega
      · exfalso
        have := k4 k' h1 (fun hc => h2 (List.mem_append_left _ (List.mem_append_left _ hc))) h3
        subst this
        exact h2 (by simp)

/-- A word. -/
theorem Ahead.word {n : Nat} (hn : 1 ≤ n) (c : InavCall) (h : Ahead S slow n hist' log fs rs' log' fs') {p : List InavCall}
    (hends : (∀ f ∈ fs, EndsWithWord p f) ∧ (fs.head?.map NavFrame.words).getD [] = p)
    (hlast : ∀ r ∈ rs', r.gst.abs ≤ c.gst.subframe.abs)
    (hret : (∃ r ∈ rs', r.gst = c.gst.subframe) →
      ∀ (kd : NavKind) (v : Svn), kd.expected (p ++ [c]) v ≠ kd.expected p v → ∀ q, q <+: p → kd.expected q v ≠ kd.expected (p ++ [c]) v) :
    Ahead S slow n (hist' ++ [.inav c.word c.svn c.gst c.band]) log (wordReceived n c fs) rs' log' (wordReceived n c fs') := by
  refine ⟨h.lined.word hn (Nat.le_refl n) (Nat.le_refl 0) c, fun k h1 h2 h3 => ?_⟩
  obtain ⟨us, rs0, lg, t1, t10, t11, c1, c2⟩ := h.pending k h1 h2 (fun x hx => h3 x (List.mem_append_left _ hx))
  obtain ⟨r, r1, r2⟩ := c1.now
  have hrm : r ∈ rs' := by
    obtain ⟨z, hz⟩ := c1.part
    rw [← hz]; exact List.mem_append_left _ r1
  have hkc : k.gst = c.gst.subframe := by
    have e1 := hlast r hrm
    have e2 := h3 (.inav c.word c.svn c.gst c.band) (by simp)
    rw [r2] at e1
    exact Gst.abs_inj (Int.le_antisymm e1 e2)
  refine ⟨us, rs0, lg, t1, t10, t11, c1, ?_⟩
  refine word_checked hends (fun kd u hu => ?_) (hret ⟨r, hrm, r2.trans hkc⟩) (c2.word hn (Nat.le_refl n) (Nat.le_refl 0) c)
  rw [← hkc]
  exact c1.times kd u hu

end Verif
