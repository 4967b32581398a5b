import Verif.Lemmas.WorkTags
import Verif.Props.Switch

/-! # C80: every call needs a bounded amount of cryptography -/

namespace Verif

variable {C : Crypto} {S : Storage} {root0 : Option MerkleTreeNode} {pk0 : Option (PublicKey C)} {slow : Bool} {hist : List Call}
  {log : List (KeyEvent C)} {o o' : Osnma C}

/-- **C80** (same program).  The functions that note their cryptographic operations compute exactly what those of the model compute, also when they panic. -/
theorem C80_same_program (S : Storage) (o : Osnma C) :
    (∀ x svn gst, (W.feedOsnma S o x svn gst).res = o.feedOsnma S x svn gst) ∧
      ∀ word svn gst band, (W.feedInav S o word svn gst band).res = o.feedInav S word svn gst band :=
  ⟨W.res_feedOsnma S o, fun _ _ _ _ => rfl⟩

theorem W.lift_bind {α β : Type} {x : Res α} {a : α} (h : x = .ok a) (f : α → W C β) : (W.lift x >>= f) = f a := by
  subst h; rfl

theorem W.ops_bind {α β : Type} {x : W C α} {a : α} (h : x.res = .ok a) (f : α → W C β) : (x >>= f).ops = x.ops ++ (f a).ops := by
  show (W.bind x f).ops = _
  unfold W.bind
  rw [h]

/-- A call that returns, and what `feed_osnma` needs for it. -/
theorem work_cases {d : OsnmaDataMessage} {s : Svn} {g : Gst} (hc : o.feedOsnma S d s g = .ok o') :
    (Call.osnma d s g).work S o = [] ∨ ∃ c : Osnma.Completes S o o' d s g, ∃ l, AtMost l 5 0 1 ∧
      (Call.osnma d s g).work S o = l ++ (W.acceptKey S c.d1 c.msg c.g).ops := by
  have hwork : (Call.osnma d s g).work S o = (W.feedOsnma S o d s g).ops := rfl
  rw [hwork]
  rcases Osnma.feedOsnma_of_ok hc with ⟨hz, _⟩ | ⟨hz, ⟨sf, hf, _⟩ | ⟨⟨c⟩⟩⟩
  · left
    unfold W.feedOsnma
    rw [if_pos hz]
    rfl
  · left
    unfold W.feedOsnma
    rw [if_neg (by rw [hz]; decide), hf]
    rfl
  · right
    refine ⟨c, ?_⟩
    have hp : W.processSubframe S o.data c.hk c.msg s c.g = (match c.out with
        | some x => W.processDsm { o.data.data with mack := c.ms } x ⟨c.b0⟩ c.g
        | none => pure { o.data.data with mack := c.ms }) >>= fun data => W.acceptKey S data c.msg c.g >>= fun data => pure ⟨c.dsm, data⟩ := by
      unfold W.processSubframe
      rw [W.lift_bind (index_eq_ok.2 c.hb0)]
      dsimp only
      rw [W.lift_bind c.hstore, W.lift_bind (index_eq_ok.2 c.hb1), W.lift_bind (CollectSubframe.toBytes_eq_ok.2 c.hblock.symm), W.lift_bind c.hdsm]
      cases c.out <;> rfl
    have hf : (W.feedOsnma S o d s g).ops = (W.processSubframe S o.data c.hk c.msg s c.g).ops := by
      unfold W.feedOsnma
      rw [if_neg (by rw [c.hz]; decide), W.lift_bind c.hfeed]
      show (W.processSubframe S o.data c.hk c.msg s c.g >>= fun data => pure (⟨c.sf, data⟩ : Osnma C)).ops = _
      cases hr : (W.processSubframe S o.data c.hk c.msg s c.g).res with
      | ok a => rw [W.ops_bind hr]; exact List.append_nil _
      | panic w =>
        show (W.bind _ _).ops = _
        unfold W.bind
        rw [hr]
    have hd : (match c.out with
        | some x => W.processDsm { o.data.data with mack := c.ms } x ⟨c.b0⟩ c.g
        | none => pure { o.data.data with mack := c.ms } : W C (OsnmaData C)).res = .ok c.d1 := by
      rw [← c.hd1]
      cases c.out with
      | none => rfl
      | some x => exact W.res_processDsm ..
    have ha : (W.acceptKey S c.d1 c.msg c.g).res = .ok c.d2 := by rw [W.res_acceptKey]; exact c.hd2
    refine ⟨(match c.out with
        | some x => W.processDsm { o.data.data with mack := c.ms } x ⟨c.b0⟩ c.g
        | none => pure { o.data.data with mack := c.ms } : W C (OsnmaData C)).ops, ?_, ?_⟩
    rotate_left
    · rw [hf, hp, W.ops_bind hd, W.ops_bind ha]
      show _ ++ (_ ++ []) = _
      rw [List.append_nil]
    · cases c.out with
      | none => exact AtMost.nil
      | some x => exact W.costs_processDsm ..

theorem held_has {ks : KeyStore} {log : List (KeyEvent C)} (h : (ks.key0, ks.key1) = teslaHeld log) (k : Key) : ks.Has k ↔ HoldsTesla log k := by
  unfold HoldsTesla KeyStore.Has
  rw [← h]

/-- The bound, with the age `N` of the key in force and how late the keys held are (`D`). -/
theorem work_bound (hS : S.Consistent) (h0 : (Osnma.new S root0 pk0 slow : Osnma C).Fresh S)
    (hl : Logs S (Osnma.new S root0 pk0 slow) hist log o) {c : Call} (hc : c.run S o = .ok o') (N D : Nat)
    (hN : 3000 ≤ N ∨ ∀ l₁ l₂, o.events S c = l₁ ++ l₂ → ∀ k, InForce (log ++ l₁) k → c.gst.subframe.abs ≤ k.gst.abs + 30 * N)
    (hD : ∀ k, HoldsTesla (log ++ o.events S c) k → k.gst.abs ≤ c.gst.subframe.abs - 300 + 30 * D) :
    AtMost (c.work S o) (5 + N + D) (21 * min 36 S.numSats) 1 := by
  cases c with
  | inav w s g b => exact AtMost.nil
  | osnma d s g =>
    rcases work_cases hc with h | ⟨k, l, hl5, h⟩
    · rw [h]; exact AtMost.nil
    · rw [h]
      have hl' : Logs S (Osnma.new S root0 pk0 slow) (hist ++ [.osnma d s g]) (log ++ o.events S (.osnma d s g)) o' := .snoc _ hl hc
      obtain ⟨rs, outs, douts, f1, f2, f3, f4⟩ := keyMachine_run hl
      obtain ⟨l₁, he, st, _, _, _, hheld, inv1⟩ := subframeStep hl k f1 f3
      have hsub : k.g = g.subframe := k.sub hS h0 hl.run
      have inv' := keyInv_run hl'
      have hheld' := teslaHeld_run hl'
      have hk2 : o'.data.data = k.d2 := congrArg (fun x : Osnma C => x.data.data) k.ho
      rw [hk2] at inv' hheld'
      refine (hl5.append (W.costs_acceptKey S k.hd2 N D (fun x hx => (inv1.krooted x hx).1) (fun x hx => (inv'.krooted x hx).1) ?_ ?_)).mono
        (by omega) (by omega) (by omega)
      · refine hN.imp id fun hN cur hcur => ?_
        rw [hsub]
        refine hN l₁ _ he cur ⟨?_, ?_⟩
        · exact (held_has hheld cur).1 (KeyStore.mem_keys.1 (by
            unfold KeyStore.currentKey at hcur
            obtain ⟨cif, _, hcur⟩ := Option.bind_eq_some_iff.1 hcur
            exact List.mem_of_find?_eq_some hcur))
        · unfold KeyStore.currentKey at hcur
          obtain ⟨cif, hcif, hcur⟩ := Option.bind_eq_some_iff.1 hcur
          obtain ⟨h, h1, h2⟩ := inv1.kforce cif hcif
          have := List.find?_some hcur
          rw [beq_iff_eq] at this
          exact ⟨h, h1, by rw [h2, this]⟩
      · intro x hx
        rw [hsub]
        exact hD x ((held_has hheld' x).1 hx)

/-- **C80** (bounded work).  Let no TESLA key held after the call be for a time more than `30 * D - 300` seconds after the subframe of the call.  Then the call
evaluates at most `3005 + D` hashes, 21 MACs for each satellite for which there is room in the storage (at most 36), and one public key operation, each on at most 177
bytes. -/
theorem C80_bounded_work (hS : S.Consistent) (h0 : (Osnma.new S root0 pk0 slow : Osnma C).Fresh S)
    (hl : Logs S (Osnma.new S root0 pk0 slow) hist log o) {c : Call} (hc : c.run S o = .ok o') (D : Nat)
    (hD : ∀ k, HoldsTesla (log ++ o.events S c) k → k.gst.abs ≤ c.gst.subframe.abs - 300 + 30 * D) :
    AtMost (c.work S o) (3005 + D) (21 * min 36 S.numSats) 1 :=
  (work_bound hS h0 hl hc 3000 D (.inl (Nat.le_refl _)) hD).mono (by omega) (Nat.le_refl _) (Nat.le_refl _)

theorem teslaHeld_mem (log : List (KeyEvent C)) {k : Key} (h : HoldsTesla log k) :
    .tesla k ∈ log ∨ ∃ hd data pk g, .kroot hd data pk k g ∈ log := by
  induction log using CollectSubframe.snoc_induction with
  | h0 => rcases h with h | h <;> cases h
  | h1 l e ih =>
    have lift : (.tesla k ∈ l ∨ ∃ hd data pk g, .kroot hd data pk k g ∈ l) → .tesla k ∈ l ++ [e] ∨ ∃ hd data pk g, .kroot hd data pk k g ∈ l ++ [e] := by
      rintro (h | ⟨a, b, c, d, h⟩)
      · exact .inl (List.mem_append_left _ h)
      · exact .inr ⟨a, b, c, d, List.mem_append_left _ h⟩
    unfold HoldsTesla at h
    rw [teslaHeld_snoc] at h
    have hroot : ∀ hd data pk key g, e = .kroot hd data pk key g → (addKroot hd key (teslaHeld l)).1 = some k ∨ (addKroot hd key (teslaHeld l)).2 = some k →
        .tesla k ∈ l ++ [e] ∨ ∃ hd data pk g, .kroot hd data pk k g ∈ l ++ [e] := by
      intro hd data pk key g he h
      by_cases hk : key = k
      · subst hk; subst he
        exact .inr ⟨hd, data, pk, g, List.mem_append_right _ (List.mem_singleton.2 rfl)⟩
      · refine lift (ih ?_)
        unfold addKroot at h
        unfold HoldsTesla
        grind
    cases e with
    | kroot hd data pk key g =>
      simp only [teslaAfter] at h
      split at h
      · rcases h with h | h <;> cases h
      · split at h
        · refine hroot hd data pk key g rfl ?_
          unfold dropChain at h
          grind
        · exact hroot hd data pk key g rfl h
    | pkr data pk => exact lift (ih h)
    | alert data => rcases h with h | h <;> cases h
    | tesla k' =>
      simp only [teslaAfter] at h
      by_cases hk : k' = k
      · subst hk; exact .inl (List.mem_append_right _ (List.mem_singleton.2 rfl))
      · refine lift (ih ?_)
        unfold HoldsTesla
        grind

/-- In a run in chronological order, and with no root key of a later time, the keys held are not of a later time. -/
theorem held_not_later (hS : S.Consistent) (h0 : (Osnma.new S root0 pk0 slow : Osnma C).Fresh S)
    (hl : Logs S (Osnma.new S root0 pk0 slow) hist log o) {c : Call} (hc : c.run S o = .ok o') (hord : CallsInOrder (hist ++ [c]))
    (hroot : ∀ h data pk key g, KeyEvent.kroot h data pk key g ∈ log ++ o.events S c → key.gst.abs ≤ c.gst.subframe.abs) :
    ∀ k, HoldsTesla (log ++ o.events S c) k → k.gst.abs ≤ c.gst.subframe.abs := by
  intro k hk
  rcases teslaHeld_mem _ hk with h | ⟨a, b, d, e, h⟩
  · obtain ⟨i, c', lo, oi, oi', h1, h2, h3, h4, _⟩ := (Logs.snoc c hl hc).index h
    rw [← tesla_when hS h0 h2.run h3 h4]
    have hm := List.mem_of_getElem? h1
    rcases List.mem_append.1 hm with hm | hm
    · exact (List.pairwise_append.1 hord).2.2 c' hm c (List.mem_singleton.2 rfl)
    · rw [List.mem_singleton.1 hm]; exact Int.le_refl _
  · exact hroot a b d k e h

/-- **C80** (in chronological order).  When the calls are made in chronological order, and no root key verified so far is for a later time than the call, a call
evaluates at most 3015 hashes, 21 MACs for each satellite for which there is room in the storage (at most 36), and one public key operation, each on at most 177 bytes. -/
theorem C80_in_order (hS : S.Consistent) (h0 : (Osnma.new S root0 pk0 slow : Osnma C).Fresh S)
    (hl : Logs S (Osnma.new S root0 pk0 slow) hist log o) {c : Call} (hc : c.run S o = .ok o') (hord : CallsInOrder (hist ++ [c]))
    (hroot : ∀ h data pk key g, KeyEvent.kroot h data pk key g ∈ log ++ o.events S c → key.gst.abs ≤ c.gst.subframe.abs) :
    AtMost (c.work S o) 3015 (21 * min 36 S.numSats) 1 :=
  C80_bounded_work hS h0 hl hc 10 fun k hk => by have := held_not_later hS h0 hl hc hord hroot k hk; omega

/-- **C80** (a receiver that follows the keys).  If moreover the key in force is, during the whole call, at most `N` subframes old, the call evaluates at most `15 + N`
hashes. -/
theorem C80_tracking (hS : S.Consistent) (h0 : (Osnma.new S root0 pk0 slow : Osnma C).Fresh S)
    (hl : Logs S (Osnma.new S root0 pk0 slow) hist log o) {c : Call} (hc : c.run S o = .ok o') (hord : CallsInOrder (hist ++ [c]))
    (hroot : ∀ h data pk key g, KeyEvent.kroot h data pk key g ∈ log ++ o.events S c → key.gst.abs ≤ c.gst.subframe.abs) (N : Nat)
    (hN : ∀ l₁ l₂, o.events S c = l₁ ++ l₂ → ∀ k, InForce (log ++ l₁) k → c.gst.subframe.abs ≤ k.gst.abs + 30 * N) :
    AtMost (c.work S o) (15 + N) (21 * min 36 S.numSats) 1 :=
  (work_bound hS h0 hl hc N 10 (.inr hN) fun k hk => by have := held_not_later hS h0 hl hc hord hroot k hk; omega).mono
    (by omega) (Nat.le_refl _) (Nat.le_refl _)

/-- **C80** (nothing to do).  `feed_inav` evaluates no cryptographic primitive at all. -/
theorem C80_words_are_free (S : Storage) (o : Osnma C) (word : InavWord) (svn : Svn) (gst : Gst) (band : InavBand) :
    (Call.inav word svn gst band).work S o = [] := rfl

/-- **C80** (nothing to do).  A page that does not complete the subframe of its satellite, or that is all zero, needs no cryptography. -/
theorem C80_pages_are_free (hl : Logs S (Osnma.new S root0 pk0 slow) hist log o) (x : OsnmaDataMessage) (svn : Svn) (gst : Gst)
    (hn : (∀ b ∈ x.val, b = 0) ∨ ∀ r, ¬ CompletesSubframe (pagesOf hist) ⟨x, svn, gst⟩ r) : (Call.osnma x svn gst).work S o = [] := by
  show (W.feedOsnma S o x svn gst).ops = []
  unfold W.feedOsnma
  split
  · rfl
  · rename_i hz
    rcases hn with hn | hn
    · exact absurd (List.all_eq_true.2 fun b hb => by rw [hn b hb]; rfl) hz
    · obtain ⟨rs, outs, douts, f1, _⟩ := keyMachine_run hl
      cases hf : o.subframe.feed x svn gst with
      | panic w => rfl
      | ok r =>
        obtain ⟨sf, out⟩ := r
        cases out with
        | none => rfl
        | some y =>
          obtain ⟨hk, m, g⟩ := y
          exact absurd ((feed_completes (p := ⟨x, svn, gst⟩) f1 hf ⟨svn, hk, m, g⟩).2 ⟨rfl, rfl⟩) (hn _)

end Verif
