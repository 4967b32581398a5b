import Verif.Lemmas.Log
import Verif.Lemmas.Merkle
import Verif.Spec.KeyHistory
import Verif.Props.Tesla

/-! # Invariant of the public key and TESLA key stores over logged runs -/

namespace Verif
variable {C : Crypto} {S : Storage}

/-! ## Logs -/

theorem snoc_split {α : Type _} {l b a : List α} {e x : α} (h : l ++ [e] = b ++ x :: a) :
    (b = l ∧ x = e ∧ a = []) ∨ ∃ a', a = a' ++ [e] ∧ l = b ++ x :: a' := by
  rcases List.eq_nil_or_concat a with rfl | ⟨a', y, hy⟩
  · left
    have := List.append_inj' h rfl
    simp only [List.cons.injEq, and_true] at this
    exact ⟨this.1.symm, this.2.symm, rfl⟩
  · right
    rw [List.concat_eq_append] at hy
    subst hy
    rw [← List.cons_append, ← List.append_assoc] at h
    have := List.append_inj' h rfl
    simp only [List.cons.injEq, and_true] at this
    obtain ⟨h1, rfl⟩ := this
    exact ⟨a', rfl, h1⟩

theorem GoodLog.nil {root0 : Option MerkleTreeNode} {pk0 : Option (PublicKey C)} : GoodLog root0 pk0 [] := by
  intro b e a h
  simp at h

theorem GoodLog.snoc {root0 : Option MerkleTreeNode} {pk0 : Option (PublicKey C)} {log : List (KeyEvent C)}
    {ev : KeyEvent C} (h : GoodLog root0 pk0 log) (ha : ¬ AlertIn log) (hj : ev.Justified root0 pk0 log) :
    GoodLog root0 pk0 (log ++ [ev]) := by
  intro b e a he
  rcases snoc_split he with ⟨rfl, rfl, _⟩ | ⟨a', _, h2⟩
  · exact ⟨ha, hj⟩
  · exact h b e a' h2

theorem alertIn_snoc {log : List (KeyEvent C)} {ev : KeyEvent C} :
    AlertIn (log ++ [ev]) ↔ AlertIn log ∨ ev.IsAlert := by
  unfold AlertIn
  simp only [List.mem_append, List.mem_singleton]
  constructor
  · rintro ⟨e, h1 | rfl, h2⟩
    · exact .inl ⟨e, h1, h2⟩
    · exact .inr h2
  · rintro (⟨e, h1, h2⟩ | h)
    · exact ⟨e, .inl h1, h2⟩
    · exact ⟨ev, .inr rfl, h⟩

theorem chainRevokedIn_snoc {log : List (KeyEvent C)} {ev : KeyEvent C} {c : Nat}
    (h : ChainRevokedIn (log ++ [ev]) c) : ev.Revokes c ∨ (ChainRevokedIn log c ∧ ¬ ev.KrootOf c) := by
  obtain ⟨l1, e, l2, he, h1, h2⟩ := h
  rcases snoc_split he with ⟨_, rfl, _⟩ | ⟨a', rfl, h3⟩
  · exact .inl h1
  · exact .inr ⟨⟨l1, e, a', h3, h1, fun x hx => h2 x (by simp [hx])⟩, h2 ev (by simp)⟩

theorem lastHeader_kroot (log : List (KeyEvent C)) (h : NmaHeader) (data : List Byte) (pk : PublicKey C) (k : Key)
    (g : Gst) : lastHeader (log ++ [.kroot h data pk k g]) = some h := by
  simp [lastHeader, KeyEvent.header?]

theorem lastHeader_other {log : List (KeyEvent C)} {ev : KeyEvent C} (h : ev.header? = none) :
    lastHeader (log ++ [ev]) = lastHeader log := by
  simp [lastHeader, h]

theorem TrustedPk.mono {pk0 : Option (PublicKey C)} {log : List (KeyEvent C)} {pk : PublicKey C}
    (h : TrustedPk pk0 log pk) (l : List (KeyEvent C)) : TrustedPk pk0 (log ++ l) pk := by
  rcases h with h | ⟨d, h⟩
  · exact .inl h
  · exact .inr ⟨d, List.mem_append_left _ h⟩

theorem RootedKey.mono {log : List (KeyEvent C)} {k : Key} (h : RootedKey log k) (l : List (KeyEvent C)) :
    RootedKey (log ++ l) k := by
  obtain ⟨a, b, c, d, e, n, h1, h2⟩ := h
  exact ⟨a, b, c, d, e, n, List.mem_append_left _ h1, h2⟩

/-! ## Stores -/

namespace KeyStore

/-- A key is in one of the two slots. -/
def Has (ks : KeyStore) (k : Key) : Prop := ks.key0 = some k ∨ ks.key1 = some k

theorem mem_keys {ks : KeyStore} {k : Key} : k ∈ ks.keys ↔ ks.Has k := by
  unfold keys Has
  cases ks.key0 <;> cases ks.key1 <;> simp [eq_comm]

theorem currentKey_some {ks : KeyStore} {k : Key} (h : ks.currentKey = some k) :
    ks.Has k ∧ ∃ cif, ks.chainInForce = some cif ∧ k.chain.id = cif.cid := by
  unfold currentKey at h
  cases hc : ks.chainInForce with
  | none => rw [hc] at h; cases h
  | some cif =>
    rw [hc] at h
    simp only [Option.bind_some] at h
    exact ⟨mem_keys.1 (List.mem_of_find?_eq_some h), cif, rfl, by simpa using List.find?_some h⟩

/-- The two keys are of different chains. -/
def Distinct (ks : KeyStore) : Prop :=
  ∀ a b, ks.key0 = some a → ks.key1 = some b → a.chain.id ≠ b.chain.id

theorem holds_iff {k : Option Key} {id : Nat} : holds k id = true ↔ ∃ x, k = some x ∧ x.chain.id = id := by
  unfold holds
  cases k <;> simp

theorem storeKroot_spec (ks : KeyStore) (key : Key) (h : NmaHeader) (g : Gst) (hd : ks.Distinct) :
    (∀ k, (ks.storeKroot key h g).Has k → ks.Has k ∨ k = key) ∧ (ks.storeKroot key h g).Distinct ∧
    (∃ s, (ks.storeKroot key h g).chainInForce = some ⟨h.chainId, s⟩) ∧
    (∃ k, (ks.storeKroot key h g).Has k ∧ k.chain.id = key.chain.id) ∧
    (∀ k, ks.Has k → (ks.storeKroot key h g).Has k ∨
      (k.chain.id ≠ key.chain.id ∧ k.chain.id ≠ h.chainId ∧ (∃ a b, ks.key0 = some a ∧ ks.key1 = some b))) := by
  rcases ks with ⟨s0, s1, cf⟩
  unfold storeKroot
  dsimp only
  by_cases h0 : holds s0 key.chain.id = true
  · rw [if_pos h0]
    obtain ⟨x, e1, e2⟩ := holds_iff.1 h0
    exact ⟨fun k hk => .inl hk, hd, ⟨_, rfl⟩, ⟨x, .inl e1, e2⟩, fun k hk => .inl hk⟩
  · rw [if_neg h0]
    by_cases h1 : holds s1 key.chain.id = true
    · rw [if_pos h1]
      obtain ⟨x, e1, e2⟩ := holds_iff.1 h1
      exact ⟨fun k hk => .inl hk, hd, ⟨_, rfl⟩, ⟨x, .inr e1, e2⟩, fun k hk => .inl hk⟩
    · rw [if_neg h1]
      cases s0 with
      | none =>
        dsimp only
        refine ⟨?_, ?_, ⟨_, rfl⟩, ⟨key, .inl rfl, rfl⟩, ?_⟩
        · rintro k (hk | hk)
          · simp only [Option.some.injEq] at hk; exact .inr hk.symm
          · exact .inl (.inr hk)
        · intro a b ha hb hab
          simp only [Option.some.injEq] at ha
          subst ha
          exact h1 (holds_iff.2 ⟨b, hb, hab.symm⟩)
        · rintro k (hk | hk)
          · cases hk
          · exact .inl (.inr hk)
      | some x =>
        cases s1 with
        | none =>
          dsimp only
          refine ⟨?_, ?_, ⟨_, rfl⟩, ⟨key, .inr rfl, rfl⟩, ?_⟩
          · rintro k (hk | hk)
            · exact .inl (.inl hk)
            · simp only [Option.some.injEq] at hk; exact .inr hk.symm
          · intro a b ha hb hab
            simp only [Option.some.injEq] at hb
            subst hb
            exact h0 (holds_iff.2 ⟨a, ha, hab⟩)
          · rintro k (hk | hk)
            · exact .inl (.inl hk)
            · cases hk
        | some y =>
          dsimp only
          have nx : x.chain.id ≠ key.chain.id := fun hc => h0 (holds_iff.2 ⟨x, rfl, hc⟩)
          have ny : y.chain.id ≠ key.chain.id := fun hc => h1 (holds_iff.2 ⟨y, rfl, hc⟩)
          have nxy := hd x y rfl rfl
          by_cases hx : x.chain.id = h.chainId
          · rw [if_pos hx]
            refine ⟨?_, ?_, ⟨_, rfl⟩, ⟨key, .inr rfl, rfl⟩, ?_⟩
            · rintro k (hk | hk)
              · exact .inl (.inl hk)
              · simp only [Option.some.injEq] at hk; exact .inr hk.symm
            · intro a b ha hb hab
              simp only [Option.some.injEq] at hb
              subst hb
              exact h0 (holds_iff.2 ⟨a, ha, hab⟩)
            · rintro k (hk | hk)
              · exact .inl (.inl hk)
              · cases hk
                exact .inr ⟨ny, fun hc => nxy (hx.trans hc.symm), x, y, rfl, rfl⟩
          · rw [if_neg hx]
            refine ⟨?_, ?_, ⟨_, rfl⟩, ⟨key, .inl rfl, rfl⟩, ?_⟩
            · rintro k (hk | hk)
              · simp only [Option.some.injEq] at hk; exact .inr hk.symm
              · exact .inl (.inr hk)
            · intro a b ha hb hab
              simp only [Option.some.injEq] at ha
              subst ha
              exact h1 (holds_iff.2 ⟨b, hb, hab.symm⟩)
            · rintro k (hk | hk)
              · cases hk
                exact .inr ⟨nx, hx, x, y, rfl, rfl⟩
              · exact .inl (.inr hk)

theorem revoke_spec (ks : KeyStore) (c : Nat) :
    (∀ k, (ks.revoke c).Has k ↔ ks.Has k ∧ k.chain.id ≠ c) ∧ (ks.revoke c).chainInForce = ks.chainInForce ∧
    (ks.Distinct → (ks.revoke c).Distinct) := by
  have key : ∀ (s : Option Key) (k : Key), (if holds s c then none else s) = some k ↔ s = some k ∧ k.chain.id ≠ c := by
    intro s k
    cases s with
    | none => simp [holds]
    | some x =>
      by_cases hx : x.chain.id = c
      · simp only [holds, Option.any_some, hx, beq_self_eq_true, if_true]
        constructor
        · intro h; cases h
        · rintro ⟨h, h2⟩
          simp only [Option.some.injEq] at h
          subst h; exact absurd hx h2
      · have : (x.chain.id == c) = false := by simpa using hx
        simp only [holds, Option.any_some, this, Bool.false_eq_true, if_false]
        constructor
        · intro h
          refine ⟨h, ?_⟩
          simp only [Option.some.injEq] at h
          subst h; exact hx
        · exact fun h => h.1
  refine ⟨?_, rfl, ?_⟩
  · intro k
    unfold revoke Has
    dsimp only
    rw [key, key]
    constructor
    · rintro (⟨h1, h2⟩ | ⟨h1, h2⟩)
      · exact ⟨.inl h1, h2⟩
      · exact ⟨.inr h1, h2⟩
    · rintro ⟨h1 | h1, h2⟩
      · exact .inl ⟨h1, h2⟩
      · exact .inr ⟨h1, h2⟩
  · intro hd a b ha hb
    unfold revoke at ha hb
    dsimp only at ha hb
    exact hd a b ((key _ _).1 ha).1 ((key _ _).1 hb).1

/-- `store_key` replaces the key of the same chain. -/
theorem storeKey_spec {ks ks' : KeyStore} {key : Key} (hd : ks.Distinct) (h : ks.storeKey key = .ok ks') :
    (∀ k, ks'.Has k ↔ (ks.Has k ∧ k.chain.id ≠ key.chain.id) ∨ k = key) ∧ ks'.chainInForce = ks.chainInForce ∧
    ks'.Distinct := by
  unfold storeKey at h
  dsimp only at h
  split at h
  · rename_i h0
    obtain ⟨x, e1, e2⟩ := holds_iff.1 h0
    simp only [Res.ok.injEq] at h
    subst h
    refine ⟨?_, rfl, ?_⟩
    · intro k
      unfold Has
      dsimp only
      constructor
      · rintro (hk | hk)
        · simp only [Option.some.injEq] at hk; exact .inr hk.symm
        · exact .inl ⟨.inr hk, by rw [← e2]; exact (hd x k e1 hk).symm⟩
      · rintro (⟨hk | hk, hn⟩ | rfl)
        · rw [e1] at hk; cases hk; exact absurd e2 hn
        · exact .inr hk
        · exact .inl rfl
    · intro a b ha hb
      simp only [Option.some.injEq] at ha
      subst ha
      rw [← e2]; exact hd x b e1 hb
  · split at h
    · rename_i h0 h1
      obtain ⟨x, e1, e2⟩ := holds_iff.1 h1
      simp only [Res.ok.injEq] at h
      subst h
      refine ⟨?_, rfl, ?_⟩
      · intro k
        unfold Has
        dsimp only
        constructor
        · rintro (hk | hk)
          · exact .inl ⟨.inl hk, by rw [← e2]; exact hd k x hk e1⟩
          · simp only [Option.some.injEq] at hk; exact .inr hk.symm
        · rintro (⟨hk | hk, hn⟩ | rfl)
          · exact .inl hk
          · rw [e1] at hk; cases hk; exact absurd e2 hn
          · exact .inr rfl
      · intro a b ha hb
        simp only [Option.some.injEq] at hb
        subst hb
        rw [← e2]; exact hd a x ha e1
    · cases h

theorem storeKey_returns {ks : KeyStore} {key k : Key} (h : ks.Has k) (hc : k.chain.id = key.chain.id) :
    ∃ ks', ks.storeKey key = .ok ks' := by
  unfold storeKey
  dsimp only
  split
  · exact ⟨_, rfl⟩
  · split
    · exact ⟨_, rfl⟩
    · rename_i h0 h1
      rcases h with h | h
      · exact absurd (holds_iff.2 ⟨k, h, hc⟩) h0
      · exact absurd (holds_iff.2 ⟨k, h, hc⟩) h1

end KeyStore

namespace PubkeyStore

/-- Well-formed store: a next key only with a current key of smaller id. -/
def Wf (p : PubkeyStore C) : Prop := ∀ n, p.next = some n → ∃ c, p.current = some c ∧ c.pkid < n.pkid

/-- A key is in one of the two places. -/
def Has (p : PubkeyStore C) (k : PublicKey C) : Prop := p.current = some k ∨ p.next = some k

theorem Wf.check {p : PubkeyStore C} (h : p.Wf) : p.checkConsistency = .ok () := by
  unfold checkConsistency
  rw [Res.assert_eq_ok]
  cases hn : p.next with
  | none => rfl
  | some n =>
    obtain ⟨c, hc, _⟩ := h n hn
    rw [hc]; rfl

theorem applicable_returns {p : PubkeyStore C} (h : p.Wf) (id : Nat) : ∃ r, p.applicable id = .ok r := by
  unfold applicable
  rw [h.check]
  simp only [Res.ok_bind]
  cases p.current <;> cases p.next <;> dsimp only <;> (repeat' split) <;> exact ⟨_, rfl⟩

theorem applicable_some {p : PubkeyStore C} {id : Nat} {k : PublicKey C} (h : p.applicable id = .ok (some k)) :
    p.Has k ∧ k.pkid = id := by
  unfold applicable at h
  obtain ⟨_, _, h⟩ := Res.bind_eq_ok.1 h
  cases hc : p.current with
  | some c =>
    rw [hc] at h
    dsimp only at h
    split at h
    · simp only [Res.pure_eq, Res.ok.injEq, Option.some.injEq] at h
      subst h; exact ⟨.inl hc, by assumption⟩
    · cases hn : p.next with
      | none => rw [hn] at h; simp at h
      | some n =>
        rw [hn] at h
        dsimp only at h
        split at h
        · simp only [Res.pure_eq, Res.ok.injEq, Option.some.injEq] at h
          subst h; exact ⟨.inr hn, by assumption⟩
        · simp at h
  | none =>
    rw [hc] at h
    cases hn : p.next with
    | none => rw [hn] at h; simp at h
    | some n =>
      rw [hn] at h
      dsimp only at h
      split at h
      · simp only [Res.pure_eq, Res.ok.injEq, Option.some.injEq] at h
        subst h; exact ⟨.inr hn, by assumption⟩
      · simp at h

/-- Selecting the key of a stored id. -/
theorem makeCurrent_spec {p p' : PubkeyStore C} {id : Nat} (hw : p.Wf) (h : p.makeCurrent id = .ok p') :
    p'.Wf ∧ (∀ k, p'.Has k → p.Has k) ∧ (∃ c, p'.current = some c ∧ c.pkid = id) ∧
    (∀ c, p.current = some c → c.pkid ≤ id) ∧ (∀ n, p'.next = some n → id < n.pkid) := by
  unfold makeCurrent at h
  obtain ⟨_, _, h⟩ := Res.bind_eq_ok.1 h
  split at h
  · rename_i h1
    simp only [Res.pure_eq, Res.ok.injEq] at h
    subst h
    obtain ⟨c, hc, hi⟩ : ∃ c, p.current = some c ∧ c.pkid = id := by
      cases hc : p.current with
      | none => rw [hc] at h1; simp at h1
      | some c => rw [hc] at h1; exact ⟨c, rfl, by simpa using h1⟩
    refine ⟨hw, fun _ h => h, ⟨c, hc, hi⟩, ?_, ?_⟩
    · intro c' h'; rw [hc] at h'; cases h'; omega
    · intro n hn
      obtain ⟨c', h', hl⟩ := hw n hn
      rw [hc] at h'; cases h'; omega
  · split at h
    · rename_i _ h1
      obtain ⟨n, hn, hi⟩ : ∃ c, p.next = some c ∧ c.pkid = id := by
        cases hc : p.next with
        | none => rw [hc] at h1; simp at h1
        | some c => rw [hc] at h1; exact ⟨c, rfl, by simpa using h1⟩
      obtain ⟨c, hc, h⟩ := Res.bind_eq_ok.1 h
      obtain ⟨_, ha, h⟩ := Res.bind_eq_ok.1 h
      simp only [Res.pure_eq, Res.ok.injEq] at h
      subst h
      rw [Res.unwrap_eq_ok] at hc
      rw [Res.assert_eq_ok] at ha
      have ha := of_decide_eq_true ha
      refine ⟨fun _ h => by simp at h, ?_, ⟨n, hn, hi⟩, ?_, fun _ h => by simp at h⟩
      · rintro k (hk | hk)
        · exact .inr hk
        · simp at hk
      · intro c' h'; rw [hc] at h'; cases h'; omega
    · cases h

theorem makeCurrent_returns {p : PubkeyStore C} {k : PublicKey C} (hw : p.Wf) (h : p.Has k) :
    ∃ p', p.makeCurrent k.pkid = .ok p' := by
  unfold makeCurrent
  rw [hw.check]
  simp only [Res.ok_bind]
  split
  · exact ⟨_, rfl⟩
  · rename_i h0
    rcases h with h | h
    · rw [h] at h0; exact absurd rfl h0
    · obtain ⟨c, hc, hl⟩ := hw k h
      rw [if_pos (by rw [h]; rfl), hc]
      simp only [Res.unwrap_some, Res.ok_bind, hl, decide_true, Res.assert_true]
      exact ⟨_, rfl⟩

theorem storeNew_returns {p : PubkeyStore C} (hw : p.Wf) (k : PublicKey C) : ∃ p', p.storeNew k = .ok p' := by
  unfold storeNew
  rw [hw.check]
  simp only [Res.ok_bind]
  cases p.current <;> cases p.next <;> dsimp only <;> (repeat' split) <;> exact ⟨_, rfl⟩

theorem storeNew_spec {p p' : PubkeyStore C} {k : PublicKey C} (hw : p.Wf) (h : p.storeNew k = .ok p') :
    p'.Wf ∧ (∀ x, p'.Has x → p.Has x ∨ x = k) ∧ (∀ c, p.current = some c → p'.current = some c) := by
  unfold storeNew at h
  obtain ⟨_, _, h⟩ := Res.bind_eq_ok.1 h
  cases hc : p.current with
  | none =>
    rw [hc] at h
    simp only [Res.pure_eq, Res.ok.injEq] at h
    subst h
    have hn : p.next = none := by
      cases hn : p.next with
      | none => rfl
      | some n => obtain ⟨c, h1, _⟩ := hw n hn; rw [hc] at h1; cases h1
    refine ⟨fun n h => ?_, ?_, fun c h => by cases h⟩
    · simp only at h; rw [hn] at h; cases h
    · rintro x (hx | hx)
      · simp only [Option.some.injEq] at hx; exact .inr hx.symm
      · exact .inl (.inr hx)
  | some c =>
    rw [hc] at h
    dsimp only at h
    have same : ∀ q : PubkeyStore C, q = p → q.Wf ∧ (∀ x, q.Has x → p.Has x ∨ x = k) ∧
        (∀ c', some c = some c' → q.current = some c') := by
      rintro q rfl
      exact ⟨hw, fun _ h => .inl h, fun c' h => hc.trans h⟩
    have upd : ¬ k.pkid < c.pkid → ¬ k.pkid = c.pkid →
        ({ p with next := some k } : PubkeyStore C).Wf ∧
          (∀ x, ({ p with next := some k } : PubkeyStore C).Has x → p.Has x ∨ x = k) ∧
        (∀ c', some c = some c' → ({ p with next := some k } : PubkeyStore C).current = some c') := by
      intro h1 h2
      refine ⟨?_, ?_, fun c' h => hc.trans h⟩
      · intro n hn
        simp only [Option.some.injEq] at hn
        subst hn
        exact ⟨c, hc, by omega⟩
      · rintro x (hx | hx)
        · exact .inl (.inl hx)
        · simp only [Option.some.injEq] at hx; exact .inr hx.symm
    split at h
    · simp only [Res.pure_eq, Res.ok.injEq] at h; exact same _ h.symm
    · split at h
      · simp only [Res.pure_eq, Res.ok.injEq] at h; exact same _ h.symm
      · rename_i h1 h2
        cases hn : p.next with
        | none =>
          rw [hn] at h
          simp only [Res.pure_eq, Res.ok.injEq] at h
          rw [hc] at upd; subst h; exact upd h1 h2
        | some n =>
          rw [hn] at h
          dsimp only at h
          split at h
          · simp only [Res.pure_eq, Res.ok.injEq] at h
            rw [hc] at upd; subst h; exact upd h1 h2
          · simp only [Res.pure_eq, Res.ok.injEq] at h; exact same _ h.symm

/-- On a store whose current key has the id of the verified KROOT, `revoke` does nothing. -/
theorem revoke_noop {p : PubkeyStore C} {id : Nat} (hc : ∃ c, p.current = some c ∧ c.pkid = id)
    (hn : ∀ n, p.next = some n → id < n.pkid) : p.revoke id = p := by
  obtain ⟨c, hc, hi⟩ := hc
  unfold revoke
  dsimp only
  have h1 : p.current.any (fun k => decide (k.pkid < id)) = false := by
    rw [hc]; simp; omega
  rw [h1]
  simp only [Bool.false_eq_true, if_false]
  have h2 : p.next.any (fun k => decide (k.pkid < id)) = false := by
    cases h : p.next with
    | none => rfl
    | some n => have := hn n h; simp; omega
  rw [h2]
  rfl

end PubkeyStore

/-- The header of a verified KROOT, after its key was stored. -/
theorem OsnmaData.processNmaHeader_spec (d : OsnmaData C) (h : NmaHeader) (id : Nat)
    (hc : ∃ c, d.pubkey.current = some c ∧ c.pkid = id) (hn : ∀ n, d.pubkey.next = some n → id < n.pkid) :
    (h.cpks = .AlertMessage ∧ (d.processNmaHeader h id).merkleTree = none ∧
      (d.processNmaHeader h id).pubkey = .empty ∧ (d.processNmaHeader h id).key = .empty) ∨
    (h.cpks ≠ .AlertMessage ∧ (d.processNmaHeader h id).merkleTree = d.merkleTree ∧
      (d.processNmaHeader h id).pubkey = d.pubkey ∧
      (((h.nmaStatus = .DontUse ∧ (h.cpks = .ChainRevoked ∨ h.cpks = .PublicKeyRevoked)) ∧
        (d.processNmaHeader h id).key = d.key.revoke h.chainId) ∨
       (¬ (h.nmaStatus = .DontUse ∧ (h.cpks = .ChainRevoked ∨ h.cpks = .PublicKeyRevoked)) ∧
        (d.processNmaHeader h id).key = d.key))) := by
  have hr := PubkeyStore.revoke_noop hc hn
  unfold processNmaHeader alertMessageReceived
  dsimp only
  cases h1 : h.nmaStatus <;> cases h2 : h.cpks <;> simp [hr]

/-! ## Invariant -/

/-- Invariant on the log and the cryptographic material. -/
structure KeyInv (root0 : Option MerkleTreeNode) (pk0 : Option (PublicKey C)) (log : List (KeyEvent C))
    (mt : Option MerkleTreeNode) (ps : PubkeyStore C) (ks : KeyStore) : Prop where
  good : GoodLog root0 pk0 log
  root : mt = none ∨ mt = root0
  dead : AlertIn log → mt = none ∧ ps = .empty ∧ ks = .empty
  pwf : ps.Wf
  ptrust : ∀ k, ps.Has k → TrustedPk pk0 log k
  pmax : ¬ AlertIn log → ∀ h data pk key g, KeyEvent.kroot h data pk key g ∈ log →
    ∃ c, ps.current = some c ∧ pk.pkid ≤ c.pkid
  kdist : ks.Distinct
  krooted : ∀ k, ks.Has k → k.gst.Aligned ∧ RootedKey log k
  kforce : ∀ cif, ks.chainInForce = some cif → ∃ h, lastHeader log = some h ∧ h.chainId = cif.cid
  krev : ∀ c, ChainRevokedIn log c → ∀ k, ks.Has k → k.chain.id ≠ c
  kforce' : ¬ AlertIn log → ∀ h, lastHeader log = some h → ∃ s, ks.chainInForce = some ⟨h.chainId, s⟩

theorem AnnouncedKey.aligned {data : List Byte} {k : Key} (h : AnnouncedKey data k) : k.gst.Aligned := by
  unfold Gst.Aligned
  rw [h.time]; omega

namespace KeyInv
variable {root0 : Option MerkleTreeNode} {pk0 : Option (PublicKey C)} {log : List (KeyEvent C)}

theorem of_dead {ev : KeyEvent C} (hg : GoodLog root0 pk0 (log ++ [ev])) (ha : AlertIn (log ++ [ev])) :
    KeyInv root0 pk0 (log ++ [ev]) none .empty .empty where
  good := hg
  root := .inl rfl
  dead _ := ⟨rfl, rfl, rfl⟩
  pwf n h := by cases h
  ptrust k h := by rcases h with h | h <;> cases h
  pmax h := absurd ha h
  kdist a b h := by cases h
  krooted k h := by rcases h with h | h <;> cases h
  kforce c h := by cases h
  krev c _ k h := by rcases h with h | h <;> cases h
  kforce' h := absurd ha h

/-- A DSM. -/
theorem dsm {d d' : OsnmaData C} {g : Gst} {h : NmaHeader} {evs : List (KeyEvent C)}
    (inv : KeyInv root0 pk0 log d.merkleTree d.pubkey d.key) (st : OsnmaData.DsmStep d g h evs d') :
    KeyInv root0 pk0 (log ++ evs) d'.merkleTree d'.pubkey d'.key := by
  cases st with
  | nothing => simpa using inv
  | kroot k pkid pk key ps hid happ hkey hmk =>
    obtain ⟨happ1, happ2⟩ := PubkeyStore.applicable_some happ
    obtain ⟨_, _, hsig, hann, _⟩ := Key.fromDsmKroot_eq_ok.1 hkey
    have hna : ¬ AlertIn log := by
      intro ha
      have := (inv.dead ha).2.1
      rw [this] at happ1
      rcases happ1 with h | h <;> cases h
    have hpk : pkid = bitField k.data 4 4 := by
      unfold DsmKroot.publicKeyId at hid
      have := (field_eq_ok.1 hid).2.2
      exact this
    obtain ⟨w1, w2, w3, w4, w5⟩ := PubkeyStore.makeCurrent_spec inv.pwf hmk
    have hj : (KeyEvent.kroot h k.data pk key g).Justified root0 pk0 log := by
      refine ⟨inv.ptrust pk happ1, happ2.trans hpk, hsig, hann, ?_⟩
      intro h' data' pk' key' g' hm
      obtain ⟨c, hc, hle⟩ := inv.pmax hna _ _ _ _ _ hm
      have := w4 c hc
      omega
    have hgood := inv.good.snoc hna hj
    obtain ⟨k1, k2, ⟨s, k3⟩, k4, k5⟩ := KeyStore.storeKroot_spec d.key key h g inv.kdist
    rcases OsnmaData.processNmaHeader_spec
      ({ d with pubkey := ps, key := d.key.storeKroot key h g } : OsnmaData C) h pkid w3 w5 with
      ⟨ha, e1, e2, e3⟩ | ⟨ha, e1, e2, e3⟩
    · rw [e1, e2, e3]
      exact of_dead hgood (alertIn_snoc.2 (.inr ha))
    · rw [e1, e2]
      have hna' : ¬ AlertIn (log ++ [KeyEvent.kroot h k.data pk key g]) := by
        rw [alertIn_snoc]
        rintro (h | h)
        · exact hna h
        · exact ha h
      have hks : ∀ ks', (∀ x, ks'.Has x → (d.key.storeKroot key h g).Has x) → ks'.Distinct →
          (∃ s, ks'.chainInForce = some ⟨h.chainId, s⟩) →
          ((h.nmaStatus = .DontUse ∧ (h.cpks = .ChainRevoked ∨ h.cpks = .PublicKeyRevoked)) →
            ∀ x, ks'.Has x → x.chain.id ≠ h.chainId) →
          KeyInv root0 pk0 (log ++ [KeyEvent.kroot h k.data pk key g]) d.merkleTree ps ks' := by
        intro ks' q1 q2 ⟨s, q3⟩ q4
        refine ⟨hgood, inv.root, fun ha => absurd ha hna', w1, ?_, ?_, q2, ?_, ?_, ?_, ?_⟩
        · intro x hx
          exact (inv.ptrust x (w2 x hx)).mono _
        · intro _ h' data' pk' key' g' hm
          obtain ⟨c, hc, hi⟩ := w3
          refine ⟨c, hc, ?_⟩
          rcases List.mem_append.1 hm with hm | hm
          · obtain ⟨c', hc', hle⟩ := inv.pmax hna _ _ _ _ _ hm
            have := w4 c' hc'
            omega
          · simp only [List.mem_singleton, KeyEvent.kroot.injEq] at hm
            obtain ⟨_, _, rfl, _, _⟩ := hm
            omega
        · intro x hx
          rcases k1 x (q1 x hx) with hx | rfl
          · exact ⟨(inv.krooted x hx).1, (inv.krooted x hx).2.mono _⟩
          · exact ⟨hann.aligned, h, k.data, pk, x, g, 0, by simp, rfl, .zero _⟩
        · intro cif hcif
          rw [q3] at hcif; cases hcif
          exact ⟨h, lastHeader_kroot _ _ _ _ _ _, rfl⟩
        · intro c hc x hx
          rcases chainRevokedIn_snoc hc with hr | ⟨hr, hk⟩
          · obtain ⟨r1, r2, r3⟩ := hr
            rw [← r3]
            exact q4 ⟨r1, r2⟩ x hx
          · rcases k1 x (q1 x hx) with hx | rfl
            · exact inv.krev c hr x hx
            · exact hk
        · intro _ h' hl
          rw [lastHeader_kroot] at hl; cases hl
          exact ⟨s, q3⟩
      rcases e3 with ⟨hr, e3⟩ | ⟨hr, e3⟩
      · rw [e3]
        obtain ⟨r1, r2, r3⟩ := KeyStore.revoke_spec (d.key.storeKroot key h g) h.chainId
        refine hks _ (fun x hx => ((r1 x).1 hx).1) (r3 k2) ⟨s, ?_⟩ (fun _ x hx => ((r1 x).1 hx).2)
        rw [r2]; exact k3
      · rw [e3]
        exact hks _ (fun x hx => hx) k2 ⟨s, k3⟩ (fun h => absurd h hr)
  | pkr p root pk ps hroot hval hst =>
    have hna : ¬ AlertIn log := by
      intro ha
      have := (inv.dead ha).1
      rw [hroot] at this; cases this
    have hr0 : root0 = some root := by
      rcases inv.root with h | h
      · rw [hroot] at h; cases h
      · rw [← h, hroot]
    obtain ⟨w1, w2, w3⟩ := PubkeyStore.storeNew_spec inv.pwf hst
    have hna' : ¬ AlertIn (log ++ [KeyEvent.pkr p.data pk]) := by
      rw [alertIn_snoc]
      rintro (h | h)
      · exact hna h
      · exact h
    refine ⟨inv.good.snoc hna ⟨root, hr0, Merkle.validatePkr_eq_ok.1 hval⟩, inv.root, fun h => absurd h hna', w1,
      ?_, ?_, inv.kdist, ?_, ?_, ?_, ?_⟩
    · intro x hx
      rcases w2 x hx with hx | rfl
      · exact (inv.ptrust x hx).mono _
      · exact .inr ⟨p.data, by simp⟩
    · intro _ h' data' pk' key' g' hm
      simp only [List.mem_append, List.mem_singleton, reduceCtorEq, or_false] at hm
      obtain ⟨c, hc, hle⟩ := inv.pmax hna _ _ _ _ _ hm
      exact ⟨c, w3 c hc, hle⟩
    · intro x hx
      exact ⟨(inv.krooted x hx).1, (inv.krooted x hx).2.mono _⟩
    · intro cif hcif
      rw [lastHeader_other rfl]
      exact inv.kforce cif hcif
    · intro c hc x hx
      rcases chainRevokedIn_snoc hc with hr | ⟨hr, _⟩
      · exact absurd hr (fun h => h)
      · exact inv.krev c hr x hx
    · intro _ h' hl
      rw [lastHeader_other rfl] at hl
      exact inv.kforce' hna h' hl
  | alert p root hroot hval =>
    have hna : ¬ AlertIn log := by
      intro ha
      have := (inv.dead ha).1
      rw [hroot] at this; cases this
    have hr0 : root0 = some root := by
      rcases inv.root with h | h
      · rw [hroot] at h; cases h
      · rw [← h, hroot]
    obtain ⟨v1, s, v2, v3, v4⟩ := Merkle.validateAlert_eq_ok.1 hval
    refine of_dead (inv.good.snoc hna ⟨root, _, hr0, v1, ⟨s, ?_, v3, rfl⟩, v4⟩) (alertIn_snoc.2 (.inr trivial))
    rw [v1]; exact v2

/-- The key of a MACK. -/
theorem tesla {d : OsnmaData C} {m : MackMessage} {g : Gst} {evs : List (KeyEvent C)} {ks' : KeyStore}
    (inv : KeyInv root0 pk0 log d.merkleTree d.pubkey d.key) (st : OsnmaData.TeslaStep d m g evs ks') :
    KeyInv root0 pk0 (log ++ evs) d.merkleTree d.pubkey ks' := by
  cases st with
  | nothing => simpa using inv
  | accept cur _ hcur hal hlt hval hks =>
    obtain ⟨hhas, cif, hcif, hid⟩ := KeyStore.currentKey_some hcur
    obtain ⟨hcal, hroot⟩ := inv.krooted cur hhas
    have hna : ¬ AlertIn log := by
      intro ha
      have := (inv.dead ha).2.2
      rw [this] at hhas
      rcases hhas with h | h <;> cases h
    have hal' : (mackKey m cur.chain g).gst.Aligned := hal
    obtain ⟨_, _, n, _, _, hg, hd⟩ := (C23_accepts_iff cur (mackKey m cur.chain g) _ hcal hal').1 hval
    have hrk : RootedKey log (mackKey m cur.chain g) := by
      obtain ⟨a1, a2, a3, a4, a5, m', b1, b2, b3⟩ := hroot
      exact ⟨a1, a2, a3, a4, a5, n + m', b1, b2, hd.trans b3⟩
    have hev : ¬ (KeyEvent.tesla (C := C) (mackKey m cur.chain g)).IsAlert := fun h => h
    have hna' : ¬ AlertIn (log ++ [KeyEvent.tesla (mackKey m cur.chain g)]) := by
      rw [alertIn_snoc]
      rintro (h | h)
      · exact hna h
      · exact hev h
    obtain ⟨k1, k2, k3⟩ := KeyStore.storeKey_spec inv.kdist hks
    refine ⟨inv.good.snoc hna ⟨(Gst.aligned_iff _).1 hal, hrk, ?_, ?_⟩, inv.root, fun h => absurd h hna', inv.pwf,
      ?_, ?_, k3, ?_, ?_, ?_, ?_⟩
    · obtain ⟨h, h1, h2⟩ := inv.kforce cif hcif
      exact ⟨h, h1, h2.trans hid.symm⟩
    · intro hr
      exact inv.krev _ hr cur hhas rfl
    · intro x hx
      exact (inv.ptrust x hx).mono _
    · intro _ h' data' pk' key' g' hm
      simp only [List.mem_append, List.mem_singleton, reduceCtorEq, or_false] at hm
      exact inv.pmax hna _ _ _ _ _ hm
    · intro x hx
      rcases (k1 x).1 hx with ⟨hx, _⟩ | rfl
      · exact ⟨(inv.krooted x hx).1, (inv.krooted x hx).2.mono _⟩
      · exact ⟨hal, hrk.mono _⟩
    · intro c hc
      rw [k2] at hc
      rw [lastHeader_other rfl]
      exact inv.kforce c hc
    · intro c hc x hx
      rcases chainRevokedIn_snoc hc with hr | ⟨hr, _⟩
      · exact absurd hr (fun h => h)
      · rcases (k1 x).1 hx with ⟨hx, _⟩ | rfl
        · exact inv.krev c hr x hx
        · exact inv.krev c hr cur hhas
    · intro _ h' hl
      rw [lastHeader_other rfl] at hl
      rw [k2]
      exact inv.kforce' hna h' hl

/-- One call. -/
theorem step {o o' : Osnma C} {evs : List (KeyEvent C)}
    (inv : KeyInv root0 pk0 log o.data.data.merkleTree o.data.data.pubkey o.data.data.key) (st : KeyStep o o' evs) :
    KeyInv root0 pk0 (log ++ evs) o'.data.data.merkleTree o'.data.data.pubkey o'.data.data.key := by
  cases st with
  | nothing h1 h2 h3 => rw [h1, h2, h3, List.append_nil]; exact inv
  | subframe m g hd d0 d1 l1 l2 hp hk hm s1 s2 hp' hm' =>
    rw [← hp, ← hk, ← hm] at inv
    have := (inv.dsm s1).tesla s2
    rw [hp', hm', ← List.append_assoc]
    exact this

end KeyInv

/-- The invariant holds along every logged run from a new receiver. -/
theorem keyInv_run {root0 : Option MerkleTreeNode} {pk0 : Option (PublicKey C)} {slow : Bool}
    {hist : List Call} {log : List (KeyEvent C)} {o : Osnma C} (h : Logs S (Osnma.new S root0 pk0 slow) hist log o) :
    KeyInv root0 pk0 log o.data.data.merkleTree o.data.data.pubkey o.data.data.key := by
  refine h.key_induction (fun log o => KeyInv root0 pk0 log o.data.data.merkleTree o.data.data.pubkey o.data.data.key)
    ?_ (fun log o evs o' hp st => hp.step st)
  have na : ¬ AlertIn ([] : List (KeyEvent C)) := by rintro ⟨e, h, _⟩; cases h
  refine ⟨.nil, .inr rfl, fun h => absurd h na, ?_, ?_, ?_, ?_, ?_, ?_, ?_, ?_⟩
  · intro n hn
    cases pk0 <;> cases hn
  · intro k hk
    cases pk0 with
    | none => rcases hk with h | h <;> cases h
    | some p =>
      rcases hk with h | h
      · exact .inl h
      · cases h
  · intro _ _ _ _ _ _ h; cases h
  · intro a b h; cases h
  · intro k h; rcases h with h | h <;> cases h
  · intro c h; cases h
  · intro c _ k h; rcases h with h | h <;> cases h
  · intro _ h hl; cases hl

end Verif
