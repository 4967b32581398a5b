import Verif.Lemmas.Panic
import Verif.Spec.KeyMachine

/-! # Which chain the library takes to be in force, and since when -/

namespace Verif
open OsnmaData

variable {C : Crypto} {S : Storage}

theorem force_append (l₁ l₂ : List (KeyEvent C)) : force (l₁ ++ l₂) = l₂.foldl forceStep (force l₁) :=
  List.foldl_append ..

theorem header_force (d : OsnmaData C) (h : NmaHeader) (id : Nat) :
    (d.processNmaHeader h id).key.chainInForce = if h.cpks = .AlertMessage then none else d.key.chainInForce := by
  unfold processNmaHeader
  generalize h.cpks = c
  generalize h.nmaStatus = st
  cases c <;> cases st <;> rfl

theorem dsmStep_force {d d' : OsnmaData C} {g : Gst} {h : NmaHeader} {evs : List (KeyEvent C)} (st : DsmStep d g h evs d') :
    d'.key.chainInForce = evs.foldl forceStep d.key.chainInForce := by
  cases st with
  | nothing => rfl
  | kroot k pkid pk key ps hid happ hkey hmk =>
    simp only [List.foldl_cons, List.foldl_nil, forceStep]
    have hs : (d.key.storeKroot key h g).chainInForce =
        some ⟨h.chainId, d.key.chainInForce.bind (fun cif => if cif.cid ≠ h.chainId then some g else none)⟩ := rfl
    rw [header_force, hs]
  | pkr => rfl
  | alert => rfl

theorem teslaStep_force {d : OsnmaData C} {m : MackMessage} {g : Gst} {evs : List (KeyEvent C)} {ks : KeyStore}
    (st : TeslaStep d m g evs ks) : ks.chainInForce = evs.foldl forceStep d.key.chainInForce := by
  cases st with
  | nothing => rfl
  | accept cur ks hcur hal hlt hval hks =>
    unfold KeyStore.storeKey at hks
    dsimp only at hks
    split at hks
    · cases hks; rfl
    · split at hks
      · cases hks; rfl
      · cases hks

/-- The recorded chain in force is determined by the messages. -/
theorem force_run {root0 : Option MerkleTreeNode} {pk0 : Option (PublicKey C)} {slow : Bool}
    {hist : List Call} {log : List (KeyEvent C)} {o : Osnma C} (h : Logs S (Osnma.new S root0 pk0 slow) hist log o) :
    o.data.data.key.chainInForce = force log := by
  refine h.key_induction (fun log o => o.data.data.key.chainInForce = force log) rfl ?_
  intro log o evs o' ih st
  cases st with
  | nothing h1 h2 h3 => rw [h2, ih, List.append_nil]
  | subframe m g hd d0 d1 l1 l2 hp hk hm s1 s2 hp' hm' =>
    rw [teslaStep_force s2, dsmStep_force s1, hk, ih, force_append, List.foldl_append]

theorem force_noKroot {l : List (KeyEvent C)} {f : Option ChainInForce} (hk : ∀ e ∈ l, e.header? = none)
    (ha : ∀ e ∈ l, ¬ e.IsAlert) : l.foldl forceStep f = f := by
  induction l generalizing f with
  | nil => rfl
  | cons e l ih =>
    rw [List.foldl_cons, ih (fun e h => hk e (by simp [h])) (fun e h => ha e (by simp [h]))]
    cases e with
    | kroot h d p k g =>
      have := hk (.kroot h d p k g) List.mem_cons_self
      cases this
    | alert d => exact absurd trivial (ha (.alert d) List.mem_cons_self)
    | pkr => rfl
    | tesla => rfl

/-- After a change of the chain in force, and until the next KROOT. -/
theorem force_change {l1 l2 l3 : List (KeyEvent C)} {h1 h2 : NmaHeader} {d1 d2 : List Byte} {p1 p2 : PublicKey C}
    {k1 k2 : Key} {g1 g2 : Gst} (hne : h1.chainId ≠ h2.chainId)
    (ha : ¬ AlertIn (l1 ++ .kroot h1 d1 p1 k1 g1 :: (l2 ++ .kroot h2 d2 p2 k2 g2 :: l3)))
    (hk2 : ∀ e ∈ l2, e.header? = none) (hk3 : ∀ e ∈ l3, e.header? = none) :
    force (l1 ++ .kroot h1 d1 p1 k1 g1 :: (l2 ++ .kroot h2 d2 p2 k2 g2 :: l3)) = some ⟨h2.chainId, some g2⟩ := by
  have hna : ∀ e ∈ l1 ++ .kroot h1 d1 p1 k1 g1 :: (l2 ++ .kroot h2 d2 p2 k2 g2 :: l3), ¬ e.IsAlert :=
    fun e he h => ha ⟨e, he, h⟩
  rw [force_append, List.foldl_cons, List.foldl_append, List.foldl_cons,
    force_noKroot hk3 (fun e h => hna e (by simp [h])), force_noKroot hk2 (fun e h => hna e (by simp [h]))]
  have a1 : h1.cpks ≠ .AlertMessage := hna (.kroot h1 d1 p1 k1 g1) (by simp)
  have a2 : h2.cpks ≠ .AlertMessage := hna (.kroot h2 d2 p2 k2 g2) (by simp)
  simp [forceStep, a1, a2, hne]

/-- After a KROOT that does not change the chain in force, and until the next KROOT. -/
theorem force_same {l1 l2 l3 : List (KeyEvent C)} {h1 h2 : NmaHeader} {d1 d2 : List Byte} {p1 p2 : PublicKey C}
    {k1 k2 : Key} {g1 g2 : Gst} (hne : h1.chainId = h2.chainId)
    (ha : ¬ AlertIn (l1 ++ .kroot h1 d1 p1 k1 g1 :: (l2 ++ .kroot h2 d2 p2 k2 g2 :: l3)))
    (hk2 : ∀ e ∈ l2, e.header? = none) (hk3 : ∀ e ∈ l3, e.header? = none) :
    force (l1 ++ .kroot h1 d1 p1 k1 g1 :: (l2 ++ .kroot h2 d2 p2 k2 g2 :: l3)) = some ⟨h2.chainId, none⟩ := by
  have hna : ∀ e ∈ l1 ++ .kroot h1 d1 p1 k1 g1 :: (l2 ++ .kroot h2 d2 p2 k2 g2 :: l3), ¬ e.IsAlert :=
    fun e he h => ha ⟨e, he, h⟩
  rw [force_append, List.foldl_cons, List.foldl_append, List.foldl_cons,
    force_noKroot hk3 (fun e h => hna e (by simp [h])), force_noKroot hk2 (fun e h => hna e (by simp [h]))]
  have a1 : h1.cpks ≠ .AlertMessage := hna (.kroot h1 d1 p1 k1 g1) (by simp)
  have a2 : h2.cpks ≠ .AlertMessage := hna (.kroot h2 d2 p2 k2 g2) (by simp)
  simp [forceStep, a1, a2, hne]

/-- The key with which Slow MAC MACKs are checked is of another chain exactly for times before the
recorded start. -/
theorem slowmacKey_chain {d : OsnmaData C} {key vk : Key} {c : Nat} {g : Gst} (ha : key.gst.Aligned)
    (hk : ∀ k, d.key.Has k → k.gst.Aligned) (hf : d.key.chainInForce = some ⟨c, some g⟩)
    (h : d.slowmacKey key = .ok (some vk)) :
    vk.gst.abs = key.gst.abs - 300 ∧ (vk.gst.abs < g.abs → vk.chain.id ≠ c) ∧ (g.abs ≤ vk.gst.abs → vk.chain.id = c) := by
  obtain ⟨_, _, _, _, hv, _⟩ := slowmacKey_some ha hk h
  unfold OsnmaData.slowmacKey at h
  obtain ⟨gK, h1, h⟩ := Res.bind_eq_ok.1 h
  have hgk := ((Gst.addSeconds_eq_ok (by omega)).1 h1).2
  have hgv : gK.abs = vk.gst.abs := by omega
  cases hp : d.key.keyPastChain gK with
  | none => rw [hp] at h; cases h
  | some k =>
    rw [hp] at h
    dsimp only at h
    have hch : vk.chain = k.chain := by
      obtain ⟨x, _, h⟩ := Res.bind_eq_ok.1 h
      split at h
      · obtain ⟨r, hr, h⟩ := Res.bind_eq_ok.1 h
        simp only [Res.pure_eq, Res.ok.injEq, Option.some.injEq] at h
        subst h
        exact (Key.derive_gst hr).1
      · cases h
    refine ⟨hv, ?_, ?_⟩
    · intro hlt
      unfold KeyStore.keyPastChain at hp
      rw [hf] at hp
      simp only [Option.bind_some] at hp
      rw [if_pos (Gst.cmp_gt.2 (by omega))] at hp
      rw [hch]
      simpa using List.find?_some hp
    · intro hle
      unfold KeyStore.keyPastChain at hp
      rw [hf] at hp
      simp only [Option.bind_some] at hp
      rw [if_neg (by rw [Gst.cmp_gt]; omega)] at hp
      obtain ⟨_, cif, e1, e2⟩ := KeyStore.currentKey_some hp
      rw [hf] at e1; cases e1
      rw [hch]; exact e2

/-- … and it exists when a key of the other chain is stored that is not older. -/
theorem slowmacKey_past {d : OsnmaData C} {key k : Key} {c : Nat} {g : Gst} (ha : key.gst.Aligned) (hg : 300 ≤ key.gst.abs)
    (hcur : ∃ k, d.key.Has k ∧ k.chain.id = c)
    (hk : ∀ k, d.key.Has k → k.gst.Aligned) (hf : d.key.chainInForce = some ⟨c, some g⟩)
    (hlt : key.gst.abs - 300 < g.abs) (hh : d.key.Has k) (hc : k.chain.id ≠ c) (hge : key.gst.abs - 300 ≤ k.gst.abs) :
    ∃ vk n, d.slowmacKey key = .ok (some vk) ∧ vk.chain = k.chain ∧ vk.gst.abs = key.gst.abs - 300 ∧
      Derives C k.chain n (k.gst, k.bytes) (vk.gst, vk.bytes) := by
  obtain ⟨gK, h1⟩ := Gst.addSeconds_neg_returns (g := key.gst) (s := 300) (by decide) (by decide) hg
  have hgk := ((Gst.addSeconds_eq_ok (by omega)).1 h1).2
  have hp : d.key.keyPastChain gK = some k := by
    unfold KeyStore.keyPastChain
    rw [hf]
    simp only [Option.bind_some]
    rw [if_pos (Gst.cmp_gt.2 (by rw [hgk]; exact hlt))]
    obtain ⟨kc, hkc, hkid⟩ := hcur
    unfold KeyStore.keys
    rcases hh with h0 | h0 <;> rcases hkc with h0' | h0' <;> rw [h0] at * <;>
      first
      | (cases h0'; exact absurd hkid hc)
      | (rw [h0']; simp [hc, hkid])
  have hka := hk k hh
  have hr := gK.abs_representable
  simp only [Representable] at hr
  have key' : ∀ a b c : Int, a % 30 = 0 → c % 30 = 0 → 300 ≤ a → b = a + -300 → a - 300 ≤ c →
      b % 30 = 0 ∧ ∃ n : Nat, (c - b) / 30 = n ∧ 30 * (n : Int) ≤ c ∧ c - 30 * (n : Int) = a - 300 := by
    intro a b c h1 h2 h3 h4 h5
    have h6 : 0 ≤ (c - b) / 30 := by omega
    obtain ⟨n, hn⟩ := Int.eq_ofNat_of_zero_le h6
    exact ⟨by omega, n, hn, by omega, by omega⟩
  obtain ⟨hga, n, q1, q2, q3⟩ := key' key.gst.abs gK.abs k.gst.abs ha hka hg hgk hge
  obtain ⟨vk, hvk⟩ := Key.derive_returns (C := C) (k := k) (n := n) q2
  obtain ⟨e1, e2⟩ := Key.derive_gst hvk
  refine ⟨vk, n, ?_, e1, e2.trans q3, Key.derive_derives hvk⟩
  unfold OsnmaData.slowmacKey
  rw [h1]
  simp only [Res.ok_bind]
  rw [hp]
  dsimp only
  rw [Gst.subframesDifference_aligned hka hga, q1]
  simp only [Res.ok_bind]
  rw [if_pos (Int.natCast_nonneg n), Int.toNat_natCast, hvk]
  rfl

/-! ## The key that new keys are validated with -/

theorem KeyStore.currentKey_of_has {ks : KeyStore} {k : Key} {s : Option Gst} (hd : ks.Distinct) (hh : ks.Has k)
    (hf : ks.chainInForce = some ⟨k.chain.id, s⟩) : ks.currentKey = some k := by
  unfold currentKey
  rw [hf]
  simp only [Option.bind_some]
  unfold keys
  unfold Distinct at hd
  rcases hh with h | h
  · rw [h]; simp
  · rw [h]
    cases h0 : ks.key0 with
    | none => simp
    | some a =>
      have := hd a k h0 h
      simp [this]

theorem header_key (d : OsnmaData C) (h : NmaHeader) (id : Nat) (ha : h.cpks ≠ .AlertMessage)
    (hr : ¬ (h.nmaStatus = .DontUse ∧ (h.cpks = .ChainRevoked ∨ h.cpks = .PublicKeyRevoked))) :
    (d.processNmaHeader h id).key = d.key := by
  unfold processNmaHeader
  generalize h.cpks = c at *
  generalize h.nmaStatus = st at *
  cases c <;> cases st <;> first | rfl | exact absurd rfl ha | exact absurd ⟨rfl, .inl rfl⟩ hr | exact absurd ⟨rfl, .inr rfl⟩ hr

/-- The key `cur` is the last accepted one of its chain, and nothing since took it away. -/
def Current (log : List (KeyEvent C)) (cur : Key) : Prop :=
  ∃ l1 l2, log = l1 ++ .tesla cur :: l2 ∧ ∀ e ∈ l2, e.Confirms cur.chain.id

/-- Every key accepted next is derived from it within 3000 steps. -/
def Anchored (log : List (KeyEvent C)) : Prop :=
  ∀ before k after cur, log = before ++ .tesla k :: after → Current before cur → k.chain = cur.chain ∧
    ∃ n : Nat, 1 ≤ n ∧ n ≤ 3000 ∧ k.gst.abs = cur.gst.abs + 30 * n ∧
      Derives C cur.chain n (k.gst, k.bytes) (cur.gst, cur.bytes)

theorem current_snoc {log : List (KeyEvent C)} {e : KeyEvent C} {cur : Key} (h : Current (log ++ [e]) cur) :
    e = .tesla cur ∨ (Current log cur ∧ e.Confirms cur.chain.id) := by
  obtain ⟨l1, l2, h1, h2⟩ := h
  rcases snoc_split h1 with ⟨_, h, _⟩ | ⟨a', rfl, h⟩
  · exact .inl h.symm
  · exact .inr ⟨⟨l1, a', h, fun e he => h2 e (by simp [he])⟩, h2 e (by simp)⟩

theorem anchored_snoc {log : List (KeyEvent C)} {e : KeyEvent C} (h : Anchored log)
    (he : ∀ k cur, e = .tesla k → Current log cur → k.chain = cur.chain ∧
      ∃ n : Nat, 1 ≤ n ∧ n ≤ 3000 ∧ k.gst.abs = cur.gst.abs + 30 * n ∧
        Derives C cur.chain n (k.gst, k.bytes) (cur.gst, cur.bytes)) : Anchored (log ++ [e]) := by
  intro before k after cur hs hc
  rcases snoc_split hs with ⟨rfl, rfl, _⟩ | ⟨a', rfl, h'⟩
  · exact he k cur rfl hc
  · exact h before k a' cur h' hc

variable {root0 : Option MerkleTreeNode} {pk0 : Option (PublicKey C)} {log : List (KeyEvent C)}

theorem anchor_dsm {d d' : OsnmaData C} {g : Gst} {h : NmaHeader} {evs : List (KeyEvent C)}
    (inv : KeyInv root0 pk0 log d.merkleTree d.pubkey d.key)
    (hc : ∀ cur, Current log cur → d.key.currentKey = some cur) (ha : Anchored log) (st : DsmStep d g h evs d') :
    (∀ cur, Current (log ++ evs) cur → d'.key.currentKey = some cur) ∧ Anchored (log ++ evs) := by
  cases st with
  | nothing => rw [List.append_nil]; exact ⟨hc, ha⟩
  | kroot k pkid pk key ps hid happ hkey hmk =>
    refine ⟨?_, anchored_snoc ha (fun k cur h => by cases h)⟩
    intro cur hcur
    rcases current_snoc hcur with h' | ⟨h', hb⟩
    · cases h'
    · obtain ⟨b1, b2, b3⟩ := hb
      rw [header_key _ _ _ b3 (fun hr => b2 ⟨hr.1, hr.2, b1⟩)]
      obtain ⟨_, k2, ⟨s, k3⟩, _, k5⟩ := KeyStore.storeKroot_spec d.key key h g inv.kdist
      refine KeyStore.currentKey_of_has (s := s) k2 ?_ (by rw [k3, b1])
      have hhas := (KeyStore.currentKey_some (hc cur h')).1
      rcases k5 cur hhas with h5 | ⟨_, h5, _⟩
      · exact h5
      · exact absurd b1.symm h5
  | pkr p root pk ps hroot hval hst =>
    refine ⟨?_, anchored_snoc ha (fun k cur h => by cases h)⟩
    intro cur hcur
    rcases current_snoc hcur with h' | ⟨h', _⟩
    · cases h'
    · exact hc cur h'
  | alert p root hroot hval =>
    refine ⟨?_, anchored_snoc ha (fun k cur h => by cases h)⟩
    intro cur hcur
    rcases current_snoc hcur with h' | ⟨_, hb⟩
    · cases h'
    · exact absurd hb (fun h => h)

theorem anchor_tesla {d : OsnmaData C} {m : MackMessage} {g : Gst} {evs : List (KeyEvent C)} {ks' : KeyStore}
    (inv : KeyInv root0 pk0 log d.merkleTree d.pubkey d.key)
    (hc : ∀ cur, Current log cur → d.key.currentKey = some cur) (ha : Anchored log) (st : TeslaStep d m g evs ks') :
    (∀ cur, Current (log ++ evs) cur → ks'.currentKey = some cur) ∧ Anchored (log ++ evs) := by
  cases st with
  | nothing => rw [List.append_nil]; exact ⟨hc, ha⟩
  | accept cur' _ hcur hal hlt hval hks =>
    obtain ⟨hhas, cif, hcif, hid⟩ := KeyStore.currentKey_some hcur
    obtain ⟨hcal, _⟩ := inv.krooted cur' hhas
    constructor
    · intro cur hcur'
      rcases current_snoc hcur' with h' | ⟨h', hb⟩
      · cases h'
        obtain ⟨k1, k2, k3⟩ := KeyStore.storeKey_spec inv.kdist hks
        refine KeyStore.currentKey_of_has (s := cif.startApplicability) k3 ((k1 _).2 (.inr rfl)) ?_
        rw [k2, hcif]
        show some cif = some ⟨cur'.chain.id, _⟩
        rw [hid]
      · exact absurd hb (fun h => h)
    · refine anchored_snoc ha ?_
      intro k cur he hcur'
      cases he
      have := hc cur hcur'
      rw [hcur] at this
      cases this
      obtain ⟨_, a, n, b⟩ := (C23_accepts_iff cur' (mackKey m cur'.chain g) _ hcal hal).1 hval
      exact ⟨a.symm, n, b⟩

theorem anchored_run {slow : Bool} {hist : List Call} {o : Osnma C} (h : Logs S (Osnma.new S root0 pk0 slow) hist log o) :
    (∀ cur, Current log cur → o.data.data.key.currentKey = some cur) ∧ Anchored log := by
  have key : KeyInv root0 pk0 log o.data.data.merkleTree o.data.data.pubkey o.data.data.key ∧
      (∀ cur, Current log cur → o.data.data.key.currentKey = some cur) ∧ Anchored log := by
    refine h.key_induction (fun log o => KeyInv root0 pk0 log o.data.data.merkleTree o.data.data.pubkey o.data.data.key ∧
      (∀ cur, Current log cur → o.data.data.key.currentKey = some cur) ∧ Anchored log) ?_ ?_
    · refine ⟨keyInv_run (S := S) (slow := slow) (.nil), ?_, ?_⟩
      · rintro cur ⟨l1, l2, h, _⟩
        cases l1 <;> cases h
      · intro before k after cur h
        cases before <;> cases h
    · intro log o evs o' ⟨inv, ih1, ih2⟩ st
      refine ⟨inv.step st, ?_⟩
      cases st with
      | nothing h1 h2 h3 => rw [h2, List.append_nil]; exact ⟨ih1, ih2⟩
      | subframe m g hd d0 d1 l1 l2 hp hk hm s1 s2 hp' hm' =>
        rw [← hp, ← hk, ← hm] at inv
        rw [← hk] at ih1
        have inv1 := inv.dsm s1
        obtain ⟨a1, a2⟩ := anchor_dsm inv ih1 ih2 s1
        obtain ⟨b1, b2⟩ := anchor_tesla inv1 a1 a2 s2
        rw [← List.append_assoc]
        exact ⟨b1, b2⟩
  exact key.2

end Verif
