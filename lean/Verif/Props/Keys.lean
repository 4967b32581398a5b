import Verif.Lemmas.KeyInv
import Verif.Props.AuthBits
import Verif.Tests.ScenariosKeys

/-! # Properties of the public key and TESLA key stores over histories (C29, C30, C34–C37)

Histories are logged runs (`Logs`): the calls made, the acceptance messages that the library emitted
through the `log` crate, and the state reached.  `Logs.of_run` and `Logs.run` say that the logged runs
are exactly the runs that do not panic. -/

namespace Verif
open CollectNavMessage

variable {S : Storage} {C : Crypto} {root0 : Option MerkleTreeNode} {pk0 : Option (PublicKey C)} {slow : Bool}
  {hist : List Call} {log : List (KeyEvent C)} {o o' : Osnma C} {c : Call}

/-- Every run that does not panic is a logged run, and conversely. -/
theorem C29_logged_runs_are_runs {o0 : Osnma C} : Verif.run S o0 hist = .ok o ↔ ∃ log, Logs S o0 hist log o :=
  ⟨Logs.of_run, fun ⟨_, h⟩ => h.run⟩

/-! ## One call, seen from the stores -/

theorem OsnmaData.teslaEvents_accept {d : OsnmaData C} {m : MackMessage} {g : Gst} {cur : Key}
    (hcur : d.key.currentKey = some cur) (hal : g.Aligned) (hlt : cur.gst.abs < g.abs)
    (hval : cur.validateKey C (mackKey m cur.chain g) = .ok (.ok (mackKey m cur.chain g))) :
    d.teslaEvents m g = [.tesla (mackKey m cur.chain g)] := by
  unfold teslaEvents
  rw [hcur]
  dsimp only
  have hk := Mack.key_ok m cur.chain
  unfold mackOf at hk
  rw [hk]
  simp only [Res.ok_bind]
  have hb : Key.fromBitslice (((bitsOf m.val).drop (cur.chain.numTags * (cur.chain.tagSizeBits + 16))).take
      (8 * cur.chain.keySizeBytes)) g cur.chain = .ok (mackKey m cur.chain g) := by
    have h0 : ∃ k, Key.fromBitslice (((bitsOf m.val).drop (cur.chain.numTags * (cur.chain.tagSizeBits + 16))).take
        (8 * cur.chain.keySizeBytes)) g cur.chain = .ok k := by
      unfold Key.fromBitslice Key.checkGst
      rw [show g.isSubframe = true from (Gst.isSubframe_iff g).2 hal]
      have hl := Mack.key_length m cur.chain
      simp only [Res.assert_true, Res.ok_bind]
      rw [show ((((bitsOf m.val).drop (cur.chain.numTags * (cur.chain.tagSizeBits + 16))).take
        (8 * cur.chain.keySizeBytes)).length == cur.chain.keySizeBytes * 8) = true by
          rw [hl]; simp [Nat.mul_comm]]
      exact ⟨_, rfl⟩
    obtain ⟨k, hk⟩ := h0
    rw [hk]
    exact congrArg Res.ok (Key.fromBitslice_eq_ok hk).2.2
  rw [hb]
  dsimp only
  rw [show Gst.cmp cur.gst (mackKey m cur.chain g).gst = .lt from Gst.cmp_lt.2 hlt]
  dsimp only
  rw [hval]

/-- A call of `feed_osnma` changes the navigation data only if it logs a new TESLA key `k`, and then
all it does is to count tags checked with `k`. -/
theorem feedOsnma_tesla {d : OsnmaDataMessage} {sv : Svn} {g : Gst} (hi : Inv S o.data.data.navmessage)
    (hc : o.feedOsnma S d sv g = .ok o') :
    o'.data.data.navmessage = o.data.data.navmessage ∨
    ∃ a : KeyArrives S o o' d sv g, KeyEvent.tesla (mackKey a.msg a.cur.chain a.g) ∈ o.events S (.osnma d sv g) := by
  rcases Osnma.feedOsnma_of_ok hc with ⟨_, rfl⟩ | ⟨hz, ⟨sf, _, rfl⟩ | ⟨⟨c⟩⟩⟩
  · exact .inl rfl
  · exact .inl rfl
  · have ho : o'.data.data = c.d2 := congrArg (fun z => z.data.data) c.ho
    obtain ⟨e1, _, _⟩ := c.d1_nav
    rcases OsnmaData.validateKey_of_ok c.hd2 with h2 | ⟨cur, ks, h1, h2, h3, h4, h5, h6⟩
    · left
      rw [ho, h2, e1]
    · right
      obtain ⟨gm, gs, sk, k1, k2, k3, k4⟩ := OsnmaData.processTags_of_ok (S := S) (by exact h2)
        (by show Inv S c.d1.navmessage; rw [e1]; exact hi) h6
      refine ⟨⟨c, cur, ks, gm, gs, sk, h1, h2, h3, h4, h5, k1, k2, k3, ?_⟩, ?_⟩
      · rw [ho, k4]
        simp only [e1]
      · rw [c.events hz, OsnmaData.teslaEvents_accept h1 h2 h3 h4]
        simp

theorem PubkeyStore.makeCurrent_same {p p' : PubkeyStore C} {id : Nat} (h : p.makeCurrent id = .ok p') {k : PublicKey C}
    (hk : p.current = some k) (hid : k.pkid = id) : p' = p := by
  unfold makeCurrent at h
  obtain ⟨_, _, h⟩ := Res.bind_eq_ok.1 h
  rw [if_pos (by rw [hk]; simp [hid])] at h
  simp only [Res.pure_eq, Res.ok.injEq] at h
  exact h.symm

/-- One call, seen from the current public key. -/
theorem KeyStep.pubkey {evs : List (KeyEvent C)} {mt : Option MerkleTreeNode} {ks : KeyStore}
    (inv : KeyInv root0 pk0 log mt o.data.data.pubkey ks) (st : KeyStep o o' evs) {k : PublicKey C}
    (hk : o.data.data.pubkey.current = some k) :
    (∃ k', o'.data.data.pubkey.current = some k' ∧ k.pkid ≤ k'.pkid ∧ (k'.pkid = k.pkid → k' = k)) ∨
    (o'.data.data.pubkey = .empty ∧ ∃ e ∈ evs, e.IsAlert) := by
  cases st with
  | nothing h1 _ _ => rw [h1]; exact .inl ⟨k, hk, Nat.le_refl _, fun _ => rfl⟩
  | subframe m g hd d0 d1 l1 l2 hp hk' hm s1 s2 hp' hm' =>
    rw [hp']
    rw [← hp] at hk inv
    cases s1 with
    | nothing => exact .inl ⟨k, hk, Nat.le_refl _, fun _ => rfl⟩
    | kroot kr pkid pk key ps hid happ hkey hmk =>
      obtain ⟨w1, w2, w3, w4, w5⟩ := PubkeyStore.makeCurrent_spec inv.pwf hmk
      rcases OsnmaData.processNmaHeader_spec
        ({ d0 with pubkey := ps, key := d0.key.storeKroot key hd g } : OsnmaData C) hd pkid w3 w5 with
        ⟨ha, _, e2, _⟩ | ⟨_, _, e2, _⟩
      · rw [e2]
        exact .inr ⟨rfl, .kroot hd kr.data pk key g, by simp, ha⟩
      · rw [e2]
        obtain ⟨c', hc', hi⟩ := w3
        refine .inl ⟨c', hc', by have := w4 k hk; omega, ?_⟩
        intro he
        have hid2 : k.pkid = pkid := he.symm.trans hi
        have := PubkeyStore.makeCurrent_same hmk hk hid2
        rw [this, hk] at hc'
        cases hc'; rfl
    | pkr p root pk ps hroot hval hst =>
      obtain ⟨_, _, w3⟩ := PubkeyStore.storeNew_spec inv.pwf hst
      exact .inl ⟨k, w3 k hk, Nat.le_refl _, fun _ => rfl⟩
    | alert p root hroot hval => exact .inr ⟨rfl, .alert p.data, by simp, trivial⟩

/-! ## C29: public keys -/

/-- **C29.** At most two public keys are held (by construction: `current` and `next`); a next key is
only held together with a current key of smaller id, and both are trusted: given at construction or
proved by a DSM-PKR. -/
theorem C29_keys_ordered (h : Logs S (Osnma.new S root0 pk0 slow) hist log o) :
    (∀ n, o.data.data.pubkey.next = some n → ∃ k, o.data.data.pubkey.current = some k ∧ k.pkid < n.pkid) ∧
    (∀ k, o.data.data.pubkey.current = some k ∨ o.data.data.pubkey.next = some k → TrustedPk pk0 log k) :=
  ⟨(keyInv_run h).pwf, (keyInv_run h).ptrust⟩

/-- A reachable state with two public keys. -/
example : ∃ hist log, ∃ o : Osnma Sim.toy, Logs Sim.S (Osnma.new Sim.S (some Sim.root) (some (Sim.pub 1)) false) hist log o ∧
    o.data.data.pubkey.next.map (·.pkid) = some 2 ∧ o.data.data.pubkey.current.map (·.pkid) = some 1 := by
  obtain ⟨log, o, h, hf⟩ := Sim.check_some Sim.twoPublicKeys
  simp only [Bool.and_eq_true, beq_iff_eq] at hf
  exact ⟨_, log, o, h, hf.2, hf.1⟩

/-- **C29.** No assertion, `unwrap` or `panic!` of the public key store can fire: in every reachable
state looking up any id returns, storing any key returns, and making the id of the key that was found
current returns. -/
theorem C29_no_assertion_fires (h : Logs S (Osnma.new S root0 pk0 slow) hist log o) :
    (∀ id, ∃ r, o.data.data.pubkey.applicable id = .ok r) ∧
    (∀ k, ∃ p, o.data.data.pubkey.storeNew k = .ok p) ∧
    (∀ id k, o.data.data.pubkey.applicable id = .ok (some k) → ∃ p, o.data.data.pubkey.makeCurrent id = .ok p) := by
  have w := (keyInv_run h).pwf
  refine ⟨PubkeyStore.applicable_returns w, PubkeyStore.storeNew_returns w, ?_⟩
  intro id k hk
  obtain ⟨h1, h2⟩ := PubkeyStore.applicable_some hk
  rw [← h2]
  exact PubkeyStore.makeCurrent_returns w h1

/-- **C29.** One call never replaces the current public key by one with a smaller id, nor by another
key with the same id; the only way to lose it is an alert, which empties the store. -/
theorem C29_current_never_decreases (h : Logs S (Osnma.new S root0 pk0 slow) hist log o) (hc : c.run S o = .ok o')
    {k : PublicKey C} (hk : o.data.data.pubkey.current = some k) :
    (∃ k', o'.data.data.pubkey.current = some k' ∧ k.pkid ≤ k'.pkid ∧ (k'.pkid = k.pkid → k' = k)) ∨
    (o'.data.data.pubkey = .empty ∧ ∃ e ∈ o.events S c, e.IsAlert) :=
  (Call.keyStep hc).pubkey (keyInv_run h) hk

theorem PubkeyStore.storeNew_exact {p p' : PubkeyStore C} {k : PublicKey C} {d : List Byte} (h : p.storeNew k = .ok p') :
    (p'.current, p'.next) = keysAfter (p.current, p.next) (.pkr d k) := by
  unfold storeNew at h
  obtain ⟨_, _, h⟩ := Res.bind_eq_ok.1 h
  unfold keysAfter
  cases hc : p.current with
  | none =>
    rw [hc] at h
    simp only [Res.pure_eq, Res.ok.injEq] at h
    subst h
    rfl
  | some c =>
    rw [hc] at h
    dsimp only at h ⊢
    cases hn : p.next with
    | none =>
      rw [hn] at h
      dsimp only at h ⊢
      by_cases h1 : k.pkid < c.pkid
      · rw [if_pos h1] at h; cases h; rw [if_neg (by omega), hc, hn]
      · rw [if_neg h1] at h
        by_cases h2 : k.pkid = c.pkid
        · rw [if_pos h2] at h; cases h; rw [if_neg (by omega), hc, hn]
        · rw [if_neg h2] at h; cases h; rw [if_pos (by omega)]
    | some n =>
      rw [hn] at h
      dsimp only at h ⊢
      by_cases h1 : k.pkid < c.pkid
      · rw [if_pos h1] at h; cases h; rw [if_neg (by omega), hc, hn]
      · rw [if_neg h1] at h
        by_cases h2 : k.pkid = c.pkid
        · rw [if_pos h2] at h; cases h; rw [if_neg (by omega), hc, hn]
        · rw [if_neg h2] at h
          by_cases h3 : k.pkid > n.pkid
          · rw [if_pos h3] at h; cases h; rw [if_pos (by omega)]
          · rw [if_neg h3] at h; cases h; rw [if_neg (by omega), hc, hn]

theorem PubkeyStore.makeCurrent_exact {p p' : PubkeyStore C} {pk : PublicKey C} (happ : p.applicable pk.pkid = .ok (some pk))
    (h : p.makeCurrent pk.pkid = .ok p') :
    (p'.current, p'.next) = match (p.current, p.next) with
      | (some c, next) => if c.pkid = pk.pkid then (some c, next) else (some pk, none)
      | (none, _) => (some pk, none) := by
  obtain ⟨hhas, _⟩ := applicable_some happ
  by_cases hcur : ∃ c, p.current = some c ∧ c.pkid = pk.pkid
  · obtain ⟨c, hc, hid⟩ := hcur
    rw [makeCurrent_same h hc hid, hc]
    simp [hid]
  · have hn : p.next = some pk := by
      rcases hhas with h | h
      · exact absurd ⟨pk, h, rfl⟩ hcur
      · exact h
    unfold makeCurrent at h
    obtain ⟨_, _, h⟩ := Res.bind_eq_ok.1 h
    rw [if_neg (by
      cases hc : p.current with
      | none => simp
      | some c => simpa using fun e => hcur ⟨c, hc, e⟩), if_pos (by rw [hn]; rfl)] at h
    obtain ⟨c, hc, h⟩ := Res.bind_eq_ok.1 h
    obtain ⟨_, ha, h⟩ := Res.bind_eq_ok.1 h
    simp only [Res.pure_eq, Res.ok.injEq] at h
    subst h
    rw [Res.unwrap_eq_ok] at hc
    rw [hc]
    simp only
    rw [if_neg (fun e => hcur ⟨c, hc, e⟩), hn]

/-- **C29, exact.** The public keys held are a function of the messages: see `keysHeld`. -/
theorem C29_keys_exact (h : Logs S (Osnma.new S root0 pk0 slow) hist log o) :
    (o.data.data.pubkey.current, o.data.data.pubkey.next) = keysHeld pk0 log := by
  induction h with
  | nil => cases pk0 <;> rfl
  | @snoc hi lo oa ob c hl hc ih =>
    have inv := keyInv_run hl
    unfold keysHeld at ih ⊢
    rw [List.foldl_append, ← ih]
    have st := Call.keyStep hc
    generalize oa.events S c = evs at st
    cases st with
    | nothing h1 _ _ => rw [h1]; rfl
    | subframe m g hd d0 d1 l1 l2 hp hk' hm s1 s2 hp' hm' =>
      have hl2 : ∀ x : Option (PublicKey C) × Option (PublicKey C), l2.foldl keysAfter x = x := by
        generalize ob.data.data.key = kse at s2
        cases s2 <;> intro x <;> rfl
      rw [List.foldl_append, hl2, hp', ← hp]
      rw [← hp] at inv
      cases s1 with
      | nothing => rfl
      | kroot kr pkid pk key ps hid happ hkey hmk =>
        obtain ⟨_, w2, w3, w4, w5⟩ := PubkeyStore.makeCurrent_spec inv.pwf hmk
        obtain ⟨_, rfl⟩ := PubkeyStore.applicable_some happ
        have e := PubkeyStore.makeCurrent_exact happ hmk
        simp only [List.foldl_cons, List.foldl_nil, keysAfter]
        rcases OsnmaData.processNmaHeader_spec
          ({ d0 with pubkey := ps, key := d0.key.storeKroot key hd g } : OsnmaData C) hd pk.pkid w3 w5 with
          ⟨ha, _, e2, _⟩ | ⟨ha, _, e2, _⟩
        · rw [e2, if_pos ha]; rfl
        · rw [e2, if_neg ha]; exact e
      | pkr p root pk ps hroot hval hst => exact PubkeyStore.storeNew_exact (d := p.data) hst
      | alert p root hroot hval => rfl

/-- Only the current key or the next one verify KROOTs. -/
theorem KeyStep.kroot_key {evs : List (KeyEvent C)} (st : KeyStep o o' evs) {hd : NmaHeader} {data : List Byte}
    {pk : PublicKey C} {key : Key} {g : Gst} (he : KeyEvent.kroot hd data pk key g ∈ evs) : o.data.data.pubkey.Has pk := by
  cases st with
  | nothing => cases he
  | subframe m g' hd' d0 d1 l1 l2 hp hk' hm s1 s2 hp' hm' =>
    rw [← hp]
    have hl2 : KeyEvent.kroot hd data pk key g ∉ l2 := by
      generalize o'.data.data.key = kse at s2
      cases s2 <;> simp
    rcases List.mem_append.1 he with he | he
    · cases s1 with
      | kroot kr pkid pk' key' ps hid happ hkey hmk =>
        simp only [List.mem_singleton, KeyEvent.kroot.injEq] at he
        obtain ⟨_, _, rfl, _⟩ := he
        exact (PubkeyStore.applicable_some happ).1
      | _ => simp at he
    · exact absurd he hl2

/-- **C29.** A public key with an id smaller than the current one is never used again: after any
continuation of the history, every KROOT that is verified was verified with a key of at least that id. -/
theorem C29_smaller_never_used (h : Logs S (Osnma.new S root0 pk0 slow) hist log o) {k : PublicKey C}
    (hk : o.data.data.pubkey.current = some k) {hist2 : List Call} {log2 : List (KeyEvent C)} {o2 : Osnma C}
    (h2 : Logs S o hist2 log2 o2) {hd : NmaHeader} {data : List Byte} {pk : PublicKey C} {key : Key} {g : Gst}
    (he : KeyEvent.kroot hd data pk key g ∈ log2) : k.pkid ≤ pk.pkid := by
  have main : ∀ {hist2 log2 o2}, Logs S o hist2 log2 o2 →
      (∀ hd data pk key g, KeyEvent.kroot hd data pk key g ∈ log2 → k.pkid ≤ pk.pkid) ∧
      ((∃ k', o2.data.data.pubkey.current = some k' ∧ k.pkid ≤ k'.pkid) ∨ AlertIn (log ++ log2)) := by
    intro hist2 log2 o2 h2
    induction h2 with
    | nil => exact ⟨fun _ _ _ _ _ h => by (cases h), .inl ⟨k, hk, Nat.le_refl _⟩⟩
    | @snoc hi lo oa ob c h2 hc ih =>
      have inv := keyInv_run (h.trans h2)
      have st := Call.keyStep hc
      obtain ⟨i1, i2⟩ := ih
      have halert : AlertIn (log ++ lo) → AlertIn (log ++ (lo ++ oa.events S c)) := by
        rintro ⟨e, he, ha⟩
        exact ⟨e, by rw [← List.append_assoc]; exact List.mem_append_left _ he, ha⟩
      constructor
      · intro hd data pk key g hm
        rcases List.mem_append.1 hm with hm | hm
        · exact i1 _ _ _ _ _ hm
        · have hh := st.kroot_key hm
          rcases i2 with ⟨k', hk', hle⟩ | ha
          · rcases hh with hh | hh
            · rw [hk'] at hh; cases hh; exact hle
            · obtain ⟨c', hc', hl⟩ := inv.pwf pk hh
              rw [hk'] at hc'; cases hc'; omega
          · rw [(inv.dead ha).2.1] at hh
            rcases hh with hh | hh <;> cases hh
      · rcases i2 with ⟨k', hk', hle⟩ | ha
        · rcases st.pubkey inv hk' with ⟨k'', e1, e2, _⟩ | ⟨_, e, e1, e2⟩
          · exact .inl ⟨k'', e1, Nat.le_trans hle e2⟩
          · exact .inr ⟨e, by simp [e1], e2⟩
        · exact .inr (halert ha)
  exact (main h2).1 _ _ _ _ _ he

/-! ## C36: after a key change the old public key is never accepted again -/

/-- **C36.** In every log the announced public key ids (bits 4–7 of the DSM-KROOT) of the verified
KROOTs never decrease. -/
theorem C36_announced_ids_never_decrease (h : Logs S (Osnma.new S root0 pk0 slow) hist log o)
    {l1 l2 l3 : List (KeyEvent C)} {hd hd' : NmaHeader} {data data' : List Byte} {pk pk' : PublicKey C} {key key' : Key}
    {g g' : Gst} (hl : log = l1 ++ .kroot hd data pk key g :: (l2 ++ .kroot hd' data' pk' key' g' :: l3)) :
    bitField data 4 4 ≤ bitField data' 4 4 ∧ pk.pkid = bitField data 4 4 ∧ pk'.pkid = bitField data' 4 4 := by
  have hg := (keyInv_run h).good
  obtain ⟨_, _, e1, _⟩ := hg _ _ _ hl
  obtain ⟨_, _, e2, _, _, e3⟩ := hg (l1 ++ .kroot hd data pk key g :: l2) (.kroot hd' data' pk' key' g') l3 (by rw [hl]; simp)
  refine ⟨?_, e1, e2⟩
  rw [← e1, ← e2]
  exact e3 hd data pk key g (by simp)

/-- A history with two KROOTs verified with different public keys. -/
example : ∃ hist log, ∃ o : Osnma Sim.toy, Logs Sim.S (Osnma.new Sim.S (some Sim.root) (some (Sim.pub 1)) false) hist log o ∧
    ∃ l1 l2 l3 hd data pk key g hd' data' pk' key' g',
      log = l1 ++ .kroot hd data pk key g :: (l2 ++ .kroot hd' data' pk' key' g' :: l3) ∧ pk.pkid = 1 ∧ pk'.pkid = 2 := by
  obtain ⟨log, o, h, hc, _⟩ := Sim.outcome_some Sim.keyChange
  obtain ⟨e1, t, rfl, h1, ht⟩ := List.map_eq_cons_iff.1 hc
  obtain ⟨e2, t2, rfl, _, ht2⟩ := List.map_eq_cons_iff.1 ht
  obtain ⟨e3, t3, rfl, h3, ht3⟩ := List.map_eq_cons_iff.1 ht2
  obtain ⟨a1, a2, a3, a4, a5, rfl, _, p1, _⟩ := Sim.code_kroot h1
  obtain ⟨b1, b2, b3, b4, b5, rfl, _, p2, _⟩ := Sim.code_kroot h3
  exact ⟨_, _, o, h, [], [e2], t3, a1, a2, a3, a4, a5, b1, b2, b3, b4, b5, rfl, p1, p2⟩

/-- **C36.** After an alert no KROOT is accepted at all (nor anything else). -/
theorem C36_nothing_after_alert (h : Logs S (Osnma.new S root0 pk0 slow) hist log o) {l1 l2 : List (KeyEvent C)}
    {e : KeyEvent C} (hl : log = l1 ++ e :: l2) (ha : e.IsAlert) : l2 = [] := by
  cases l2 with
  | nil => rfl
  | cons e' l =>
    have := ((keyInv_run h).good (l1 ++ [e]) e' l (by rw [hl]; simp)).1
    exact absurd ⟨e, by simp, ha⟩ this

/-! ## C37: no Merkle tree root, no new public keys -/

/-- **C37.** An `Osnma` made with `from_pubkey` verifies every KROOT with the given public key and never
accepts a DSM-PKR or an alert message. -/
theorem C37_from_pubkey {pk : PublicKey C} (h : Logs S (Osnma.fromPubkey S pk slow) hist log o) {e : KeyEvent C} (he : e ∈ log) :
    (∃ hd data key g, e = .kroot hd data pk key g) ∨ ∃ k, e = .tesla k := by
  have hg := (keyInv_run (root0 := none) (pk0 := some pk) h).good
  have nopkr : ∀ d p, KeyEvent.pkr d p ∉ log := by
    intro d p hm
    obtain ⟨b, a, hl⟩ := List.append_of_mem hm
    obtain ⟨_, root, hr, _⟩ := hg b _ a hl
    cases hr
  obtain ⟨b, a, hl⟩ := List.append_of_mem he
  have hj := (hg b _ a hl).2
  cases e with
  | kroot hd data pk' key g =>
    left
    rcases hj.1 with e1 | ⟨d, e1⟩
    · cases e1; exact ⟨hd, data, key, g, rfl⟩
    · exact absurd (by rw [hl]; exact List.mem_append_left _ e1) (nopkr d pk')
  | pkr d p => obtain ⟨root, hr, _⟩ := hj; cases hr
  | alert d => obtain ⟨root, _, hr, _⟩ := hj; cases hr
  | tesla k => exact .inr ⟨k, rfl⟩

/-- **C37.** An `Osnma` made with `from_merkle_tree` without a public key verifies a KROOT (or a TESLA
key) only after a DSM-PKR that carries that key and is proved against the given root. -/
theorem C37_from_merkle_tree {root : MerkleTreeNode} (h : Logs S (Osnma.fromMerkleTree (C := C) S root none slow) hist log o)
    {l1 l2 : List (KeyEvent C)} {hd : NmaHeader} {data : List Byte} {pk : PublicKey C} {key : Key} {g : Gst}
    (hl : log = l1 ++ .kroot hd data pk key g :: l2) :
    ∃ d, KeyEvent.pkr d pk ∈ l1 ∧ MerkleProvedKey C root.val d pk := by
  have hg := (keyInv_run (root0 := some root) (pk0 := none) h).good
  obtain ⟨_, ht, _⟩ := hg _ _ _ hl
  rcases ht with ht | ⟨d, hd'⟩
  · cases ht
  · refine ⟨d, hd', ?_⟩
    obtain ⟨b, a, hl'⟩ := List.append_of_mem hd'
    obtain ⟨_, r, hr, hp⟩ := hg b (.pkr d pk) (a ++ .kroot hd data pk key g :: l2) (by rw [hl, hl']; simp)
    cases hr; exact hp

/-- A receiver with only the Merkle tree root that verifies a KROOT. -/
example : ∃ hist log, ∃ o : Osnma Sim.toy, Logs Sim.S (Osnma.fromMerkleTree Sim.S Sim.root none false) hist log o ∧
    ∃ l1 hd data pk key g l2, log = l1 ++ .kroot hd data pk key g :: l2 ∧ pk.pkid = 2 := by
  obtain ⟨log, o, h, hc, _⟩ := Sim.outcome_some Sim.pkrThenKroot
  obtain ⟨e1, t, rfl, _, ht⟩ := List.map_eq_cons_iff.1 hc
  obtain ⟨e2, t2, rfl, h2, ht2⟩ := List.map_eq_cons_iff.1 ht
  obtain ⟨a1, a2, a3, a4, a5, rfl, _, p1, _⟩ := Sim.code_kroot h2
  exact ⟨_, _, o, h, [e1], a1, a2, a3, a4, a5, t2, rfl, p1⟩

/-- **C37.** In general: every KROOT is verified with a key that was given at construction or proved
before by a DSM-PKR against the root given at construction, under the id announced in the DSM-KROOT. -/
theorem C37_every_kroot_trusted (h : Logs S (Osnma.new S root0 pk0 slow) hist log o)
    {l1 l2 : List (KeyEvent C)} {hd : NmaHeader} {data : List Byte} {pk : PublicKey C} {key : Key} {g : Gst}
    (hl : log = l1 ++ .kroot hd data pk key g :: l2) :
    (∃ f n, SignedKroot C pk.key hd data f n) ∧ pk.pkid = bitField data 4 4 ∧
    (pk0 = some pk ∨ ∃ d root, KeyEvent.pkr d pk ∈ l1 ∧ root0 = some root ∧ MerkleProvedKey C root.val d pk) := by
  have hg := (keyInv_run h).good
  obtain ⟨_, ht, e1, e2, _⟩ := hg _ _ _ hl
  refine ⟨e2, e1, ?_⟩
  rcases ht with ht | ⟨d, hd'⟩
  · exact .inl ht
  · obtain ⟨b, a, hl'⟩ := List.append_of_mem hd'
    obtain ⟨_, r, hr, hp⟩ := hg b (.pkr d pk) (a ++ .kroot hd data pk key g :: l2) (by rw [hl, hl']; simp)
    exact .inr ⟨d, r, hd', hr, hp⟩

/-! ## C30: TESLA keys -/

/-- **C30.** The two stored TESLA keys belong to different chains. -/
theorem C30_one_key_per_chain (h : Logs S (Osnma.new S root0 pk0 slow) hist log o) {a b : Key}
    (ha : o.data.data.key.key0 = some a) (hb : o.data.data.key.key1 = some b) : a.chain.id ≠ b.chain.id :=
  (keyInv_run h).kdist a b ha hb

/-- A reachable state with the keys of two chains. -/
example : ∃ hist log, ∃ o : Osnma Sim.toy, Logs Sim.S (Osnma.new Sim.S none (some (Sim.pub 1)) false) hist log o ∧
    o.data.data.key.key0.map (·.chain.id) = some 1 ∧ o.data.data.key.key1.map (·.chain.id) = some 2 ∧
    o.data.data.key.currentKey.map (·.chain.id) = some 1 := by
  obtain ⟨log, o, h, hf⟩ := Sim.check_some Sim.twoChains
  simp only [Bool.and_eq_true, beq_iff_eq] at hf
  exact ⟨_, log, o, h, hf.1.1, hf.1.2, hf.2⟩

theorem KeyInv.currentKey_iff {mt : Option MerkleTreeNode} {ps : PubkeyStore C} {ks : KeyStore} (inv : KeyInv root0 pk0 log mt ps ks)
    (k : Key) : ks.currentKey = some k ↔ (ks.key0 = some k ∨ ks.key1 = some k) ∧
      ∃ hd, lastHeader log = some hd ∧ hd.chainId = k.chain.id := by
  constructor
  · intro hk
    obtain ⟨h1, cif, h2, h3⟩ := KeyStore.currentKey_some hk
    obtain ⟨hd, e1, e2⟩ := inv.kforce cif h2
    exact ⟨h1, hd, e1, e2.trans h3.symm⟩
  · rintro ⟨h1, hd, e1, e2⟩
    have hna : ¬ AlertIn log := by
      intro ha
      rw [(inv.dead ha).2.2] at h1
      rcases h1 with h | h <;> cases h
    obtain ⟨s, hs⟩ := inv.kforce' hna hd e1
    have hdist := inv.kdist
    unfold KeyStore.currentKey
    rw [hs]
    simp only [Option.bind_some, e2]
    unfold KeyStore.keys
    rcases ks with ⟨s0, s1, cf⟩
    dsimp only at h1 ⊢
    rcases h1 with rfl | rfl
    · simp
    · cases s0 with
      | none => simp
      | some a =>
        have := hdist a k rfl rfl
        have h' : (a.chain.id == k.chain.id) = false := by simpa using this
        simp [h']

/-- **C30.** The key that validates the key of the next MACK is exactly the stored key whose chain is
the one announced in the last verified NMA header. -/
theorem C30_current_key_iff (h : Logs S (Osnma.new S root0 pk0 slow) hist log o) (k : Key) :
    o.data.data.key.currentKey = some k ↔
      (o.data.data.key.key0 = some k ∨ o.data.data.key.key1 = some k) ∧
      ∃ hd, lastHeader log = some hd ∧ hd.chainId = k.chain.id :=
  (keyInv_run h).currentKey_iff k

/-- **C30.** The `unreachable!` arm of `store_key` is never taken: whatever the key store holds, a key of
the chain of the current key can be stored, and `validate_key` only stores keys of the chain of the
current key. -/
theorem C30_store_key_returns (ks : KeyStore) {cur key : Key} (hcur : ks.currentKey = some cur)
    (hch : key.chain = cur.chain) : ∃ ks', ks.storeKey key = .ok ks' :=
  KeyStore.storeKey_returns (KeyStore.currentKey_some hcur).1 (by rw [hch])

/-- What a TESLA key store may lose in one call, and why. -/
theorem KeyStep.key_kept {evs : List (KeyEvent C)} {mt : Option MerkleTreeNode}
    (inv : KeyInv root0 pk0 log mt o.data.data.pubkey o.data.data.key) (st : KeyStep o o' evs) {k : Key}
    (hk : o.data.data.key.Has k) :
    o'.data.data.key.Has k ∨
    (∃ k', KeyEvent.tesla k' ∈ evs ∧ o'.data.data.key.Has k' ∧ k'.chain = k.chain ∧ k.gst.abs < k'.gst.abs) ∨
    (∃ hd data pk key g, KeyEvent.kroot hd data pk key g ∈ evs ∧
      ((KeyEvent.kroot hd data pk key g).Revokes k.chain.id ∨ (KeyEvent.kroot hd data pk key g).IsAlert ∨
        (key.chain.id ≠ k.chain.id ∧ hd.chainId ≠ k.chain.id))) ∨
    (∃ data, KeyEvent.alert data ∈ evs) := by
  cases st with
  | nothing _ h2 _ => rw [h2]; exact .inl hk
  | subframe m g hd d0 d1 l1 l2 hp hk' hm s1 s2 hp' hm' =>
    rw [← hp, ← hk'] at inv
    rw [← hk'] at hk
    have tesla : d1.key.Has k → d1.key.Distinct → o'.data.data.key.Has k ∨
        (∃ k', KeyEvent.tesla (C := C) k' ∈ l2 ∧ o'.data.data.key.Has k' ∧ k'.chain = k.chain ∧ k.gst.abs < k'.gst.abs) := by
      intro hk1 hd1
      generalize hks : o'.data.data.key = kse at s2
      cases s2 with
      | nothing => exact .inl hk1
      | accept cur _ hcur hal hlt hval hst =>
        obtain ⟨q1, _, _⟩ := KeyStore.storeKey_spec hd1 hst
        by_cases hch : k.chain.id = cur.chain.id
        · right
          have hkc : k = cur := by
            obtain ⟨hcc, _⟩ := KeyStore.currentKey_some hcur
            rcases hk1 with h1 | h1 <;> rcases hcc with h2 | h2
            · rw [h1] at h2; cases h2; rfl
            · exact absurd hch (hd1 k cur h1 h2)
            · exact absurd hch.symm (hd1 cur k h2 h1)
            · rw [h1] at h2; cases h2; rfl
          refine ⟨_, by simp, (q1 _).2 (.inr rfl), ?_, ?_⟩
          · rw [hkc]; rfl
          · rw [hkc]; exact hlt
        · exact .inl ((q1 k).2 (.inl ⟨hk1, hch⟩))
    have lift : (o'.data.data.key.Has k ∨
        (∃ k', KeyEvent.tesla (C := C) k' ∈ l2 ∧ o'.data.data.key.Has k' ∧ k'.chain = k.chain ∧ k.gst.abs < k'.gst.abs)) →
      o'.data.data.key.Has k ∨
        (∃ k', KeyEvent.tesla k' ∈ l1 ++ l2 ∧ o'.data.data.key.Has k' ∧ k'.chain = k.chain ∧ k.gst.abs < k'.gst.abs) ∨
        (∃ hd data pk key g, KeyEvent.kroot hd data pk key g ∈ l1 ++ l2 ∧
          ((KeyEvent.kroot hd data pk key g).Revokes k.chain.id ∨ (KeyEvent.kroot hd data pk key g).IsAlert ∨
            (key.chain.id ≠ k.chain.id ∧ hd.chainId ≠ k.chain.id))) ∨
        (∃ data, KeyEvent.alert data ∈ l1 ++ l2) := by
      rintro (h | ⟨k', h1, h2⟩)
      · exact .inl h
      · exact .inr (.inl ⟨k', List.mem_append_right _ h1, h2⟩)
    cases s1 with
    | nothing => exact lift (tesla hk inv.kdist)
    | pkr p root pk ps hroot hval hst => exact lift (tesla hk inv.kdist)
    | alert p root hroot hval => exact .inr (.inr (.inr ⟨p.data, by simp⟩))
    | kroot kr pkid pk key ps hid happ hkey hmk =>
      obtain ⟨w1, w2, w3, w4, w5⟩ := PubkeyStore.makeCurrent_spec inv.pwf hmk
      obtain ⟨k1, k2, k3, k4, k5⟩ := KeyStore.storeKroot_spec d0.key key hd g inv.kdist
      have lost : ((KeyEvent.kroot hd kr.data pk key g).Revokes k.chain.id ∨ (KeyEvent.kroot hd kr.data pk key g).IsAlert ∨
            (key.chain.id ≠ k.chain.id ∧ hd.chainId ≠ k.chain.id)) →
          ∃ hd' data pk' key' g', KeyEvent.kroot hd' data pk' key' g' ∈ [KeyEvent.kroot hd kr.data pk key g] ++ l2 ∧
          ((KeyEvent.kroot hd' data pk' key' g').Revokes k.chain.id ∨ (KeyEvent.kroot hd' data pk' key' g').IsAlert ∨
            (key'.chain.id ≠ k.chain.id ∧ hd'.chainId ≠ k.chain.id)) := fun h =>
        ⟨hd, kr.data, pk, key, g, by simp, h⟩
      rcases k5 k hk with hk1 | ⟨n1, n2, _⟩
      · rcases OsnmaData.processNmaHeader_spec
          ({ d0 with pubkey := ps, key := d0.key.storeKroot key hd g } : OsnmaData C) hd pkid w3 w5 with
          ⟨ha, _, _, _⟩ | ⟨_, _, _, ⟨hr, e3⟩ | ⟨_, e3⟩⟩
        · exact .inr (.inr (.inl (lost (.inr (.inl ha)))))
        · obtain ⟨r1, _, r3⟩ := KeyStore.revoke_spec (d0.key.storeKroot key hd g) hd.chainId
          by_cases hcid : k.chain.id = hd.chainId
          · exact .inr (.inr (.inl (lost (.inl ⟨hr.1, hr.2, hcid.symm⟩))))
          · exact lift (tesla (by rw [e3]; exact (r1 k).2 ⟨hk1, hcid⟩) (by rw [e3]; exact r3 k2))
        · exact lift (tesla (by rw [e3]; exact hk1) (by rw [e3]; exact k2))
      · exact .inr (.inr (.inl (lost (.inr (.inr ⟨fun h => n1 h.symm, fun h => n2 h.symm⟩)))))

/-- What a TESLA key store gains in one call. -/
theorem KeyStep.key_gained {evs : List (KeyEvent C)}
    (inv : KeyInv root0 pk0 log o.data.data.merkleTree o.data.data.pubkey o.data.data.key) (st : KeyStep o o' evs) :
    (∀ k, KeyEvent.tesla k ∈ evs → o'.data.data.key.Has k) ∧
    (∀ hd data pk key g, KeyEvent.kroot hd data pk key g ∈ evs → ¬ (KeyEvent.kroot hd data pk key g).IsAlert →
      ¬ (KeyEvent.kroot hd data pk key g).Revokes key.chain.id →
      (∃ k, o'.data.data.key.Has k ∧ k.chain.id = key.chain.id) ∧
      ((∀ k, KeyEvent.tesla k ∉ evs) → (∀ k, o.data.data.key.Has k → k.chain.id ≠ key.chain.id) → o'.data.data.key.Has key)) := by
  cases st with
  | nothing => exact ⟨fun _ h => by (cases h), fun _ _ _ _ _ h => by (cases h)⟩
  | subframe m g hd d0 d1 l1 l2 hp hk' hm s1 s2 hp' hm' =>
    rw [← hp, ← hk', ← hm] at inv
    rw [← hk']
    have hdist : d1.key.Distinct := (inv.dsm s1).kdist
    have hl2 : (∀ k, KeyEvent.tesla (C := C) k ∈ l2 → o'.data.data.key.Has k) ∧
        (∀ c, (∃ k, d1.key.Has k ∧ k.chain.id = c) → ∃ k, o'.data.data.key.Has k ∧ k.chain.id = c) ∧
        (∀ hd data pk key g, KeyEvent.kroot (C := C) hd data pk key g ∉ l2) ∧
        ((∀ k, KeyEvent.tesla (C := C) k ∉ l2) → o'.data.data.key = d1.key) := by
      generalize o'.data.data.key = kse at s2
      cases s2 with
      | nothing => exact ⟨fun _ h => by (cases h), fun _ h => h, fun _ _ _ _ _ h => by (cases h), fun _ => rfl⟩
      | accept cur _ hcur hal hlt hval hst =>
        obtain ⟨q1, _, _⟩ := KeyStore.storeKey_spec hdist hst
        refine ⟨fun k hk => ?_, fun c ⟨k, hk, hc⟩ => ?_, fun _ _ _ _ _ h => by simp at h, fun h => absurd (List.mem_singleton.2 rfl) (h (mackKey m cur.chain g))⟩
        · simp only [List.mem_singleton, KeyEvent.tesla.injEq] at hk
          exact (q1 k).2 (.inr hk)
        · by_cases hch : k.chain.id = (mackKey m cur.chain g).chain.id
          · exact ⟨_, (q1 _).2 (.inr rfl), hch.symm.trans hc⟩
          · exact ⟨k, (q1 k).2 (.inl ⟨hk, hch⟩), hc⟩
    obtain ⟨t1, t2, t3, t4⟩ := hl2
    refine ⟨fun k hk => ?_, ?_⟩
    · rcases List.mem_append.1 hk with hk | hk
      · cases s1 <;> simp at hk
      · exact t1 k hk
    · intro hd' data pk key g' he hna hnr
      rcases List.mem_append.1 he with he | he
      · cases s1 with
        | kroot kr pkid pk' key' ps hid happ hkey hmk =>
          simp only [List.mem_singleton, KeyEvent.kroot.injEq] at he
          obtain ⟨rfl, rfl, rfl, rfl, rfl⟩ := he
          obtain ⟨w1, w2, w3, w4, w5⟩ := PubkeyStore.makeCurrent_spec inv.pwf hmk
          obtain ⟨k1, k2, k3, k4, k5⟩ := KeyStore.storeKroot_spec d0.key key hd' g' inv.kdist
          have hkeep : ∀ k, (d0.key.storeKroot key hd' g').Has k → k.chain.id = key.chain.id →
              (({ d0 with pubkey := ps, key := d0.key.storeKroot key hd' g' } : OsnmaData C).processNmaHeader hd' pkid).key.Has k := by
            intro k hk hc
            rcases OsnmaData.processNmaHeader_spec
              ({ d0 with pubkey := ps, key := d0.key.storeKroot key hd' g' } : OsnmaData C) hd' pkid w3 w5 with
              ⟨ha, _, _, _⟩ | ⟨_, _, _, ⟨hr, e3⟩ | ⟨_, e3⟩⟩
            · exact absurd ha hna
            · rw [e3]
              exact ((KeyStore.revoke_spec (d0.key.storeKroot key hd' g') hd'.chainId).1 k).2
                ⟨hk, fun h => hnr ⟨hr.1, hr.2, h.symm.trans hc⟩⟩
            · rw [e3]; exact hk
          obtain ⟨kc, hkc, hid'⟩ := k4
          refine ⟨t2 _ ⟨kc, hkeep kc hkc hid', hid'⟩, fun hnt hnone => ?_⟩
          rw [t4 (fun k hk => hnt k (List.mem_append_right _ hk))]
          rcases k1 kc hkc with h | rfl
          · exact absurd hid' (hnone kc h)
          · exact hkeep kc hkc rfl
        | _ => simp at he
      · exact absurd he (t3 _ _ _ _ _)

/-- **C30.** A key that is accepted is stored; after a KROOT is verified there is a key of its chain (unless its header announces an
alert or revokes that chain), which is the KROOT itself if there was none before and no later key arrived in the same call. -/
theorem C30_verified_key_is_stored (h : Logs S (Osnma.new S root0 pk0 slow) hist log o) (hc : c.run S o = .ok o') :
    (∀ k, KeyEvent.tesla k ∈ o.events S c → k ∈ o'.data.data.key.keys) ∧
    (∀ hd data pk key g, KeyEvent.kroot hd data pk key g ∈ o.events S c → ¬ (KeyEvent.kroot hd data pk key g).IsAlert →
      ¬ (KeyEvent.kroot hd data pk key g).Revokes key.chain.id →
      (∃ k ∈ o'.data.data.key.keys, k.chain.id = key.chain.id) ∧
      ((∀ k, KeyEvent.tesla k ∉ o.events S c) → (∀ k ∈ o.data.data.key.keys, k.chain.id ≠ key.chain.id) →
        key ∈ o'.data.data.key.keys)) := by
  simp only [KeyStore.mem_keys]
  exact (Call.keyStep hc).key_gained (keyInv_run h)

/-- **C30.** A stored TESLA key stays stored until it is replaced by a later key of the same chain, or a
KROOT is verified that revokes its chain, or that is of another chain and announces another chain in
force (replacement), or an alert is received. -/
theorem C30_key_kept (h : Logs S (Osnma.new S root0 pk0 slow) hist log o) (hc : c.run S o = .ok o') {k : Key}
    (hk : k ∈ o.data.data.key.keys) :
    k ∈ o'.data.data.key.keys ∨
    (∃ k', KeyEvent.tesla k' ∈ o.events S c ∧ k' ∈ o'.data.data.key.keys ∧ k'.chain = k.chain ∧ k.gst.abs < k'.gst.abs) ∨
    (∃ hd data pk key g, KeyEvent.kroot hd data pk key g ∈ o.events S c ∧
      ((KeyEvent.kroot hd data pk key g).Revokes k.chain.id ∨ (KeyEvent.kroot hd data pk key g).IsAlert ∨
        (key.chain.id ≠ k.chain.id ∧ hd.chainId ≠ k.chain.id))) ∨
    (∃ data, KeyEvent.alert data ∈ o.events S c) := by
  simp only [KeyStore.mem_keys] at hk ⊢
  exact (Call.keyStep hc).key_kept (keyInv_run h) hk

/-- **C30.** Every TESLA key ever accepted belongs to the chain announced in the last NMA header verified
before, derives to a verified root key, and carries the time of a subframe. -/
theorem C30_accepted_key_chain (h : Logs S (Osnma.new S root0 pk0 slow) hist log o) {l1 l2 : List (KeyEvent C)} {k : Key}
    (hl : log = l1 ++ .tesla k :: l2) :
    k.gst.tow % 30 = 0 ∧ RootedKey l1 k ∧ ∃ hd, lastHeader l1 = some hd ∧ hd.chainId = k.chain.id := by
  obtain ⟨h1, h2, h3, _⟩ := ((keyInv_run h).good _ _ _ hl).2
  exact ⟨h1, h2, h3⟩

/-- The stored keys are at least as late as the accepted ones, and the accepted keys increase. -/
structure Increasing (log : List (KeyEvent C)) (ks : KeyStore) : Prop where
  stored : ¬ AlertIn log → ∀ l1 k l2, log = l1 ++ .tesla k :: l2 → (∀ e ∈ l2, ¬ e.Drops k.chain.id) →
    ∃ x, ks.Has x ∧ x.chain.id = k.chain.id ∧ k.gst.abs ≤ x.gst.abs
  logged : ∀ l1 k l2 k' l3, log = l1 ++ .tesla k :: l2 ++ .tesla k' :: l3 → k'.chain.id = k.chain.id →
    (∀ e ∈ l2, ¬ e.Drops k.chain.id) → k.gst.abs < k'.gst.abs

theorem Increasing.other {ev : KeyEvent C} {ks ks' : KeyStore} (h : Increasing log ks) (hev : ∀ k, ev ≠ .tesla k)
    (hks : ¬ ev.IsAlert → ∀ x, ks.Has x → ¬ ev.Drops x.chain.id → ks'.Has x) : Increasing (log ++ [ev]) ks' := by
  constructor
  · intro hna l1 k l2 he hd
    rw [alertIn_snoc] at hna
    rcases snoc_split he with ⟨_, h2, _⟩ | ⟨a', rfl, h2⟩
    · exact absurd h2.symm (hev k)
    · obtain ⟨x, q1, q2, q3⟩ := h.stored (fun h => hna (.inl h)) l1 k a' h2 (fun e he => hd e (by simp [he]))
      refine ⟨x, hks (fun h => hna (.inr h)) x q1 ?_, q2, q3⟩
      rw [q2]
      exact hd ev (by simp)
  · intro l1 k l2 k' l3 he
    rcases snoc_split he with ⟨_, h2, _⟩ | ⟨a', rfl, h2⟩
    · exact absurd h2.symm (hev k')
    · exact h.logged l1 k l2 k' a' h2

theorem Increasing.dsm {d d' : OsnmaData C} {g : Gst} {hd : NmaHeader} {evs : List (KeyEvent C)}
    (inv : KeyInv root0 pk0 log d.merkleTree d.pubkey d.key) (h : Increasing log d.key)
    (st : OsnmaData.DsmStep d g hd evs d') : Increasing (log ++ evs) d'.key := by
  cases st with
  | nothing => simpa using h
  | pkr p root pk ps hroot hval hst => exact h.other (by simp) (fun _ x hx _ => hx)
  | alert p root hroot hval => exact h.other (by simp) (fun hn => absurd trivial hn)
  | kroot kr pkid pk key ps hid happ hkey hmk =>
    refine h.other (by simp) ?_
    intro hna x hx hdr
    obtain ⟨w1, w2, w3, w4, w5⟩ := PubkeyStore.makeCurrent_spec inv.pwf hmk
    obtain ⟨k1, k2, k3, k4, k5⟩ := KeyStore.storeKroot_spec d.key key hd g inv.kdist
    rcases k5 x hx with hk1 | ⟨n1, n2, _⟩
    · rcases OsnmaData.processNmaHeader_spec
        ({ d with pubkey := ps, key := d.key.storeKroot key hd g } : OsnmaData C) hd pkid w3 w5 with
        ⟨ha, _, _, _⟩ | ⟨_, _, _, ⟨hr, e3⟩ | ⟨_, e3⟩⟩
      · exact absurd ha hna
      · obtain ⟨r1, _, r3⟩ := KeyStore.revoke_spec (d.key.storeKroot key hd g) hd.chainId
        rw [e3]
        refine (r1 x).2 ⟨hk1, fun hc => hdr (.inl ⟨hr.1, hr.2, hc.symm⟩)⟩
      · rw [e3]; exact hk1
    · exact absurd (.inr ⟨fun h => n1 h.symm, fun h => n2 h.symm⟩) hdr

theorem Increasing.tesla {d : OsnmaData C} {m : MackMessage} {g : Gst} {evs : List (KeyEvent C)} {ks' : KeyStore}
    (inv : KeyInv root0 pk0 log d.merkleTree d.pubkey d.key) (h : Increasing log d.key)
    (st : OsnmaData.TeslaStep d m g evs ks') : Increasing (log ++ evs) ks' := by
  cases st with
  | nothing => simpa using h
  | accept cur _ hcur hal hlt hval hks =>
    obtain ⟨hhas, cif, hcif, hid⟩ := KeyStore.currentKey_some hcur
    obtain ⟨q1, _, q3⟩ := KeyStore.storeKey_spec inv.kdist hks
    have hna : ¬ AlertIn log := by
      intro ha
      have := (inv.dead ha).2.2
      rw [this] at hhas
      rcases hhas with h | h <;> cases h
    have late : ∀ l1 k l2, log = l1 ++ .tesla k :: l2 → (∀ e ∈ l2, ¬ e.Drops k.chain.id) →
        cur.chain.id = k.chain.id → k.gst.abs < g.abs := by
      intro l1 k l2 he hd hch
      obtain ⟨x, p1, p2, p3⟩ := h.stored hna l1 k l2 he hd
      have hx : x = cur := by
        have hne := inv.kdist
        rcases p1 with h1 | h1 <;> rcases hhas with h2 | h2
        · rw [h1] at h2; cases h2; rfl
        · exact absurd (p2.trans hch.symm) (hne x cur h1 h2)
        · exact absurd (hch.trans p2.symm) (hne cur x h2 h1)
        · rw [h1] at h2; cases h2; rfl
      subst hx
      omega
    constructor
    · intro hna' l1 k l2 he hd
      rcases snoc_split he with ⟨_, h2, _⟩ | ⟨a', rfl, h2⟩
      · simp only [KeyEvent.tesla.injEq] at h2
        exact ⟨_, (q1 _).2 (.inr rfl), by rw [h2], by rw [h2]; omega⟩
      · have hd' : ∀ e ∈ a', ¬ e.Drops k.chain.id := fun e he => hd e (by simp [he])
        by_cases hch : cur.chain.id = k.chain.id
        · have := late l1 k a' h2 hd' hch
          exact ⟨_, (q1 _).2 (.inr rfl), hch, by show k.gst.abs ≤ g.abs; omega⟩
        · obtain ⟨x, p1, p2, p3⟩ := h.stored hna l1 k a' h2 hd'
          exact ⟨x, (q1 x).2 (.inl ⟨p1, fun hc => hch (hc.symm.trans p2)⟩), p2, p3⟩
    · intro l1 k l2 k' l3 he hch hd
      rcases snoc_split he with ⟨h1, h2, _⟩ | ⟨a', rfl, h2⟩
      · simp only [KeyEvent.tesla.injEq] at h2
        subst h2
        exact late l1 k l2 h1.symm hd hch
      · exact h.logged l1 k l2 k' a' h2 hch hd

theorem increasing_run (h : Logs S (Osnma.new S root0 pk0 slow) hist log o) : Increasing log o.data.data.key := by
  have base : Increasing ([] : List (KeyEvent C)) (Osnma.new S root0 pk0 slow : Osnma C).data.data.key :=
    ⟨fun _ l1 k l2 he => by simp at he, fun l1 k l2 k' l3 he => by simp at he⟩
  have := Logs.key_induction (S := S) (o0 := Osnma.new S root0 pk0 slow)
    (fun log o => KeyInv root0 pk0 log o.data.data.merkleTree o.data.data.pubkey o.data.data.key ∧
      Increasing log o.data.data.key) ⟨keyInv_run .nil, base⟩ ?_ h
  · exact this.2
  · intro log o evs o' ⟨inv, hi⟩ st
    cases st with
    | nothing h1 h2 h3 => simp only [List.append_nil, h1, h2, h3]; exact ⟨inv, hi⟩
    | subframe m g hd d0 d1 l1 l2 hp hk hm s1 s2 hp' hm' =>
      rw [← hp, ← hk, ← hm] at inv
      rw [← hk] at hi
      have i1 := inv.dsm s1
      rw [← List.append_assoc, hp', hm']
      exact ⟨i1.tesla s2, (hi.dsm inv s1).tesla i1 s2⟩

/-- **C30.** The TESLA keys accepted for one chain are strictly later and later, as long as the chain is
not revoked and its key not displaced by a KROOT of another chain. -/
theorem C30_accepted_keys_increase (h : Logs S (Osnma.new S root0 pk0 slow) hist log o) {l1 l2 l3 : List (KeyEvent C)}
    {k k' : Key} (hl : log = l1 ++ .tesla k :: l2 ++ .tesla k' :: l3) (hc : k'.chain.id = k.chain.id)
    (hd : ∀ e ∈ l2, ¬ e.Drops k.chain.id) : k.gst.abs < k'.gst.abs :=
  (increasing_run h).logged l1 k l2 k' l3 hl hc hd

/-- **C30.** In particular the same key is accepted twice only after its chain was revoked or displaced. -/
theorem C30_key_accepted_once (h : Logs S (Osnma.new S root0 pk0 slow) hist log o) {l1 l2 l3 : List (KeyEvent C)} {k : Key}
    (hl : log = l1 ++ .tesla k :: l2 ++ .tesla k :: l3) : ∃ e ∈ l2, e.Drops k.chain.id := by
  apply Classical.byContradiction
  intro hn
  have := C30_accepted_keys_increase h hl rfl (fun e he hd => hn ⟨e, he, hd⟩)
  omega

/-- A history with several keys of a chain accepted one after the other. -/
example : ∃ hist log, ∃ o : Osnma Sim.toy, Logs Sim.S (Osnma.new Sim.S none (some (Sim.pub 1)) false) hist log o ∧
    ∃ l1 k l2 k' l3, log = l1 ++ .tesla k :: l2 ++ .tesla k' :: l3 ∧ k'.chain.id = k.chain.id ∧
      (∀ e ∈ l2, ¬ e.Drops k.chain.id) ∧ k.gst.tow = 36210 ∧ k'.gst.tow = 36240 := by
  obtain ⟨log, o, h, hc, h1, h2⟩ := Sim.outcome_some Sim.nominal13
  obtain ⟨e1, t, rfl, _, ht⟩ := List.map_eq_cons_iff.1 hc
  obtain ⟨e2, t2, rfl, h3, ht2⟩ := List.map_eq_cons_iff.1 ht
  obtain ⟨e3, t3, rfl, h4, _⟩ := List.map_eq_cons_iff.1 ht2
  obtain ⟨k, rfl, p1, p2⟩ := Sim.code_tesla h3
  obtain ⟨k', rfl, p3, p4⟩ := Sim.code_tesla h4
  exact ⟨_, _, o, h, [e1], k, [], k', t3, rfl, p3.trans p1.symm, by simp, p2, p4⟩

/-- A history in which a KROOT is verified, a TESLA key accepted, and CED and timing parameters
authenticated. -/
example : ∃ hist log, ∃ o : Osnma Sim.toy, Logs Sim.S (Osnma.new Sim.S none (some (Sim.pub 1)) false) hist log o ∧
    (∃ l1 k l2, log = l1 ++ .tesla k :: l2 ∧ k.chain.id = 1 ∧ k.gst.tow = 36210) ∧
    ∀ kd, ∃ d, o.get Sim.S kd (Sim.sv 1) = .ok (some d) ∧ d.authbits = 40 := by
  obtain ⟨log, o, h, hc, h1, h2⟩ := Sim.outcome_some Sim.nominal8
  obtain ⟨e1, t, rfl, _, ht⟩ := List.map_eq_cons_iff.1 hc
  obtain ⟨e2, t2, rfl, h3, ht2⟩ := List.map_eq_cons_iff.1 ht
  obtain ⟨k, rfl, p1, p2⟩ := Sim.code_tesla h3
  refine ⟨_, _, o, h, ⟨[e1], k, t2, rfl, p1, p2⟩, ?_⟩
  intro kd
  cases kd
  · obtain ⟨d, q1, q2, _⟩ := Sim.got_some h1; exact ⟨d, q1, q2⟩
  · obtain ⟨d, q1, q2, _⟩ := Sim.got_some h2; exact ⟨d, q1, q2⟩

/-! ## C35: revoked chains -/

/-- **C35.** After a verified header that revokes chain `c`, and as long as no KROOT of chain `c` is
verified again, no TESLA key of chain `c` is stored. -/
theorem C35_no_key_of_revoked_chain (h : Logs S (Osnma.new S root0 pk0 slow) hist log o) {cid : Nat}
    (hr : ChainRevokedIn log cid) {k : Key} (hk : k ∈ o.data.data.key.keys) : k.chain.id ≠ cid :=
  (keyInv_run h).krev cid hr k (KeyStore.mem_keys.1 hk)

/-- A history in which chain 1 is used and then revoked. -/
example : ∃ hist log, ∃ o : Osnma Sim.toy, Logs Sim.S (Osnma.new Sim.S none (some (Sim.pub 1)) false) hist log o ∧
    ChainRevokedIn log 1 ∧ ∃ k, KeyEvent.tesla k ∈ log ∧ k.chain.id = 1 := by
  obtain ⟨log, o, h, hc, _⟩ := Sim.outcome_some Sim.revoked
  obtain ⟨e1, t, rfl, _, ht⟩ := List.map_eq_cons_iff.1 hc
  obtain ⟨e2, t2, rfl, h3, ht2⟩ := List.map_eq_cons_iff.1 ht
  obtain ⟨e3, t3, rfl, h4, ht3⟩ := List.map_eq_cons_iff.1 ht2
  obtain ⟨k, rfl, p1, _⟩ := Sim.code_tesla h3
  obtain ⟨⟨hb⟩, a2, a3, a4, a5, rfl, q1, _⟩ := Sim.code_kroot h4
  dsimp only at q1
  subst q1
  simp only [List.map_eq_nil_iff] at ht3
  subst ht3
  exact ⟨_, _, o, h, ⟨[e1, .tesla k], _, [], rfl, ⟨by decide, .inl (by decide), by decide⟩, by simp⟩, k, by simp, p1⟩

/-- **C35.** … and no TESLA key of chain `c` is accepted. -/
theorem C35_no_key_accepted (h : Logs S (Osnma.new S root0 pk0 slow) hist log o) {l1 l2 : List (KeyEvent C)} {k : Key}
    (hl : log = l1 ++ .tesla k :: l2) : ¬ ChainRevokedIn l1 k.chain.id :=
  ((keyInv_run h).good _ _ _ hl).2.2.2.2

/-- **C35.** … and no tag is counted with a key of chain `c`: a call of `feed_osnma` leaves the
navigation data untouched, or it logs a new TESLA key of a chain that is not revoked, and all it does to
the navigation data is to add the lengths of tags checked with that key. -/
theorem C35_no_tag_counted (hS : S.Consistent) (h0 : (Osnma.new S root0 pk0 slow : Osnma C).Fresh S)
    (h : Logs S (Osnma.new S root0 pk0 slow) hist log o)
    {d : OsnmaDataMessage} {sv : Svn} {g : Gst} (hc : o.feedOsnma S d sv g = .ok o') :
    o'.data.data.navmessage = o.data.data.navmessage ∨
    ∃ (k : Key) (us : NavKind → List TagUse) (l1 l2 : List (KeyEvent C)),
      log ++ o.events S (.osnma d sv g) = l1 ++ .tesla k :: l2 ∧ ¬ ChainRevokedIn l1 k.chain.id ∧
      (∀ kd, ∀ u ∈ us kd, u.key = k) ∧
      ∀ kd, o'.data.data.navmessage.arr kd = addGains
        (usesGain S C o.data.data.navmessage (o.data.data.navmessage.arr kd) kd.nbits (us kd)) (o.data.data.navmessage.arr kd) := by
  have hi : Inv S o.data.data.navmessage := (navInv_run hS h0 h.run).inv
  rcases feedOsnma_tesla hi hc with h1 | ⟨a, ha⟩
  · exact .inl h1
  · right
    obtain ⟨l1, l2, hl⟩ := List.append_of_mem (List.mem_append_right log ha)
    have h' : Logs S (Osnma.new S root0 pk0 slow) _ _ o' := .snoc (.osnma d sv g) h hc
    refine ⟨_, a.uses, l1, l2, hl, C35_no_key_accepted h' hl, ?_, a.arr⟩
    intro kd u hu
    cases kd
    · exact (OsnmaData.mem_cedUses hu).1
    · exact (OsnmaData.mem_timingUses hu).1

/-! ## C34: alerts -/

/-- **C34.** After an alert: no public key, no TESLA key and no Merkle tree root is stored, and nothing
more is accepted, whatever is received. -/
theorem C34_nothing_stored_after_alert (h : Logs S (Osnma.new S root0 pk0 slow) hist log o) (ha : AlertIn log)
    {hist2 : List Call} {log2 : List (KeyEvent C)} {o2 : Osnma C} (h2 : Logs S o hist2 log2 o2) :
    log2 = [] ∧ o2.data.data.pubkey = .empty ∧ o2.data.data.key = .empty ∧ o2.data.data.merkleTree = none := by
  have h3 := h.trans h2
  have ha' : AlertIn (log ++ log2) := by
    obtain ⟨e, h1, h2⟩ := ha
    exact ⟨e, List.mem_append_left _ h1, h2⟩
  have inv := keyInv_run h3
  refine ⟨?_, (inv.dead ha').2.1, (inv.dead ha').2.2, (inv.dead ha').1⟩
  cases log2 with
  | nil => rfl
  | cons e l => exact absurd ha (inv.good log e l rfl).1

/-- A history with CED and timing parameters authenticated and then an alert (here announced in a verified
header); the old data is still returned. -/
example : ∃ hist log, ∃ o : Osnma Sim.toy, Logs Sim.S (Osnma.new Sim.S none (some (Sim.pub 1)) false) hist log o ∧
    AlertIn log ∧ ∀ kd, ∃ d, o.get Sim.S kd (Sim.sv 1) = .ok (some d) ∧ d.authbits = 40 := by
  obtain ⟨log, o, h, hc, h1, h2⟩ := Sim.outcome_some Sim.alerted
  obtain ⟨e1, t, rfl, _, ht⟩ := List.map_eq_cons_iff.1 hc
  obtain ⟨e2, t2, rfl, h3, ht2⟩ := List.map_eq_cons_iff.1 ht
  obtain ⟨e3, t3, rfl, h4, ht3⟩ := List.map_eq_cons_iff.1 ht2
  obtain ⟨⟨hb⟩, a2, a3, a4, a5, rfl, q1, _⟩ := Sim.code_kroot h4
  dsimp only at q1
  subst q1
  refine ⟨_, _, o, h, ⟨_, List.mem_cons_of_mem _ (List.mem_cons_of_mem _ List.mem_cons_self),
    (by decide : NmaHeader.cpks ⟨94#8⟩ = .AlertMessage)⟩, ?_⟩
  intro kd
  cases kd
  · obtain ⟨d, q1, q2, _⟩ := Sim.got_some h1; exact ⟨d, q1, q2⟩
  · obtain ⟨d, q1, q2, _⟩ := Sim.got_some h2; exact ⟨d, q1, q2⟩

/-- A history with an alert message in a DSM-PKR. -/
example : ∃ hist log, ∃ o : Osnma Sim.toy,
    Logs Sim.S (Osnma.new Sim.S (some Sim.root) (some (Sim.pub 1)) false) hist log o ∧ AlertIn log := by
  obtain ⟨log, o, h, hc, _⟩ := Sim.outcome_some Sim.alertMessage
  obtain ⟨e1, t, rfl, h1, ht⟩ := List.map_eq_cons_iff.1 hc
  refine ⟨_, _, o, h, e1, by simp, ?_⟩
  cases e1 <;> simp [Sim.code] at h1
  trivial

/-- **C34.** After an alert no authentication bits are added any more: every entry with authentication
bits, after any continuation, has the satellite, the bits and the authentication bits of an entry held
at the time of the alert. -/
theorem C34_no_authbits_after_alert (hS : S.Consistent) (h0 : (Osnma.new S root0 pk0 slow : Osnma C).Fresh S)
    (h : Logs S (Osnma.new S root0 pk0 slow) hist log o) (ha : AlertIn log)
    {hist2 : List Call} {log2 : List (KeyEvent C)} {o2 : Osnma C} (h2 : Logs S o hist2 log2 o2) (kd : NavKind)
    {s' : NavSlot} (hs' : s' ∈ o2.stored S) {x' : NavItem} (hx' : x' ∈ s'.items kd) (hb : x'.authbits ≠ 0) :
    ∃ s ∈ o.stored S, ∃ x ∈ s.items kd, x.svn = x'.svn ∧ x.data = x'.data ∧ x.authbits = x'.authbits := by
  induction h2 generalizing s' x' with
  | nil => exact ⟨s', hs', x', hx', rfl, rfl, rfl⟩
  | @snoc hi lo oa ob c h2 hc ih =>
    have h3 := h.trans h2
    have hev : oa.events S c = [] := by
      have := (C34_nothing_stored_after_alert h ha (h2.snoc c hc)).1
      exact (List.append_eq_nil_iff.1 this).2
    cases c with
    | inav w sv g b =>
      obtain ⟨s, e1, x, e2, e3, e4, e5⟩ := C13_never_increases hS h0 h3.run (c := ⟨w, sv, g, b⟩) hc kd hs' hx' hb
      obtain ⟨t, f1, y, f2, f3, f4, f5⟩ := ih e1 e2 (by rw [e5]; exact hb)
      exact ⟨t, f1, y, f2, f3.trans e3, f4.trans e4, f5.trans e5⟩
    | osnma d sv g =>
      rcases feedOsnma_tesla (navInv_run hS h0 h3.run).inv hc with h1 | ⟨a, h1⟩
      · have : ob.stored S = oa.stored S := by unfold Osnma.stored; rw [h1]
        rw [this] at hs'
        exact ih hs' hx' hb
      · rw [hev] at h1; cases h1

/-- **C34.** After an alert no data received later is ever returned as authenticated: whatever a getter
returns after any continuation was already held with these authentication bits at the time of the alert,
and each of its fields was delivered for this satellite by a call made before the alert was processed. -/
theorem C34_only_old_data_returned (hS : S.Consistent) (h0 : (Osnma.new S root0 pk0 slow : Osnma C).Fresh S)
    (h : Logs S (Osnma.new S root0 pk0 slow) hist log o) (ha : AlertIn log)
    {hist2 : List Call} {log2 : List (KeyEvent C)} {o2 : Osnma C} (h2 : Logs S o hist2 log2 o2) (kd : NavKind)
    {svn : Svn} {d : NavMessageData} (hd : o2.get S kd svn = .ok (some d)) :
    (∃ s ∈ o.stored S, ∃ x ∈ s.items kd, x.svn = some svn ∧ x.data.take kd.nbits = d.data ∧ x.authbits = d.authbits) ∧
    ∀ i f, kd.fields[i]? = some f →
      ∃ c ∈ inavsOf hist, c.svn = svn ∧ kd.carries c f = true ∧ (d.data.drop (kd.off i)).take f.len = f.bits c := by
  have hinv' := navInv_run hS h0 (h.trans h2).run
  obtain ⟨g, x', hb, e1, e2, _⟩ := get_some hinv' hd
  obtain ⟨k, s', k1, k2, k3, k4, k5, _⟩ := bestEntry_some hb
  obtain ⟨s, hs, x, hx, f1, f2, f3⟩ := C34_no_authbits_after_alert hS h0 h ha h2 kd (List.mem_of_getElem? k1) k3 (by omega)
  refine ⟨⟨s, hs, x, hx, by rw [f1, k4], by rw [f2, e1]; rfl, by rw [f3, e2]⟩, ?_⟩
  intro i f hf
  have hinv := navInv_run hS h0 h.run
  have hm : x ∈ o.data.data.navmessage.arr kd := (Rep.mem hinv.rep).2 (.inl ⟨s, hs, hx⟩)
  obtain ⟨c, h1, h2, h3, h4⟩ := (prov_run hS h0 h.run kd x hm).auth svn (by rw [f1, k4]) (by omega) i f hf
  refine ⟨c, h1, h2, h3, ?_⟩
  rw [← h4, e1]
  have ho := kd.off_le hf
  unfold NavItem.seg NavItem.messageBits
  rw [List.drop_take, List.take_take, f2]; congr 1; omega

end Verif
