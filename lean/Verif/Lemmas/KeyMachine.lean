import Verif.Spec.KeyMachine
import Verif.Lemmas.PanicIff
import Verif.Props.Dsm
import Verif.Props.Kroot
import Verif.Props.Merkle
import Verif.Props.Keys
import Verif.Props.Chains

/-! # Lemmas: the reference machine for the acceptance of keys -/

namespace Verif
open CollectSubframe CollectDsm

variable {S : Storage} {C : Crypto} {root0 : Option MerkleTreeNode} {pk0 : Option (PublicKey C)} {slow : Bool}
  {hist : List Call} {log : List (KeyEvent C)} {o o' : Osnma C}

/-! ## Subframes -/

theorem inOrder_pos {n : Nat} {p : Page} (l : List Page) (h : p.word = n) : inOrder n (p :: l) = p :: inOrder (n + 1) l := if_pos h

theorem inOrder_neg {n : Nat} {p : Page} (l : List Page) (h : p.word ≠ n) : inOrder n (p :: l) = inOrder n l := if_neg h

theorem inOrder_snoc (n : Nat) (l : List Page) (q : Page) :
    inOrder n (l ++ [q]) = if q.word = n + (inOrder n l).length then inOrder n l ++ [q] else inOrder n l := by
  induction l generalizing n with
  | nil =>
    by_cases h : q.word = n
    · rw [List.nil_append, inOrder_pos _ h, if_pos (by exact h)]; rfl
    · rw [List.nil_append, inOrder_neg _ h, if_neg (by exact h)]
  | cons p l ih =>
    by_cases h : p.word = n
    · rw [List.cons_append, inOrder_pos _ h, inOrder_pos _ h, ih (n + 1)]
      by_cases h2 : q.word = n + 1 + (inOrder (n + 1) l).length
      · rw [if_pos h2, if_pos (by rw [List.length_cons]; omega)]; rfl
      · rw [if_neg h2, if_neg (by rw [List.length_cons]; omega)]
    · rw [List.cons_append, inOrder_neg _ h, inOrder_neg _ h, ih n]

theorem sinceSubframe_append (hist : List Page) (q : Page) (g : Gst) :
    sinceSubframe (hist ++ [q]) g = if q.sub = g then sinceSubframe hist g ++ [q] else [] := by
  unfold sinceSubframe
  rw [List.reverse_append, List.reverse_singleton, List.singleton_append]
  by_cases h : q.sub = g
  · rw [List.takeWhile_cons_of_pos (by simpa using h), if_pos h, List.reverse_cons]
  · rw [List.takeWhile_cons_of_neg (by simpa using h), if_neg h]; rfl

theorem satAfter_inOrder (svn : Svn) (hist : List Page) (g : Gst) :
    (if g = (satAfter svn hist).sub then (satAfter svn hist).got else []) =
      inOrder 0 ((sinceSubframe hist g).filter (fun q => q.svn == svn)) := by
  induction hist using snoc_induction generalizing g with
  | h0 => show (if g = _ then [] else []) = []; rw [ite_self]
  | h1 hist q ih =>
    rw [satAfter_snoc, Sat.step_sub, Sat.step_got, ih q.sub, sinceSubframe_append]
    by_cases hg : g = q.sub
    · subst hg
      rw [if_pos rfl, if_pos rfl, List.filter_append]
      by_cases hs : q.svn = svn
      · rw [List.filter_cons_of_pos (by simpa using hs), List.filter_nil, inOrder_snoc]
        simp only [hs, true_and, Nat.zero_add]
      · rw [List.filter_cons_of_neg (by simpa using hs), List.filter_nil, List.append_nil, if_neg (fun h => hs h.1)]
    · rw [if_neg hg, if_neg (fun h => hg h.symm)]; rfl

/-- The collector returns exactly the completed subframes. -/
theorem feed_completes {ps : List Page} {s s' : CollectSubframe} {outs : List SubframeOut} {out : SubframeOut} {p : Page}
    (hrun : feedPages .new ps = .ok (s, outs)) (hfeed : s.feed p.data p.svn p.gst = .ok (s', out)) (r : Received) :
    CompletesSubframe ps p r ↔ out = some (r.hkroot, r.mack, r.gst) ∧ r.svn = p.svn := by
  obtain ⟨s1, outs1, h1, h2, h3, _⟩ := feedPages_spec wf_new ps (fun _ => Sat.init) rep_new
  rw [hrun] at h1; cases h1
  obtain ⟨s2, out2, h4, _, _, h5⟩ := feed_emit h2 p (fun svn => satAfter svn ps) h3
  rw [hfeed] at h4; cases h4
  have hg : ((satAfter p.svn ps).adjust p.gst).got = inOrder 0 ((sinceSubframe ps p.sub).filter (fun q => q.svn == p.svn)) :=
    satAfter_inOrder p.svn ps p.sub
  have hstep : p.word = 14 → ((satAfter p.svn ps).adjust p.gst).got.length = 14 →
      ((satAfter p.svn ps).step p.svn p).got = ((satAfter p.svn ps).adjust p.gst).got ++ [p] := by
    intro e1 e2
    rw [Sat.step_got]
    have : (if p.sub = (satAfter p.svn ps).sub then (satAfter p.svn ps).got else [])
        = ((satAfter p.svn ps).adjust p.gst).got := rfl
    rw [this, if_pos ⟨rfl, by omega⟩]
  unfold Sat.emit at h5
  constructor
  · intro h
    have e2 : ((satAfter p.svn ps).adjust p.gst).got.length = 14 := by rw [hg]; exact h.words
    rw [if_pos ⟨rfl, h.last, e2⟩, hstep h.last e2, hg, ← h.hkroot, ← h.mack, ← h.gst] at h5
    exact ⟨raw_inj h5, h.svn⟩
  · rintro ⟨rfl, hsv⟩
    split at h5
    · rename_i hc
      rw [hstep hc.2.1 hc.2.2, hg] at h5
      simp only [raw, Option.map_some, Option.some.injEq, Prod.mk.injEq] at h5
      obtain ⟨e1, e2, e3⟩ := h5
      exact ⟨hsv, hc.2.1, by rw [← hg]; exact hc.2.2, e1, e2, e3⟩
    · simp [raw] at h5

/-! ## DSMs -/

theorem CompletesDsmWith.unique {before : List DsmCall} {p : DsmCall} {a b : List Byte} (ha : CompletesDsmWith before p a)
    (hb : CompletesDsmWith before p b) : a = b := by
  obtain ⟨n, h1, h2, h3⟩ := ha.now
  obtain ⟨m, k1, k2, k3⟩ := hb.now
  have := h1.unique k1
  subst this
  refine eq_of_blocks h2 k2 ?_
  intro i hi
  obtain ⟨x, e1, e2⟩ := h3 i hi
  obtain ⟨y, f1, f2⟩ := k3 i hi
  rw [e1] at f1; cases f1
  exact e2.trans f2.symm

/-- The collector returns exactly the completed DSMs. -/
theorem feed_dsm {ds : List DsmCall} {c c' : CollectDsm} {douts : List (Option Dsm)} {out : Option Dsm} {p : DsmCall}
    (hrun : feedBlocks .new ds = .ok (c, douts)) (hfeed : c.feed p.header p.block = .ok (c', out)) :
    (∀ x, out = some x → x.dsmType = p.header.dsmType ∧ CompletesDsmWith ds p x.data) ∧
    (out = none → ∀ data, ¬ CompletesDsmWith ds p data) := by
  obtain ⟨c1, out1, h1, _, h3, h4⟩ := CollectDsm.feed_inv p (start_inv hrun p.header)
  rw [hfeed] at h1; cases h1
  constructor
  · rintro x rfl
    obtain ⟨h5, h6, n, h7, h8, h9⟩ := h4 x rfl
    exact ⟨h6, (h3.1 rfl).2, n, h7, h8, h9⟩
  · rintro rfl data h
    obtain ⟨n, h1, _⟩ := h.now
    have := h3.2 ⟨⟨n, h1⟩, h.notYet⟩
    cases this

theorem feedBlocks_snoc {c0 c c' : CollectDsm} {l : List DsmCall} {outs : List (Option Dsm)} {out : Option Dsm} {p : DsmCall}
    (h : feedBlocks c0 l = .ok (c, outs)) (hf : c.feed p.header p.block = .ok (c', out)) :
    feedBlocks c0 (l ++ [p]) = .ok (c', outs ++ [out]) := by
  induction l generalizing c0 outs with
  | nil =>
    simp only [feedBlocks] at h
    cases h
    simp only [List.nil_append, feedBlocks, hf]
  | cons q l ih =>
    simp only [feedBlocks] at h
    split at h
    · cases h
    · rename_i c1 o1 hq
      split at h
      · cases h
      · rename_i c2 os hq2
        cases h
        simp only [List.cons_append, feedBlocks, hq, ih hq2]

/-! ## TESLA keys held -/

theorem holds_eq_ofChain (k : Option Key) (c : Nat) : KeyStore.holds k c = ofChain c k := rfl

theorem storeKroot_exact (ks : KeyStore) (key : Key) (h : NmaHeader) (g : Gst) :
    ((ks.storeKroot key h g).key0, (ks.storeKroot key h g).key1) = addKroot h key (ks.key0, ks.key1) := by
  rcases ks with ⟨s0, s1, cf⟩
  unfold KeyStore.storeKroot addKroot
  dsimp only
  by_cases h0 : KeyStore.holds s0 key.chain.id = true
  · rw [if_pos h0, if_pos (.inl h0)]
  · by_cases h1 : KeyStore.holds s1 key.chain.id = true
    · rw [if_neg h0, if_pos h1, if_pos (.inr h1)]
    · rw [if_neg h0, if_neg h1, if_neg (fun h => h.elim h0 h1)]
      cases s0 with
      | none => simp
      | some a =>
        cases s1 with
        | none => simp
        | some b => simp [ofChain]; split <;> rfl

theorem revoke_exact (ks : KeyStore) (c : Nat) :
    ((ks.revoke c).key0, (ks.revoke c).key1) = (dropChain c ks.key0, dropChain c ks.key1) := rfl

theorem storeKey_exact {ks ks' : KeyStore} {key : Key} (hd : ks.Distinct) (h : ks.storeKey key = .ok ks') :
    (ks'.key0, ks'.key1) = teslaAfter (C := C) (ks.key0, ks.key1) (.tesla key) := by
  rcases ks with ⟨s0, s1, cf⟩
  unfold KeyStore.storeKey at h
  unfold teslaAfter
  dsimp only at h ⊢
  cases h0 : ofChain key.chain.id s0 with
  | true =>
    have h1 : ofChain key.chain.id s1 = false := by
      cases h1 : ofChain key.chain.id s1 with
      | false => rfl
      | true =>
        obtain ⟨a, rfl, ha⟩ := KeyStore.holds_iff.1 h0
        obtain ⟨b, rfl, hb⟩ := KeyStore.holds_iff.1 h1
        exact absurd (ha.trans hb.symm) (hd a b rfl rfl)
    rw [if_pos (show KeyStore.holds s0 key.chain.id = true from h0)] at h
    cases h
    rw [if_pos rfl, h1, if_neg (by decide)]
  | false =>
    rw [if_neg (by rw [show KeyStore.holds s0 key.chain.id = false from h0]; decide)] at h
    cases h1 : ofChain key.chain.id s1 with
    | true =>
      rw [if_pos (show KeyStore.holds s1 key.chain.id = true from h1)] at h
      cases h
      rw [if_neg (by decide), if_pos rfl]
    | false =>
      rw [if_neg (by rw [show KeyStore.holds s1 key.chain.id = false from h1]; decide)] at h
      cases h

theorem dsmStep_tesla {d d' : OsnmaData C} {g : Gst} {h : NmaHeader} {evs : List (KeyEvent C)} (hw : d.pubkey.Wf)
    (st : OsnmaData.DsmStep d g h evs d') : (d'.key.key0, d'.key.key1) = evs.foldl teslaAfter (d.key.key0, d.key.key1) := by
  cases st with
  | nothing => rfl
  | kroot kr pkid pk key ps hid happ hkey hmk =>
    obtain ⟨_, w2, w3, w4, w5⟩ := PubkeyStore.makeCurrent_spec hw hmk
    simp only [List.foldl_cons, List.foldl_nil, teslaAfter]
    have e := storeKroot_exact d.key key h g
    rcases OsnmaData.processNmaHeader_spec
      ({ d with pubkey := ps, key := d.key.storeKroot key h g } : OsnmaData C) h pkid w3 w5 with
      ⟨ha, _, _, e2⟩ | ⟨ha, _, _, ⟨hr, e2⟩ | ⟨hr, e2⟩⟩
    · rw [e2, if_pos ha]; rfl
    · rw [e2, if_neg ha, if_pos hr, ← e]; rfl
    · rw [e2, if_neg ha, if_neg hr, ← e]
  | pkr p root pk ps hroot hval hst => rfl
  | alert p root hroot hval => rfl

theorem teslaStep_tesla {d : OsnmaData C} {m : MackMessage} {g : Gst} {evs : List (KeyEvent C)} {ks : KeyStore}
    (hd : d.key.Distinct) (st : OsnmaData.TeslaStep d m g evs ks) :
    (ks.key0, ks.key1) = evs.foldl teslaAfter (d.key.key0, d.key.key1) := by
  cases st with
  | nothing => rfl
  | accept cur ks hcur hal hlt hval hks => exact storeKey_exact (C := C) hd hks

/-- The TESLA keys held are a function of the messages. -/
theorem teslaHeld_run (h : Logs S (Osnma.new S root0 pk0 slow) hist log o) :
    (o.data.data.key.key0, o.data.data.key.key1) = teslaHeld log := by
  induction h with
  | nil => rfl
  | @snoc hi lo oa ob c hl hc ih =>
    have inv := keyInv_run hl
    unfold teslaHeld at ih ⊢
    rw [List.foldl_append, ← ih]
    have st := Call.keyStep hc
    generalize oa.events S c = evs at st
    cases st with
    | nothing _ h2 _ => rw [h2]; rfl
    | subframe m g hd d0 d1 l1 l2 hp hk' hm s1 s2 hp' hm' =>
      rw [← hp, ← hk', ← hm] at inv
      rw [List.foldl_append, ← hk', ← dsmStep_tesla inv.pwf s1]
      exact teslaStep_tesla (inv.dsm s1).kdist s2

/-- The Merkle tree root given at construction is held until an alert. -/
theorem merkleTree_run (h : Logs S (Osnma.new S root0 pk0 slow) hist log o) (hna : ¬ AlertIn log) :
    o.data.data.merkleTree = root0 := by
  induction h with
  | nil => rfl
  | @snoc hi lo oa ob c hl hc ih =>
    have inv := keyInv_run hl
    have hna0 : ¬ AlertIn lo := fun ⟨e, he, ha⟩ => hna ⟨e, List.mem_append_left _ he, ha⟩
    rw [← ih hna0]
    have hev : ∀ e ∈ oa.events S c, ¬ e.IsAlert := fun e he ha => hna ⟨e, List.mem_append_right _ he, ha⟩
    have st := Call.keyStep hc
    generalize oa.events S c = evs at st hev
    cases st with
    | nothing _ _ h3 => exact h3
    | subframe m g hd d0 d1 l1 l2 hp hk' hm s1 s2 hp' hm' =>
      rw [hm', ← hm]
      rw [← hp] at inv
      cases s1 with
      | nothing => rfl
      | kroot kr pkid pk key ps hid happ hkey hmk =>
        obtain ⟨_, w2, w3, w4, w5⟩ := PubkeyStore.makeCurrent_spec inv.pwf hmk
        rcases OsnmaData.processNmaHeader_spec
          ({ d0 with pubkey := ps, key := d0.key.storeKroot key hd g } : OsnmaData C) hd pkid w3 w5 with
          ⟨ha, _⟩ | ⟨_, e1, _⟩
        · exact absurd ha (hev _ (List.mem_append_left _ (List.mem_singleton.2 rfl)))
        · exact e1
      | pkr p root pk ps hroot hval hst => rfl
      | alert p root hroot hval =>
        exact absurd trivial (hev _ (List.mem_append_left _ (List.mem_singleton.2 rfl)))

/-! ## Messages of a DSM -/

theorem icdSigBytes_inj {f f' : EcdsaFunction} {a l : Nat} (h1 : a + icdSigBytes f ≤ l) (h2 : l < a + icdSigBytes f + 13)
    (h3 : a + icdSigBytes f' ≤ l) (h4 : l < a + icdSigBytes f' + 13) : f = f' := by
  cases f <;> cases f' <;> first | rfl | (simp only [icdSigBytes] at *; omega)

/-- A correctly signed message that does not make the library panic has a valid time. -/
theorem krootTime_of_harmless {pk : VerifyingKey C} {h : NmaHeader} {data : List Byte} {f : EcdsaFunction} {n : Nat}
    (hs : SignedKroot C pk h data f n) (hh : HarmlessKroot C pk h data) : Key.KrootTimeOk data := by
  obtain ⟨f', a1, a2, a3, a4⟩ := hh hs.hf hs.mf hs.ts n hs.ks
  obtain rfl := icdSigBytes_inj hs.fits hs.minimal a1 a2
  exact (a4 hs.padding).2 hs.sig

theorem krootEvents_exact {d d' : OsnmaData C} {data : List Byte} {h : NmaHeader} {g : Gst} (hw : d.pubkey.Wf)
    (hp : d.processDsmKroot ⟨data⟩ h g = .ok d') :
    Exactly (fun e => ∃ pk key, d.pubkey.Has pk ∧ pk.pkid = bitField data 4 4 ∧ (∃ f n, SignedKroot C pk.key h data f n) ∧
      AnnouncedKey data key ∧ key.ZeroPadded ∧ e = .kroot h data pk key g) (d.krootEvents ⟨data⟩ h g) := by
  unfold OsnmaData.processDsmKroot at hp
  unfold OsnmaData.krootEvents
  obtain ⟨pkid, e1, hp⟩ := Res.bind_eq_ok.1 hp
  obtain ⟨a, e2, hp⟩ := Res.bind_eq_ok.1 hp
  have hpk : pkid = bitField data 4 4 := by
    unfold DsmKroot.publicKeyId at e1
    exact (field_eq_ok.1 e1).2.2
  rw [e1]
  dsimp only
  rw [e2]
  cases a with
  | none =>
    refine .inr ⟨rfl, ?_⟩
    rintro e ⟨pk, key, k1, k2, _⟩
    have := PubkeyStore.applicable_of_has hw k1
    rw [k2, ← hpk, e2] at this
    cases this
  | some pk =>
    dsimp only at hp ⊢
    obtain ⟨r, e3, hp⟩ := Res.bind_eq_ok.1 hp
    rw [e3]
    obtain ⟨hhas, hid⟩ := PubkeyStore.applicable_some e2
    cases r with
    | error e =>
      refine .inr ⟨rfl, ?_⟩
      rintro e' ⟨pk', key, k1, k2, ⟨f, n, k3⟩, k4, k5, _⟩
      have := PubkeyStore.applicable_of_has hw k1
      rw [k2, ← hpk, e2] at this
      cases this
      have hl : 13 ≤ data.length := by have := k3.fits; omega
      have ht := krootTime_of_harmless k3 ((Key.fromDsmKroot_returns_iff (d := ⟨data⟩) hl).1 ⟨_, e3⟩)
      have := (C27_kroot_accepted_iff h h ⟨data⟩ pk key).2 ⟨⟨f, n, k3⟩, ht, k4, k5, rfl⟩
      rw [e3] at this
      cases this
    | ok kh =>
      obtain ⟨key, h'⟩ := kh
      obtain ⟨a1, a2, a3, a4, rfl⟩ := (C27_kroot_accepted_iff h h' ⟨data⟩ pk key).1 e3
      exact .inl ⟨_, ⟨pk, key, hhas, hid.trans hpk, a1, a3, a4, rfl⟩, rfl⟩

theorem pkrEvents_exact {d d' : OsnmaData C} {data : List Byte} (hp : d.processDsmPkr ⟨data⟩ = .ok d') :
    Exactly (fun e => ∃ root, d.merkleTree = some root ∧ ((∃ pk, MerkleProvedKey C root.val data pk ∧ e = .pkr data pk) ∨
      (∃ leaf, bitField data 1032 4 = 4 ∧ PkrLeaf data leaf ∧ MerkleProof C root.val data leaf ∧ e = .alert data)))
      (d.pkrEvents ⟨data⟩) := by
  unfold OsnmaData.processDsmPkr at hp
  unfold OsnmaData.pkrEvents
  obtain ⟨ty, e1, hp⟩ := Res.bind_eq_ok.1 hp
  have hl := DsmPkr.newPublicKeyType_len e1
  have e1' := DsmPkr.newPublicKeyType_ok (d := ⟨data⟩) hl
  rw [e1] at e1'
  have hty : ty = DsmPkr.typeOf (bitField data 1032 4) := Res.ok.inj e1'
  rw [e1]
  cases hm : d.merkleTree with
  | none =>
    refine .inr ⟨by cases ty <;> rfl, ?_⟩
    rintro e ⟨root, h1, _⟩
    cases h1
  | some root =>
    cases ty with
    | EcdsaKey f =>
      have h4 : bitField data 1032 4 ≠ 4 := by intro h4; rw [h4] at hty; cases hty
      dsimp only at hp ⊢
      unfold OsnmaData.processDsmPkrNpk at hp
      rw [hm] at hp
      dsimp only at hp
      obtain ⟨r, e2, hp⟩ := Res.bind_eq_ok.1 hp
      rw [e2]
      cases r with
      | ok k => exact .inl ⟨_, ⟨root, rfl, .inl ⟨k, Merkle.validatePkr_eq_ok.1 e2, rfl⟩⟩, rfl⟩
      | error er =>
        refine .inr ⟨rfl, ?_⟩
        rintro e ⟨root', h1, ⟨pk, h2, _⟩ | ⟨leaf, h2, _⟩⟩
        · cases h1
          have := (Merkle.validatePkr_eq_ok (d := ⟨data⟩)).2 h2
          rw [e2] at this; cases this
        · exact h4 h2
    | OsnmaAlertMessage =>
      have h4 : bitField data 1032 4 ≠ 1 ∧ bitField data 1032 4 ≠ 3 := by
        constructor <;> intro h4 <;> rw [h4] at hty <;> cases hty
      dsimp only at hp ⊢
      unfold OsnmaData.processDsmPkrAlert at hp
      rw [hm] at hp
      dsimp only at hp
      obtain ⟨r, e2, hp⟩ := Res.bind_eq_ok.1 hp
      rw [e2]
      cases r with
      | ok k =>
        obtain ⟨a1, s, a2, a3, a4⟩ := Merkle.validateAlert_eq_ok.1 e2
        exact .inl ⟨_, ⟨root, rfl, .inr ⟨_, a1, ⟨s, by rw [a1]; exact a2, a3, rfl⟩, a4, rfl⟩⟩, rfl⟩
      | error er =>
        refine .inr ⟨rfl, ?_⟩
        rintro e ⟨root', h1, ⟨pk, h2, _⟩ | ⟨leaf, h2, ⟨s, h3, h5, rfl⟩, h6, _⟩⟩
        · rcases h2.key with h2 | h2
          · exact h4.1 h2.1
          · exact h4.2 h2.1
        · cases h1
          rw [h2] at h3
          have := (Merkle.validateAlert_eq_ok (d := ⟨data⟩)).2 ⟨h2, s, h3, h5, h6⟩
          rw [e2] at this; cases this
    | Reserved =>
      have h4 : bitField data 1032 4 ≠ 1 ∧ bitField data 1032 4 ≠ 3 ∧ bitField data 1032 4 ≠ 4 := by
        refine ⟨?_, ?_, ?_⟩ <;> intro h4 <;> rw [h4] at hty <;> cases hty
      refine .inr ⟨rfl, ?_⟩
      rintro e ⟨root', h1, ⟨pk, h2, _⟩ | ⟨leaf, h2, _⟩⟩
      · rcases h2.key with h2 | h2
        · exact h4.1 h2.1
        · exact h4.2.1 h2.1
      · exact h4.2.2 h2

theorem Exactly.congr {P Q : KeyEvent C → Prop} {l : List (KeyEvent C)} (h : ∀ e, P e ↔ Q e) (hl : Exactly P l) : Exactly Q l := by
  rcases hl with ⟨e, h1, h2⟩ | ⟨h1, h2⟩
  · exact .inl ⟨e, (h e).1 h1, h2⟩
  · exact .inr ⟨h1, fun e he => h2 e ((h e).2 he)⟩

/-- The messages of a DSM. -/
theorem dsmEvents_exact (hlog : Logs S (Osnma.new S root0 pk0 slow) hist log o) {ms : MackStorage} {x : Dsm} {r : Received}
    {d' : OsnmaData C} (ht : x.dsmType = r.dsmCall.header.dsmType)
    (hp : ({ o.data.data with mack := ms } : OsnmaData C).processDsm x r.header r.gst = .ok d') :
    Exactly (DsmMessage root0 pk0 log r x.data) (({ o.data.data with mack := ms } : OsnmaData C).dsmEvents x r.header r.gst) := by
  have inv := keyInv_run hlog
  have hkeys := C29_keys_exact hlog
  have hty := DsmHeader.type_eq r.dsmCall.header
  unfold OsnmaData.processDsm at hp
  unfold OsnmaData.dsmEvents
  cases hx : x.dsmType with
  | Kroot =>
    rw [hx] at hp
    dsimp only at hp ⊢
    have hid : r.dsmCall.header.dsmId < 12 := by
      rw [hx, hty] at ht
      split at ht
      · cases ht
      · omega
    refine (krootEvents_exact (d := { o.data.data with mack := ms }) inv.pwf hp).congr ?_
    intro e
    constructor
    · rintro ⟨pk, key, k1, k2, k3, k4, k5, rfl⟩
      refine .kroot pk key hid ?_ k2 k3 k4 k5
      rw [← hkeys]
      exact k1
    · rintro (⟨pk, key, _, k1, k2, k3, k4, k5⟩ | ⟨_, _, h, _⟩ | ⟨_, _, h, _⟩)
      · rw [← hkeys] at k1
        exact ⟨pk, key, k1, k2, k3, k4, k5, rfl⟩
      · omega
      · omega
  | Pkr =>
    rw [hx] at hp
    dsimp only at hp ⊢
    have hid : 12 ≤ r.dsmCall.header.dsmId := by
      rw [hx, hty] at ht
      split at ht
      · assumption
      · cases ht
    have hroot : ∀ root, o.data.data.merkleTree = some root ↔ root0 = some root ∧ ¬ AlertIn log := by
      intro root
      constructor
      · intro hm
        have hna : ¬ AlertIn log := by
          intro ha
          rw [(inv.dead ha).1] at hm; cases hm
        rw [← merkleTree_run hlog hna]
        exact ⟨hm, hna⟩
      · rintro ⟨hm, hna⟩
        rw [merkleTree_run hlog hna]; exact hm
    refine (pkrEvents_exact (d := { o.data.data with mack := ms }) hp).congr ?_
    intro e
    constructor
    · rintro ⟨root, h1, ⟨pk, h2, rfl⟩ | ⟨leaf, h2, h3, h4, rfl⟩⟩
      · exact .pkr root pk hid ((hroot root).1 h1).1 ((hroot root).1 h1).2 h2
      · exact .alert root leaf hid ((hroot root).1 h1).1 ((hroot root).1 h1).2 h2 h3 h4
    · rintro (⟨_, _, h, _⟩ | ⟨root, pk, _, h1, h2, h3⟩ | ⟨root, leaf, _, h1, h2, h3, h4, h5⟩)
      · omega
      · exact ⟨root, (hroot root).2 ⟨h1, h2⟩, .inl ⟨pk, h3, rfl⟩⟩
      · exact ⟨root, (hroot root).2 ⟨h1, h2⟩, .inr ⟨leaf, h3, h4, h5, rfl⟩⟩

/-! ## Messages of a TESLA key -/

theorem Key.ZeroPadded.eq {a b : Key} (ha : a.ZeroPadded) (hb : b.ZeroPadded) (hc : a.chain = b.chain) (hg : a.gst = b.gst)
    (h : a.bytes = b.bytes) : a = b := by
  rcases a with ⟨da, ca, ga⟩
  rcases b with ⟨db, cb, gb⟩
  dsimp only at hc hg
  subst hc
  subst hg
  unfold Key.ZeroPadded at ha hb
  dsimp only at ha hb
  rw [h] at ha
  have : da = db := Subtype.ext (ha.trans hb.symm)
  rw [this]

theorem mackKey_zeroPadded (m : MackMessage) (c : Chain) (g : Gst) : (mackKey m c g).ZeroPadded := by
  have hl := (mackKey m c g).bytes_length
  have hle := c.keySize_le
  have hb := mackKey_bytes m c g
  unfold Key.ZeroPadded
  rw [hb] at hl ⊢
  have hc : (mackKey m c g).chain = c := rfl
  rw [hc] at hl ⊢
  show (Key.padData (packBytes (mackKeyField m c))).val = _
  simp only [Key.padData]
  rw [List.take_append, List.take_of_length_le (by omega), List.take_replicate, hl]
  rw [show min (32 - c.keySizeBytes) 32 = 32 - c.keySizeBytes by omega]

theorem teslaEvents_exact {d d' : OsnmaData C} {r : Received} (inv : KeyInv root0 pk0 log d.merkleTree d.pubkey d.key)
    (hheld : (d.key.key0, d.key.key1) = teslaHeld log) (hal : r.gst.Aligned) (hv : d.validateKey S r.mack r.gst = .ok d') :
    Exactly (fun e => ∃ k, e = .tesla k ∧ TeslaMessage log r k) (d.teslaEvents r.mack r.gst) := by
  have hforce : ∀ cur, InForce log cur ↔ d.key.currentKey = some cur := by
    intro cur
    unfold InForce
    rw [inv.currentKey_iff, ← hheld]
  have hmem : ∀ e, (∃ k, e = KeyEvent.tesla k ∧ TeslaMessage log r k) → d.teslaEvents r.mack r.gst = [e] := by
    rintro e ⟨k, rfl, hk⟩
    obtain ⟨cur, n, h1, h2, h3, h4, h5⟩ := hk.derives
    have hcur := (hforce cur).1 h1
    have hca : cur.gst.Aligned := (inv.krooted cur (KeyStore.currentKey_some hcur).1).1
    have hk' : k = mackKey r.mack cur.chain r.gst :=
      hk.pad.eq (mackKey_zeroPadded _ _ _) h2 hk.gst (by rw [hk.bytes, mackKey_bytes, h2])
    have ht := h5.time
    dsimp only at ht
    rw [hk.gst] at ht
    rw [hk']
    refine OsnmaData.teslaEvents_accept hcur hal (by omega) ?_
    rw [← hk']
    refine (C23_accepts_iff cur k k hca (by rw [hk.gst]; exact hal)).2 ⟨rfl, h2.symm, n, h3, h4, by rw [hk.gst]; omega, ?_⟩
    rw [← h2]; exact h5
  obtain ⟨st, _, _⟩ := OsnmaData.validateKey_step hv
  generalize hev : d.teslaEvents r.mack r.gst = evs at st hmem
  generalize d'.key = ks at st
  cases st with
  | nothing => exact .inr ⟨rfl, fun e he => by have := hmem e he; cases this⟩
  | accept cur ks hcur hal hlt hval hks =>
    have hca : cur.gst.Aligned := (inv.krooted cur (KeyStore.currentKey_some hcur).1).1
    obtain ⟨_, _, n, h1, h2, h3, h4⟩ := (C23_accepts_iff cur (mackKey r.mack cur.chain r.gst) (mackKey r.mack cur.chain r.gst) hca
      (show (mackKey r.mack cur.chain r.gst).gst.Aligned from hal)).1 hval
    exact .inl ⟨.tesla (mackKey r.mack cur.chain r.gst), ⟨mackKey r.mack cur.chain r.gst, rfl, rfl, mackKey_bytes r.mack cur.chain r.gst, mackKey_zeroPadded r.mack cur.chain r.gst, cur, n, (hforce cur).2 hcur, rfl, h1, h2, h4⟩, rfl⟩

/-! ## The whole run -/

/-- What a completed subframe does, in terms of the machine. -/
structure SubframeStep (root0 : Option MerkleTreeNode) (pk0 : Option (PublicKey C)) (ps : List Page) (rs : List Received)
    (log : List (KeyEvent C)) (p : Page) (r : Received) (l₁ l₂ : List (KeyEvent C)) : Prop where
  hr : CompletesSubframe ps p r
  h₁ : Exactly (fun e => ∃ data, CompletesDsmWith (rs.map Received.dsmCall) r.dsmCall data ∧ DsmMessage root0 pk0 log r data e) l₁
  h₂ : Exactly (fun e => ∃ k, e = .tesla k ∧ TeslaMessage (log ++ l₁) r k) l₂

theorem subframeStep {d : OsnmaDataMessage} {s : Svn} {g : Gst} (hl : Logs S (Osnma.new S root0 pk0 slow) hist log o)
    (c : Osnma.Completes S o o' d s g) {rs : List Received} {outs : List SubframeOut} {douts : List (Option Dsm)}
    (h1 : feedPages .new (pagesOf hist) = .ok (o.subframe, outs))
    (h3 : feedBlocks .new (rs.map Received.dsmCall) = .ok (o.data.dsm, douts)) :
    ∃ l₁, o.events S (.osnma d s g) = l₁ ++ c.d1.teslaEvents c.msg c.g ∧
      SubframeStep root0 pk0 (pagesOf hist) rs log ⟨d, s, g⟩ ⟨s, c.hk, c.msg, c.g⟩ l₁ (c.d1.teslaEvents c.msg c.g) ∧
      (⟨s, c.hk, c.msg, c.g⟩ : Received).header = ⟨c.b0⟩ ∧
      feedPages .new (pagesOf hist ++ [⟨d, s, g⟩]) = .ok (o'.subframe, outs ++ [some (c.hk, c.msg, c.g)]) ∧
      feedBlocks .new ((rs ++ [(⟨s, c.hk, c.msg, c.g⟩ : Received)]).map Received.dsmCall) = .ok (o'.data.dsm, douts ++ [c.out]) ∧
      (c.d1.key.key0, c.d1.key.key1) = teslaHeld (log ++ l₁) ∧
      KeyInv root0 pk0 (log ++ l₁) c.d1.merkleTree c.d1.pubkey c.d1.key := by
  let r : Received := ⟨s, c.hk, c.msg, c.g⟩
  have hr : CompletesSubframe (pagesOf hist) ⟨d, s, g⟩ r := (feed_completes (p := ⟨d, s, g⟩) h1 c.hfeed r).2 ⟨rfl, rfl⟩
  have hhead : r.header = ⟨c.b0⟩ := by
    have := c.hb0
    show NmaHeader.mk (c.hk.val.headD 0) = _
    cases hv : c.hk.val with
    | nil => rw [hv] at this; cases this
    | cons a l => rw [hv] at this; cases this; rfl
  have hcall : r.dsmCall = ⟨⟨c.b1⟩, c.block⟩ := by
    have h1 := c.hb1
    have h2 := c.hblock
    unfold Received.dsmCall
    have e2 : (⟨r.hkroot.val.drop 2, by rw [List.length_drop, r.hkroot.property]⟩ : DsmBlock) = c.block := Subtype.ext h2.symm
    rw [e2]
    have e1 : (r.hkroot.val.drop 1).headD 0 = c.b1 := by
      show (c.hk.val.drop 1).headD 0 = c.b1
      cases hv : c.hk.val with
      | nil => rw [hv] at h1; cases h1
      | cons a l =>
        rw [hv] at h1
        cases l with
        | nil => cases h1
        | cons b l => cases h1; rfl
    rw [e1]
  have hdsm : o.data.dsm.feed r.dsmCall.header r.dsmCall.block = .ok (c.dsm, c.out) := by rw [hcall]; exact c.hdsm
  have hdone := feed_dsm h3 hdsm
  have hal : r.gst.Aligned := by
    have : r.gst = (⟨d, s, g⟩ : Page).sub := hr.gst
    rw [this]; exact Gst.subframe_aligned g
  have e1 : o'.subframe = c.sf := congrArg (fun x => x.subframe) c.ho
  have e2 : o'.data.dsm = c.dsm := congrArg (fun x => x.data.dsm) c.ho
  have inv := keyInv_run hl
  have hheld := teslaHeld_run hl
  have hd1 := c.hd1
  have st : OsnmaData.DsmStep ({ o.data.data with mack := c.ms } : OsnmaData C) c.g ⟨c.b0⟩
      (match c.out with
        | some x => ({ o.data.data with mack := c.ms } : OsnmaData C).dsmEvents x ⟨c.b0⟩ c.g
        | none => []) c.d1 := by
    cases hout : c.out with
    | none =>
      rw [hout] at hd1
      simp only [Res.ok.injEq] at hd1
      rw [← hd1]; exact .nothing
    | some x =>
      rw [hout] at hd1
      exact OsnmaData.processDsm_step hd1
  have inv' := KeyInv.dsm (d := { o.data.data with mack := c.ms }) inv st
  have hh := dsmStep_tesla (d := { o.data.data with mack := c.ms }) inv.pwf st
  have hh' : (c.d1.key.key0, c.d1.key.key1) = teslaHeld (log ++ (match c.out with
        | some x => ({ o.data.data with mack := c.ms } : OsnmaData C).dsmEvents x ⟨c.b0⟩ c.g
        | none => [])) := by
    rw [hh]
    unfold teslaHeld at hheld ⊢
    rw [List.foldl_append, ← hheld]
  rw [e1, e2]
  refine ⟨_, c.events c.hz, ⟨hr, ?_, teslaEvents_exact (r := r) inv' hh' hal c.hd2⟩, hhead, feedPages_snoc (p := ⟨d, s, g⟩) h1 c.hfeed, ?_, hh', inv'⟩
  · cases hout : c.out with
    | none =>
      refine .inr ⟨rfl, ?_⟩
      rintro e ⟨data, h, _⟩
      exact hdone.2 hout data h
    | some x =>
      rw [hout] at hd1
      dsimp only at hd1 ⊢
      obtain ⟨ht, hcomp⟩ := hdone.1 x hout
      rw [← hhead] at hd1 ⊢
      refine (dsmEvents_exact hl (r := r) ht hd1).congr ?_
      intro e
      constructor
      · intro h; exact ⟨_, hcomp, h⟩
      · rintro ⟨data, h5, h6⟩
        rw [hcomp.unique h5]; exact h6
  · rw [List.map_append]; exact feedBlocks_snoc h3 hdsm

/-- A run keeps pace with the machine. -/
theorem keyMachine_run (h : Logs S (Osnma.new S root0 pk0 slow) hist log o) :
    ∃ rs outs douts, feedPages .new (pagesOf hist) = .ok (o.subframe, outs) ∧ ReceivedIn (pagesOf hist) rs ∧
      feedBlocks .new (rs.map Received.dsmCall) = .ok (o.data.dsm, douts) ∧ KeyMachine root0 pk0 rs log := by
  induction h with
  | nil => exact ⟨[], [], [], rfl, .nil, rfl, .nil⟩
  | @snoc hi lo oa ob c hl hc ih =>
    obtain ⟨rs, outs, douts, h1, h2, h3, h4⟩ := ih
    cases c with
    | inav w s g b =>
      obtain ⟨n, _, he⟩ := feedInav_of_ok (c := ⟨w, s, g, b⟩) hc
      subst he
      have hp : pagesOf (hi ++ [Call.inav w s g b]) = pagesOf hi := by rw [pagesOf_snoc]; simp [pagesOf]
      have he : oa.events S (Call.inav w s g b) = [] := rfl
      rw [hp, he, List.append_nil]
      exact ⟨rs, outs, douts, h1, h2, h3, h4⟩
    | osnma d s g =>
      rcases Osnma.feedOsnma_of_ok hc with ⟨hz, rfl⟩ | ⟨hz, hrest⟩
      · have hp : pagesOf (hi ++ [Call.osnma d s g]) = pagesOf hi := by
          rw [pagesOf_snoc]
          have : pagesOf [Call.osnma d s g] = [] := by simp only [pagesOf, List.filterMap_cons, hz, if_true, List.filterMap_nil]
          rw [this, List.append_nil]
        have he : ob.events S (.osnma d s g) = [] := by
          unfold Osnma.events; simp only [hz, if_true]
        rw [hp, he, List.append_nil]
        exact ⟨rs, outs, douts, h1, h2, h3, h4⟩
      · have hp : pagesOf (hi ++ [Call.osnma d s g]) = pagesOf hi ++ [⟨d, s, g⟩] := by
          rw [pagesOf_snoc]
          have : pagesOf [Call.osnma d s g] = [⟨d, s, g⟩] := by
            simp only [pagesOf, List.filterMap_cons, hz, Bool.false_eq_true, if_false, List.filterMap_nil]
          rw [this]
        rw [hp]
        rcases hrest with ⟨sf, hf, rfl⟩ | ⟨⟨c⟩⟩
        · have he : oa.events S (.osnma d s g) = [] := by
            unfold Osnma.events; simp only [hz, Bool.false_eq_true, if_false]; rw [hf]
          rw [he, List.append_nil]
          refine ⟨rs, _, douts, feedPages_snoc (p := ⟨d, s, g⟩) h1 hf, .skip _ h2 ?_, h3, h4⟩
          intro r hr
          have := ((feed_completes (p := ⟨d, s, g⟩) h1 hf r).1 hr).1
          cases this
        · obtain ⟨l₁, he, st, _, f1, f2, _, _⟩ := subframeStep hl c h1 h3
          rw [he, ← List.append_assoc]
          exact ⟨_, _, _, f1, .got _ _ h2 st.hr, f2, .step _ h4 st.h₁ st.h₂⟩

/-! ## The machine is deterministic -/

theorem CompletesSubframe.unique {ps : List Page} {p : Page} {a b : Received} (ha : CompletesSubframe ps p a)
    (hb : CompletesSubframe ps p b) : a = b := by
  rcases a with ⟨a0, a1, a2, a3⟩
  rcases b with ⟨b0, b1, b2, b3⟩
  have e0 : a0 = b0 := ha.svn.trans hb.svn.symm
  have e1 : a1 = b1 := Subtype.ext (ha.hkroot.trans hb.hkroot.symm)
  have e2 : a2 = b2 := Subtype.ext (ha.mack.trans hb.mack.symm)
  have e3 : a3 = b3 := ha.gst.trans hb.gst.symm
  rw [e0, e1, e2, e3]

theorem append_singleton_cancel {α : Type _} {l l' : List α} {a a' : α} (h : l ++ [a] = l' ++ [a']) : l = l' ∧ a = a' := by
  obtain ⟨h1, h2⟩ := List.append_inj' h rfl
  exact ⟨h1, by simpa using h2⟩

theorem ReceivedIn.unique {ps : List Page} {a b : List Received} (ha : ReceivedIn ps a) (hb : ReceivedIn ps b) : a = b := by
  induction ha generalizing b with
  | nil =>
    generalize hps : ([] : List Page) = ps at hb
    cases hb with
    | nil => rfl
    | skip p h hn => simp at hps
    | got p r h hr => simp at hps
  | @skip ps rs p h hn ih =>
    generalize hps : ps ++ [p] = qs at hb
    cases hb with
    | nil => simp at hps
    | skip p' h' hn' =>
      obtain ⟨rfl, rfl⟩ := append_singleton_cancel hps
      exact ih h'
    | got p' r' h' hr' =>
      obtain ⟨rfl, rfl⟩ := append_singleton_cancel hps
      exact absurd hr' (hn r')
  | @got ps rs p r h hr ih =>
    generalize hps : ps ++ [p] = qs at hb
    cases hb with
    | nil => simp at hps
    | skip p' h' hn' =>
      obtain ⟨rfl, rfl⟩ := append_singleton_cancel hps
      exact absurd hr (hn' r)
    | got p' r' h' hr' =>
      obtain ⟨rfl, rfl⟩ := append_singleton_cancel hps
      rw [ih h', hr.unique hr']

end Verif
