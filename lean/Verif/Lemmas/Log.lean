import Verif.Lemmas.OsnmaRun
import Verif.Lemmas.Kroot
import Verif.Model.Log

/-! # Lemmas: steps and messages -/

namespace Verif
variable {C : Crypto} {S : Storage}

namespace Logs
variable {o0 o : Osnma C} {hist : List Call} {log : List (KeyEvent C)}

theorem run (h : Logs S o0 hist log o) : Verif.run S o0 hist = .ok o := by
  induction h with
  | nil => rfl
  | snoc c _ hc ih => exact run_snoc_ok.2 ⟨_, ih, hc⟩

theorem of_run (h : Verif.run S o0 hist = .ok o) : ∃ log, Logs S o0 hist log o :=
  run_induction (fun hist o => ∃ log, Logs S o0 hist log o) ⟨[], .nil⟩
    (fun _ _ _ _ _ ⟨_, hl⟩ hc => ⟨_, .snoc _ hl hc⟩) h

theorem trans {o1 o2 : Osnma C} {h1 h2 : List Call} {l1 l2 : List (KeyEvent C)}
    (a : Logs S o0 h1 l1 o1) (b : Logs S o1 h2 l2 o2) : Logs S o0 (h1 ++ h2) (l1 ++ l2) o2 := by
  induction b with
  | nil => simpa using a
  | snoc c _ hc ih =>
    rw [← List.append_assoc, ← List.append_assoc]
    exact .snoc c ih hc

end Logs

namespace OsnmaData
variable {d d' : OsnmaData C}

/-- What processing a DSM does to the cryptographic material, with its messages. -/
inductive DsmStep (d : OsnmaData C) (gst : Gst) (h : NmaHeader) : List (KeyEvent C) → OsnmaData C → Prop
  | nothing : DsmStep d gst h [] d
  | kroot (k : DsmKroot) (pkid : Nat) (pk : PublicKey C) (key : Key) (ps : PubkeyStore C)
      (hid : k.publicKeyId = .ok pkid) (happ : d.pubkey.applicable pkid = .ok (some pk))
      (hkey : Key.fromDsmKroot C h k pk = .ok (.ok (key, h))) (hmk : d.pubkey.makeCurrent pkid = .ok ps) :
      DsmStep d gst h [.kroot h k.data pk key gst]
        (({ d with pubkey := ps, key := d.key.storeKroot key h gst } : OsnmaData C).processNmaHeader h pkid)
  | pkr (p : DsmPkr) (root : MerkleTreeNode) (pk : PublicKey C) (ps : PubkeyStore C)
      (hroot : d.merkleTree = some root) (hval : Merkle.validatePkr C root p = .ok (.ok pk))
      (hst : d.pubkey.storeNew pk = .ok ps) :
      DsmStep d gst h [.pkr p.data pk] { d with pubkey := ps }
  | alert (p : DsmPkr) (root : MerkleTreeNode) (hroot : d.merkleTree = some root)
      (hval : Merkle.validateAlertMessage C root p = .ok (.ok ())) :
      DsmStep d gst h [.alert p.data] d.alertMessageReceived

theorem fromDsmKroot_header {h h' : NmaHeader} {k : DsmKroot} {pk : PublicKey C} {key : Key}
    (hk : Key.fromDsmKroot C h k pk = .ok (.ok (key, h'))) : h' = h :=
  (Key.fromDsmKroot_eq_ok.1 hk).1

/-- `process_dsm` and its messages. -/
theorem processDsm_step {x : Dsm} {h : NmaHeader} {g : Gst} (hp : d.processDsm x h g = .ok d') :
    DsmStep d g h (d.dsmEvents x h g) d' := by
  unfold processDsm at hp
  unfold dsmEvents
  split at hp
  · rename_i ht
    rw [ht]
    dsimp only
    unfold processDsmKroot at hp
    unfold krootEvents
    obtain ⟨pkid, e1, hp⟩ := Res.bind_eq_ok.1 hp
    obtain ⟨a, e2, hp⟩ := Res.bind_eq_ok.1 hp
    rw [e1]
    dsimp only
    rw [e2]
    cases a with
    | none => simp only [Res.pure_eq, Res.ok.injEq] at hp; subst hp; exact .nothing
    | some pk =>
      dsimp only at hp ⊢
      obtain ⟨r, e3, hp⟩ := Res.bind_eq_ok.1 hp
      rw [e3]
      cases r with
      | error e => simp only [Res.pure_eq, Res.ok.injEq] at hp; subst hp; exact .nothing
      | ok kh =>
        obtain ⟨k, h'⟩ := kh
        dsimp only at hp ⊢
        obtain ⟨pk', e4, hp⟩ := Res.bind_eq_ok.1 hp
        simp only [Res.pure_eq, Res.ok.injEq] at hp
        subst hp
        have := fromDsmKroot_header e3
        subst this
        exact .kroot _ pkid pk k pk' e1 e2 e3 e4
  · rename_i ht
    rw [ht]
    dsimp only
    unfold processDsmPkr at hp
    unfold pkrEvents
    obtain ⟨ty, e1, hp⟩ := Res.bind_eq_ok.1 hp
    rw [e1]
    cases ty with
    | EcdsaKey f =>
      dsimp only at hp ⊢
      unfold processDsmPkrNpk at hp
      cases hm : d.merkleTree with
      | none => rw [hm] at hp; simp only [Res.pure_eq, Res.ok.injEq] at hp; subst hp; exact .nothing
      | some root =>
        rw [hm] at hp
        dsimp only at hp ⊢
        obtain ⟨r, e2, hp⟩ := Res.bind_eq_ok.1 hp
        rw [e2]
        cases r with
        | ok k =>
          obtain ⟨ps, e3, hp⟩ := Res.bind_eq_ok.1 hp
          simp only [Res.pure_eq, Res.ok.injEq] at hp
          subst hp
          have := DsmStep.pkr (d := d) (gst := g) (h := h) ⟨x.data⟩ root k ps hm e2 e3
          rw [hm] at this
          exact this
        | error e => simp only [Res.pure_eq, Res.ok.injEq] at hp; subst hp; exact .nothing
    | OsnmaAlertMessage =>
      dsimp only at hp ⊢
      unfold processDsmPkrAlert at hp
      cases hm : d.merkleTree with
      | none => rw [hm] at hp; simp only [Res.pure_eq, Res.ok.injEq] at hp; subst hp; exact .nothing
      | some root =>
        rw [hm] at hp
        dsimp only at hp ⊢
        obtain ⟨r, e2, hp⟩ := Res.bind_eq_ok.1 hp
        rw [e2]
        cases r with
        | ok k =>
          simp only [Res.pure_eq, Res.ok.injEq] at hp
          subst hp
          exact .alert _ root hm e2
        | error e => simp only [Res.pure_eq, Res.ok.injEq] at hp; subst hp; exact .nothing
    | Reserved =>
      simp only [Res.pure_eq, Res.ok.injEq] at hp; subst hp
      cases d.merkleTree <;> exact .nothing

/-- What processing the key of a MACK does to the cryptographic material, with its messages. -/
inductive TeslaStep (d : OsnmaData C) (m : MackMessage) (gst : Gst) : List (KeyEvent C) → KeyStore → Prop
  | nothing : TeslaStep d m gst [] d.key
  | accept (cur : Key) (ks : KeyStore) (hcur : d.key.currentKey = some cur) (hal : gst.Aligned)
      (hlt : cur.gst.abs < gst.abs)
      (hval : cur.validateKey C (mackKey m cur.chain gst) = .ok (.ok (mackKey m cur.chain gst)))
      (hks : d.key.storeKey (mackKey m cur.chain gst) = .ok ks) :
      TeslaStep d m gst [.tesla (mackKey m cur.chain gst)] ks

/-- The tag processing does not touch the cryptographic material. -/
theorem processTags_keys {k : Key} (h : processTags S d k = .ok d') :
    d'.key = d.key ∧ d'.pubkey = d.pubkey ∧ d'.merkleTree = d.merkleTree ∧ d'.mack = d.mack ∧
      d'.onlySlowmac = d.onlySlowmac := by
  unfold processTags at h
  obtain ⟨gm, _, h⟩ := Res.bind_eq_ok.1 h
  obtain ⟨gs, _, h⟩ := Res.bind_eq_ok.1 h
  obtain ⟨sk, _, h⟩ := Res.bind_eq_ok.1 h
  refine loopM_fold (fun _ x => x.key = d.key ∧ x.pubkey = d.pubkey ∧ x.merkleTree = d.merkleTree ∧
    x.mack = d.mack ∧ x.onlySlowmac = d.onlySlowmac) ⟨rfl, rfl, rfl, rfl, rfl⟩ ?_ h
  intro _ a s s' _ hs hstep
  obtain ⟨s1, h1, h2⟩ := Res.bind_eq_ok.1 hstep
  have e1 : s1.key = s.key ∧ s1.pubkey = s.pubkey ∧ s1.merkleTree = s.merkleTree ∧ s1.mack = s.mack ∧
      s1.onlySlowmac = s.onlySlowmac := by
    unfold processFast at h1
    split at h1
    · simp only [Res.pure_eq, Res.ok.injEq] at h1; subst h1; exact ⟨rfl, rfl, rfl, rfl, rfl⟩
    · obtain ⟨r, _, h1⟩ := Res.bind_eq_ok.1 h1
      cases r with
      | none => simp only [Res.pure_eq, Res.ok.injEq] at h1; subst h1; exact ⟨rfl, rfl, rfl, rfl, rfl⟩
      | some ms =>
        obtain ⟨r, _, h1⟩ := Res.bind_eq_ok.1 h1
        cases r with
        | none => simp only [Res.pure_eq, Res.ok.injEq] at h1; subst h1; exact ⟨rfl, rfl, rfl, rfl, rfl⟩
        | some mm =>
          obtain ⟨nv, _, h1⟩ := Res.bind_eq_ok.1 h1
          simp only [Res.pure_eq, Res.ok.injEq] at h1; subst h1; exact ⟨rfl, rfl, rfl, rfl, rfl⟩
  have e2 : s'.key = s1.key ∧ s'.pubkey = s1.pubkey ∧ s'.merkleTree = s1.merkleTree ∧ s'.mack = s1.mack ∧
      s'.onlySlowmac = s1.onlySlowmac := by
    unfold processSlow at h2
    cases sk with
    | none => simp only [Res.pure_eq, Res.ok.injEq] at h2; subst h2; exact ⟨rfl, rfl, rfl, rfl, rfl⟩
    | some sk =>
      dsimp only at h2
      obtain ⟨r, _, h2⟩ := Res.bind_eq_ok.1 h2
      cases r with
      | none => simp only [Res.pure_eq, Res.ok.injEq] at h2; subst h2; exact ⟨rfl, rfl, rfl, rfl, rfl⟩
      | some ms =>
        obtain ⟨r, _, h2⟩ := Res.bind_eq_ok.1 h2
        cases r with
        | none => simp only [Res.pure_eq, Res.ok.injEq] at h2; subst h2; exact ⟨rfl, rfl, rfl, rfl, rfl⟩
        | some mm =>
          obtain ⟨nv, _, h2⟩ := Res.bind_eq_ok.1 h2
          simp only [Res.pure_eq, Res.ok.injEq] at h2; subst h2; exact ⟨rfl, rfl, rfl, rfl, rfl⟩
  obtain ⟨a1, a2, a3, a4, a5⟩ := hs
  obtain ⟨b1, b2, b3, b4, b5⟩ := e1
  obtain ⟨c1, c2, c3, c4, c5⟩ := e2
  exact ⟨c1.trans (b1.trans a1), c2.trans (b2.trans a2), c3.trans (b3.trans a3), c4.trans (b4.trans a4),
    c5.trans (b5.trans a5)⟩

/-- `validate_key` and its messages. -/
theorem validateKey_step {m : MackMessage} {g : Gst} (h : d.validateKey S m g = .ok d') :
    TeslaStep d m g (d.teslaEvents m g) d'.key ∧ d'.pubkey = d.pubkey ∧ d'.merkleTree = d.merkleTree := by
  unfold validateKey at h
  unfold teslaEvents
  cases hc : d.key.currentKey with
  | none =>
    rw [hc] at h
    simp only [Res.pure_eq, Res.ok.injEq] at h
    subst h
    exact ⟨.nothing, rfl, rfl⟩
  | some cur =>
    rw [hc] at h
    dsimp only at h ⊢
    have hk := Mack.key_ok m cur.chain
    unfold mackOf at hk
    rw [hk] at h ⊢
    simp only [Res.ok_bind] at h ⊢
    obtain ⟨nk, h1, h⟩ := Res.bind_eq_ok.1 h
    obtain ⟨ha, _, hnk⟩ := Key.fromBitslice_eq_ok h1
    rw [h1]
    dsimp only
    cases hcmp : Gst.cmp cur.gst nk.gst with
    | eq => rw [hcmp] at h; simp only [Res.pure_eq, Res.ok.injEq] at h; subst h; exact ⟨.nothing, rfl, rfl⟩
    | gt => rw [hcmp] at h; simp only [Res.pure_eq, Res.ok.injEq] at h; subst h; exact ⟨.nothing, rfl, rfl⟩
    | lt =>
      rw [hcmp] at h
      dsimp only at h ⊢
      obtain ⟨r, h2, h5⟩ := Res.bind_eq_ok.1 h
      rw [h2]
      clear h
      cases r with
      | error e => simp only [Res.pure_eq, Res.ok.injEq] at h5; subst h5; exact ⟨.nothing, rfl, rfl⟩
      | ok k =>
        have := Key.validateKey_same h2
        subst this
        dsimp only at h5 ⊢
        obtain ⟨ks, h3, h4⟩ := Res.bind_eq_ok.1 h5
        obtain ⟨e1, e2, e3, _⟩ := processTags_keys h4
        refine ⟨?_, e2, e3⟩
        rw [e1]
        have hk' : k = mackKey m cur.chain g := hnk
        subst hk'
        exact .accept cur ks hc ha (Gst.cmp_lt.1 hcmp) h2 h3

end OsnmaData

/-- What one call does to the cryptographic material, with its messages: nothing, or a DSM step followed
by a TESLA step. -/
inductive KeyStep (o o' : Osnma C) : List (KeyEvent C) → Prop
  | nothing (h1 : o'.data.data.pubkey = o.data.data.pubkey) (h2 : o'.data.data.key = o.data.data.key)
      (h3 : o'.data.data.merkleTree = o.data.data.merkleTree) : KeyStep o o' []
  | subframe (m : MackMessage) (g : Gst) (hd : NmaHeader) (d0 d1 : OsnmaData C) (l1 l2 : List (KeyEvent C))
      (hp : d0.pubkey = o.data.data.pubkey) (hk : d0.key = o.data.data.key)
      (hm : d0.merkleTree = o.data.data.merkleTree)
      (s1 : OsnmaData.DsmStep d0 g hd l1 d1) (s2 : OsnmaData.TeslaStep d1 m g l2 o'.data.data.key)
      (hp' : o'.data.data.pubkey = d1.pubkey) (hm' : o'.data.data.merkleTree = d1.merkleTree) :
      KeyStep o o' (l1 ++ l2)

/-- The messages of a call that completes a subframe. -/
theorem Osnma.Completes.events {o o' : Osnma C} {data : OsnmaDataMessage} {svn : Svn} {gst : Gst}
    (c : Osnma.Completes S o o' data svn gst) (hz : data.val.all (fun x => x == 0#8) = false) :
    o.events S (.osnma data svn gst) =
      (match c.out with
        | some x => ({ o.data.data with mack := c.ms } : OsnmaData C).dsmEvents x ⟨c.b0⟩ c.g
        | none => []) ++ c.d1.teslaEvents c.msg c.g := by
  unfold Osnma.events
  simp only [hz, Bool.false_eq_true, if_false]
  rw [c.hfeed]
  dsimp only
  unfold OsnmaDsm.events
  have hb : CollectSubframe.toBytes 13 (c.hk.val.drop 2) = .ok c.block := by
    unfold CollectSubframe.toBytes
    have hl : (c.hk.val.drop 2).length = 13 := by rw [← c.hblock]; exact c.block.property
    rw [dif_pos hl]
    exact congrArg Res.ok (Subtype.ext c.hblock.symm)
  rw [index_eq_ok.2 c.hb0]
  simp only [Res.ok_bind]
  rw [c.hstore]
  simp only [Res.ok_bind]
  rw [index_eq_ok.2 c.hb1]
  simp only [Res.ok_bind]
  rw [hb]
  simp only [Res.ok_bind]
  rw [c.hdsm]
  simp only [Res.ok_bind, Res.pure_eq]
  have h1 := c.hd1
  cases ho : c.out with
  | none =>
    rw [ho] at h1
    simp only [Res.ok.injEq] at h1
    dsimp only
    rw [h1]; rfl
  | some x =>
    rw [ho] at h1
    dsimp only at h1 ⊢
    rw [h1]

/-- One call of the API. -/
theorem Call.keyStep {o o' : Osnma C} {c : Call} (h : c.run S o = .ok o') : KeyStep o o' (o.events S c) := by
  cases c with
  | inav w s g b =>
    have h' : o.feedInav S w s g b = .ok o' := h
    unfold Osnma.feedInav at h'
    obtain ⟨n, _, h'⟩ := Res.bind_eq_ok.1 h'
    simp only [Res.pure_eq, Res.ok.injEq] at h'
    subst h'
    exact .nothing rfl rfl rfl
  | osnma data svn gst =>
    rcases Osnma.feedOsnma_of_ok h with ⟨hz, rfl⟩ | ⟨hz, ⟨sf, hf, rfl⟩ | ⟨⟨c⟩⟩⟩
    · have : o'.events S (.osnma data svn gst) = [] := by
        unfold Osnma.events; simp only [hz, if_true]
      rw [this]; exact .nothing rfl rfl rfl
    · have : o.events S (.osnma data svn gst) = [] := by
        unfold Osnma.events; simp only [hz, Bool.false_eq_true, if_false]; rw [hf]
      rw [this]; exact .nothing rfl rfl rfl
    · rw [c.events hz]
      obtain ⟨t, hp, hm⟩ := OsnmaData.validateKey_step c.hd2
      have e : o'.data.data = c.d2 := congrArg (fun x => x.data.data) c.ho
      have h1 := c.hd1
      rw [← e] at t hp hm
      cases hout : c.out with
      | none =>
        rw [hout] at h1
        simp only [Res.ok.injEq] at h1
        dsimp only
        refine .subframe c.msg c.g ⟨c.b0⟩ c.d1 c.d1 [] _ ?_ ?_ ?_ .nothing t hp hm
        · rw [← h1]
        · rw [← h1]
        · rw [← h1]
      | some x =>
        rw [hout] at h1
        exact .subframe c.msg c.g ⟨c.b0⟩ { o.data.data with mack := c.ms } c.d1 _ _ rfl rfl rfl (OsnmaData.processDsm_step h1) t hp hm

/-- Induction over logged runs by key steps. -/
theorem Logs.key_induction {o0 : Osnma C} (P : List (KeyEvent C) → Osnma C → Prop) (h0 : P [] o0)
    (hstep : ∀ log o evs o', P log o → KeyStep o o' evs → P (log ++ evs) o')
    {hist : List Call} {log : List (KeyEvent C)} {o : Osnma C} (h : Logs S o0 hist log o) : P log o := by
  induction h with
  | nil => exact h0
  | snoc c _ hc ih => exact hstep _ _ _ _ ih (Call.keyStep hc)

end Verif
