import Verif.Lemmas.OsnmaSteps
import Verif.Lemmas.Subframe
import Verif.Model.History

/-! # Lemmas: one call of the black box, and runs -/

namespace Verif
open CollectNavMessage

theorem Key.validateKey_same {C : Crypto} {a b k : Key} (h : a.validateKey C b = .ok (.ok k)) : k = b := by
  unfold Key.validateKey at h
  split at h
  · simp at h
  · split at h
    · simp at h
    · obtain ⟨d, _, h⟩ := Res.bind_eq_ok.1 h
      obtain ⟨_, _, h⟩ := Res.bind_eq_ok.1 h
      split at h
      · simp at h
      · obtain ⟨k', _, h⟩ := Res.bind_eq_ok.1 h
        obtain ⟨_, _, h⟩ := Res.bind_eq_ok.1 h
        split at h
        · simp only [Res.pure_eq, Res.ok.injEq, Except.ok.injEq] at h; exact h.symm
        · simp at h

theorem Key.fromBitslice_eq_ok {bits : List Bool} {g : Gst} {c : Chain} {k : Key} (h : Key.fromBitslice bits g c = .ok k) :
    g.Aligned ∧ bits.length = 8 * c.keySizeBytes ∧ k = ⟨padData (packBytes bits), c, g⟩ := by
  unfold Key.fromBitslice Key.checkGst at h
  obtain ⟨_, h1, h⟩ := Res.bind_eq_ok.1 h
  obtain ⟨_, h2, h⟩ := Res.bind_eq_ok.1 h
  rw [Res.assert_eq_ok] at h1 h2
  simp only [beq_iff_eq] at h2
  simp only [Res.pure_eq, Res.ok.injEq] at h
  exact ⟨(Gst.isSubframe_iff g).1 h1, by omega, h.symm⟩

/-- The TESLA key carried by a MACK message of a chain, as received in the subframe `g`. -/
def mackKey (msg : MackMessage) (c : Chain) (g : Gst) : Key :=
  ⟨Key.padData (packBytes (((bitsOf msg.val).drop (c.numTags * (c.tagSizeBits + 16))).take (8 * c.keySizeBytes))), c, g⟩

namespace OsnmaData
variable {C : Crypto} {S : Storage}

/-- `validate_key`: nothing happens, or the key of the MACK is accepted by the current key, stored,
and the tags are processed. -/
theorem validateKey_of_ok {d d' : OsnmaData C} {m : MackMessage} {g : Gst} (h : d.validateKey S m g = .ok d') :
    d' = d ∨ ∃ cur ks, d.key.currentKey = some cur ∧ g.Aligned ∧ cur.gst.abs < g.abs ∧
      cur.validateKey C (mackKey m cur.chain g) = .ok (.ok (mackKey m cur.chain g)) ∧
      d.key.storeKey (mackKey m cur.chain g) = .ok ks ∧
      processTags S { d with key := ks } (mackKey m cur.chain g) = .ok d' := by
  unfold validateKey at h
  cases hc : d.key.currentKey with
  | none =>
    rw [hc] at h
    simp only [Res.pure_eq, Res.ok.injEq] at h
    exact .inl h.symm
  | some cur =>
    rw [hc] at h
    dsimp only at h
    have hk := Mack.key_ok m cur.chain
    unfold mackOf at hk
    rw [hk] at h
    simp only [Res.ok_bind] at h
    obtain ⟨nk, h1, h⟩ := Res.bind_eq_ok.1 h
    obtain ⟨ha, _, rfl⟩ := Key.fromBitslice_eq_ok h1
    dsimp only at h
    split at h
    · simp only [Res.pure_eq, Res.ok.injEq] at h; exact .inl h.symm
    · simp only [Res.pure_eq, Res.ok.injEq] at h; exact .inl h.symm
    · rename_i hlt
      obtain ⟨r, h2, h⟩ := Res.bind_eq_ok.1 h
      cases r with
      | error e =>
        simp only [Res.pure_eq, Res.ok.injEq] at h; exact .inl h.symm
      | ok k =>
        have := Key.validateKey_same h2
        subst this
        dsimp only at h
        obtain ⟨ks, h3, h4⟩ := Res.bind_eq_ok.1 h
        exact .inr ⟨cur, ks, rfl, ha, Gst.cmp_lt.1 hlt, h2, h3, h4⟩

theorem processNmaHeader_nav (d : OsnmaData C) (h : NmaHeader) (pkid : Nat) :
    (d.processNmaHeader h pkid).navmessage = d.navmessage ∧ (d.processNmaHeader h pkid).mack = d.mack ∧
      (d.processNmaHeader h pkid).onlySlowmac = d.onlySlowmac := by
  unfold processNmaHeader alertMessageReceived
  dsimp only
  cases h.nmaStatus <;> cases h.cpks <;> exact ⟨rfl, rfl, rfl⟩

theorem processDsm_nav {d d' : OsnmaData C} {x : Dsm} {h : NmaHeader} {g : Gst} (hp : d.processDsm x h g = .ok d') :
    d'.navmessage = d.navmessage ∧ d'.mack = d.mack ∧ d'.onlySlowmac = d.onlySlowmac := by
  unfold processDsm at hp
  split at hp
  · unfold processDsmKroot at hp
    obtain ⟨pkid, _, hp⟩ := Res.bind_eq_ok.1 hp
    obtain ⟨a, _, hp⟩ := Res.bind_eq_ok.1 hp
    cases a with
    | none => simp only [Res.pure_eq, Res.ok.injEq] at hp; subst hp; exact ⟨rfl, rfl, rfl⟩
    | some pk =>
      dsimp only at hp
      obtain ⟨r, _, hp⟩ := Res.bind_eq_ok.1 hp
      cases r with
      | error e => simp only [Res.pure_eq, Res.ok.injEq] at hp; subst hp; exact ⟨rfl, rfl, rfl⟩
      | ok kh =>
        obtain ⟨k, h'⟩ := kh
        dsimp only at hp
        obtain ⟨pk', _, hp⟩ := Res.bind_eq_ok.1 hp
        simp only [Res.pure_eq, Res.ok.injEq] at hp
        subst hp
        exact processNmaHeader_nav _ _ _
  · unfold processDsmPkr at hp
    obtain ⟨ty, _, hp⟩ := Res.bind_eq_ok.1 hp
    split at hp
    · unfold processDsmPkrNpk at hp
      split at hp
      · simp only [Res.pure_eq, Res.ok.injEq] at hp; subst hp; exact ⟨rfl, rfl, rfl⟩
      · obtain ⟨r, _, hp⟩ := Res.bind_eq_ok.1 hp
        split at hp
        · obtain ⟨pk', _, hp⟩ := Res.bind_eq_ok.1 hp
          simp only [Res.pure_eq, Res.ok.injEq] at hp; subst hp; exact ⟨rfl, rfl, rfl⟩
        · simp only [Res.pure_eq, Res.ok.injEq] at hp; subst hp; exact ⟨rfl, rfl, rfl⟩
    · unfold processDsmPkrAlert at hp
      split at hp
      · simp only [Res.pure_eq, Res.ok.injEq] at hp; subst hp; exact ⟨rfl, rfl, rfl⟩
      · obtain ⟨r, _, hp⟩ := Res.bind_eq_ok.1 hp
        split at hp
        · simp only [Res.pure_eq, Res.ok.injEq] at hp; subst hp; exact ⟨rfl, rfl, rfl⟩
        · simp only [Res.pure_eq, Res.ok.injEq] at hp; subst hp; exact ⟨rfl, rfl, rfl⟩
    · simp only [Res.pure_eq, Res.ok.injEq] at hp; subst hp; exact ⟨rfl, rfl, rfl⟩

end OsnmaData

namespace Osnma
variable {C : Crypto} {S : Storage}

/-- What a call of `feed_osnma` that completes a subframe does, step by step. -/
structure Completes (S : Storage) (o o' : Osnma C) (data : OsnmaDataMessage) (svn : Svn) (gst : Gst) where
  hk : HkrootMessage
  msg : MackMessage
  g : Gst
  sf : CollectSubframe
  b0 : Byte
  b1 : Byte
  ms : MackStorage
  dsm : CollectDsm
  block : DsmBlock
  out : Option Dsm
  d1 : OsnmaData C
  d2 : OsnmaData C
  hz : data.val.all (fun x => x == 0#8) = false
  hfeed : o.subframe.feed data svn gst = .ok (sf, some (hk, msg, g))
  hb0 : hk.val[0]? = some b0
  hb1 : hk.val[1]? = some b1
  hstore : o.data.data.mack.store S msg svn g (NmaHeader.mk b0).nmaStatus = .ok ms
  hblock : block.val = hk.val.drop 2
  hdsm : o.data.dsm.feed ⟨b1⟩ block = .ok (dsm, out)
  hd1 : (match out with
    | some x => ({ o.data.data with mack := ms } : OsnmaData C).processDsm x ⟨b0⟩ g
    | none => .ok { o.data.data with mack := ms }) = .ok d1
  hd2 : d1.validateKey S msg g = .ok d2
  ho : o' = ⟨sf, ⟨dsm, d2⟩⟩

theorem feedOsnma_of_ok {o o' : Osnma C} {data : OsnmaDataMessage} {svn : Svn} {gst : Gst}
    (h : o.feedOsnma S data svn gst = .ok o') :
    (data.val.all (fun x => x == 0#8) = true ∧ o' = o) ∨
    (data.val.all (fun x => x == 0#8) = false ∧
      ((∃ sf, o.subframe.feed data svn gst = .ok (sf, none) ∧ o' = { o with subframe := sf }) ∨
        Nonempty (Completes S o o' data svn gst))) := by
  unfold feedOsnma at h
  by_cases hz : data.val.all (fun x => x == 0#8) = true
  · rw [if_pos hz] at h
    simp only [Res.pure_eq, Res.ok.injEq] at h
    exact .inl ⟨hz, h.symm⟩
  · rw [if_neg hz] at h
    refine .inr ⟨by simpa using hz, ?_⟩
    obtain ⟨⟨sf, out⟩, h1, h⟩ := Res.bind_eq_ok.1 h
    cases out with
    | none =>
      simp only [Res.pure_eq, Res.ok.injEq] at h
      exact .inl ⟨sf, h1, h.symm⟩
    | some x =>
      obtain ⟨hk, m, g⟩ := x
      dsimp only at h
      obtain ⟨dd, h2, h⟩ := Res.bind_eq_ok.1 h
      simp only [Res.pure_eq, Res.ok.injEq] at h
      unfold OsnmaDsm.processSubframe at h2
      obtain ⟨b0, e0, h2⟩ := Res.bind_eq_ok.1 h2
      obtain ⟨ms, e1, h2⟩ := Res.bind_eq_ok.1 h2
      obtain ⟨b1, e2, h2⟩ := Res.bind_eq_ok.1 h2
      obtain ⟨blk, e3, h2⟩ := Res.bind_eq_ok.1 h2
      obtain ⟨⟨dsm, out⟩, e4, h2⟩ := Res.bind_eq_ok.1 h2
      dsimp only at h2
      have e3' : blk.val = hk.val.drop 2 := by
        unfold CollectSubframe.toBytes at e3
        split at e3
        · simp only [Res.ok.injEq] at e3; rw [← e3]
        · cases e3
      rw [index_eq_ok] at e0 e2
      cases out with
      | none =>
        obtain ⟨d1, e5, h2⟩ := Res.bind_eq_ok.1 h2
        obtain ⟨d2, e6, h2⟩ := Res.bind_eq_ok.1 h2
        simp only [Res.pure_eq, Res.ok.injEq] at h2
        exact .inr ⟨⟨hk, m, g, sf, b0, b1, ms, dsm, blk, none, d1, d2, by simpa using hz, h1, e0, e2, e1, e3', e4, e5, e6, by rw [← h, ← h2]⟩⟩
      | some x =>
        obtain ⟨d1, e5, h2⟩ := Res.bind_eq_ok.1 h2
        obtain ⟨d2, e6, h2⟩ := Res.bind_eq_ok.1 h2
        simp only [Res.pure_eq, Res.ok.injEq] at h2
        exact .inr ⟨⟨hk, m, g, sf, b0, b1, ms, dsm, blk, some x, d1, d2, by simpa using hz, h1, e0, e2, e1, e3', e4, e5, e6, by rw [← h, ← h2]⟩⟩

theorem Completes.d1_nav {o o' : Osnma C} {data : OsnmaDataMessage} {svn : Svn} {gst : Gst}
    (c : Completes S o o' data svn gst) :
    c.d1.navmessage = o.data.data.navmessage ∧ c.d1.mack = c.ms ∧ c.d1.onlySlowmac = o.data.data.onlySlowmac := by
  have h := c.hd1
  split at h
  · exact OsnmaData.processDsm_nav h
  · simp only [Res.ok.injEq] at h; rw [← h]; exact ⟨rfl, rfl, rfl⟩

end Osnma

/-! ## Runs -/

variable {C : Crypto} {S : Storage}

theorem run_nil (o : Osnma C) : run S o [] = .ok o := rfl

theorem run_snoc (o : Osnma C) (hist : List Call) (c : Call) :
    run S o (hist ++ [c]) = (match run S o hist with
      | .ok o' => c.run S o'
      | .panic w => .panic w) := by
  unfold run
  rw [loopM_append]
  cases loopM (fun o c => Call.run S o c) hist o with
  | panic w => rfl
  | ok o' =>
    dsimp only
    rw [loopM_cons]
    cases Call.run S o' c <;> rfl

theorem run_snoc_ok {o o' : Osnma C} {hist : List Call} {c : Call} :
    run S o (hist ++ [c]) = .ok o' ↔ ∃ o1, run S o hist = .ok o1 ∧ c.run S o1 = .ok o' := by
  rw [run_snoc]
  cases run S o hist <;> simp

/-- Induction over runs, at the end. -/
theorem run_induction {o0 : Osnma C} (P : List Call → Osnma C → Prop) (h0 : P [] o0)
    (hstep : ∀ hist o c o', run S o0 hist = .ok o → P hist o → c.run S o = .ok o' → P (hist ++ [c]) o')
    {hist : List Call} {o : Osnma C} (h : run S o0 hist = .ok o) : P hist o := by
  induction hist using CollectSubframe.snoc_induction generalizing o with
  | h0 => rw [run_nil] at h; cases h; exact h0
  | h1 hist c ih =>
    obtain ⟨o1, h1, h2⟩ := run_snoc_ok.1 h
    exact hstep hist o1 c o h1 (ih h1) h2

end Verif
