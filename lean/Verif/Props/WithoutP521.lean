import Verif.Spec.WithoutP521
import Verif.Spec.NavSpec
import Verif.Lemmas.Panic

/-! # C93: builds without P-521 -/

namespace Verif
variable {C : Crypto} {S : Storage}

theorem low_derive (k : Key) (n : Nat) : Key.derive C.without521 k n = Key.derive C k n := by
  induction n generalizing k with
  | zero => rfl
  | succ n ih =>
    unfold Key.derive
    rw [show Key.oneWayFunction C.without521 k = Key.oneWayFunction C k from rfl]
    cases Key.oneWayFunction C k with
    | ok k' => exact ih k'
    | panic w => rfl

theorem low_validateKey (a b : Key) : Key.validateKey C.without521 a b = Key.validateKey C a b := by
  unfold Key.validateKey
  simp only [low_derive]

/-- The same store of public keys in the other build. -/
def PubkeyStore.low (p : PubkeyStore C) : PubkeyStore C.without521 := ⟨p.current.map PublicKey.low, p.next.map PublicKey.low⟩

def OsnmaData.low (d : OsnmaData C) : OsnmaData C.without521 :=
  ⟨d.navmessage, d.mack, d.merkleTree, d.pubkey.low, d.key, d.onlySlowmac⟩

def OsnmaDsm.low (d : OsnmaDsm C) : OsnmaDsm C.without521 := ⟨d.dsm, d.data.low⟩

/-- The same receiver in the other build. -/
def Osnma.low (o : Osnma C) : Osnma C.without521 := ⟨o.subframe, o.data.low⟩

/-- The public keys in the store are P-256 keys. -/
def PubkeyStore.OnlyP256 (p : PubkeyStore C) : Prop := (∀ k, p.current = some k → k.IsP256) ∧ (∀ k, p.next = some k → k.IsP256)

theorem low_check (p : PubkeyStore C) : p.low.checkConsistency = p.checkConsistency := by
  obtain ⟨c, n⟩ := p
  cases c <;> cases n <;> rfl

theorem low_applicable (p : PubkeyStore C) (pkid : Nat) :
    p.low.applicable pkid = (p.applicable pkid) >>= (fun r => .ok (r.map PublicKey.low)) := by
  unfold PubkeyStore.applicable
  rw [low_check]
  cases p.checkConsistency with
  | panic w => rfl
  | ok u =>
    obtain ⟨c, n⟩ := p
    cases c with
    | none =>
      cases n with
      | none => rfl
      | some k' =>
        show (if k'.pkid = pkid then _ else _) = (if k'.pkid = pkid then _ else _) >>= _
        by_cases h : k'.pkid = pkid
        · rw [if_pos h, if_pos h]; rfl
        · rw [if_neg h, if_neg h]; rfl
    | some k =>
      show (if k.pkid = pkid then _ else _) = (if k.pkid = pkid then _ else _) >>= _
      by_cases h : k.pkid = pkid
      · rw [if_pos h, if_pos h]; rfl
      · rw [if_neg h, if_neg h]
        cases n with
        | none => rfl
        | some k' =>
          show (if k'.pkid = pkid then _ else _) = (if k'.pkid = pkid then _ else _) >>= _
          by_cases h : k'.pkid = pkid
          · rw [if_pos h, if_pos h]; rfl
          · rw [if_neg h, if_neg h]; rfl

theorem applicable_p256 {p : PubkeyStore C} (h : p.OnlyP256) {pkid : Nat} {k : PublicKey C} (hk : p.applicable pkid = .ok (some k)) : k.IsP256 := by
  obtain ⟨c, n⟩ := p
  unfold PubkeyStore.applicable at hk
  obtain ⟨_, _, hk⟩ := Res.bind_eq_ok.1 hk
  dsimp only at hk
  cases c with
  | none =>
    cases n with
    | none => cases hk
    | some k' =>
      dsimp only at hk
      split at hk
      · cases hk; exact h.2 _ rfl
      · cases hk
  | some k1 =>
    dsimp only at hk
    split at hk
    · cases hk; exact h.1 _ rfl
    · cases n with
      | none => cases hk
      | some k' =>
        dsimp only at hk
        split at hk
        · cases hk; exact h.2 _ rfl
        · cases hk

theorem low_makeCurrent {p p' : PubkeyStore C} {pkid : Nat} (h : p.makeCurrent pkid = .ok p') : p.low.makeCurrent pkid = .ok p'.low := by
  unfold PubkeyStore.makeCurrent at h ⊢
  obtain ⟨u, hu, h⟩ := Res.bind_eq_ok.1 h
  rw [low_check, hu]
  have e1 : p.low.current.map (·.pkid) = p.current.map (·.pkid) := by
    obtain ⟨c, n⟩ := p; cases c <;> rfl
  have e2 : p.low.next.map (·.pkid) = p.next.map (·.pkid) := by
    obtain ⟨c, n⟩ := p; cases n <;> rfl
  show (if _ then _ else _) = _
  rw [e1, e2]
  by_cases c1 : p.current.map (·.pkid) = some pkid
  · rw [if_pos c1] at h ⊢
    cases h; rfl
  · rw [if_neg c1] at h ⊢
    by_cases c2 : p.next.map (·.pkid) = some pkid
    · rw [if_pos c2] at h ⊢
      obtain ⟨cur, hc, h⟩ := Res.bind_eq_ok.1 h
      obtain ⟨u', ha, h⟩ := Res.bind_eq_ok.1 h
      cases h
      obtain ⟨c, n⟩ := p
      cases c with
      | none => cases hc
      | some c =>
        cases hc
        show Res.assert (decide (cur.pkid < pkid)) _ >>= _ = _
        rw [ha]
        rfl
    · rw [if_neg c2] at h
      cases h

theorem makeCurrent_p256 {p p' : PubkeyStore C} (hp : p.OnlyP256) {pkid : Nat} (h : p.makeCurrent pkid = .ok p') : p'.OnlyP256 := by
  unfold PubkeyStore.makeCurrent at h
  obtain ⟨u, hu, h⟩ := Res.bind_eq_ok.1 h
  split at h
  · cases h; exact hp
  · split at h
    · obtain ⟨cur, hc, h⟩ := Res.bind_eq_ok.1 h
      obtain ⟨u', ha, h⟩ := Res.bind_eq_ok.1 h
      cases h
      exact ⟨hp.2, fun k hk => by cases hk⟩
    · cases h

theorem low_storeNew {p p' : PubkeyStore C} {k : PublicKey C} (h : p.storeNew k = .ok p') : p.low.storeNew k.low = .ok p'.low := by
  unfold PubkeyStore.storeNew at h ⊢
  obtain ⟨u, hu, h⟩ := Res.bind_eq_ok.1 h
  rw [low_check, hu]
  obtain ⟨c, n⟩ := p
  cases c with
  | none => cases h; rfl
  | some c =>
    dsimp only at h
    show (if k.pkid < c.pkid then _ else if k.pkid = c.pkid then _ else _) = _
    by_cases c1 : k.pkid < c.pkid
    · rw [if_pos c1] at h ⊢
      cases h; rfl
    · rw [if_neg c1] at h ⊢
      by_cases c2 : k.pkid = c.pkid
      · rw [if_pos c2] at h ⊢
        cases h; rfl
      · rw [if_neg c2] at h ⊢
        cases n with
        | none => cases h; rfl
        | some n =>
          dsimp only at h
          show (if k.pkid > n.pkid then _ else _) = _
          by_cases c3 : k.pkid > n.pkid
          · rw [if_pos c3] at h ⊢
            cases h; rfl
          · rw [if_neg c3] at h ⊢
            cases h; rfl

theorem storeNew_p256 {p p' : PubkeyStore C} (hp : p.OnlyP256) {k : PublicKey C} (hk : k.IsP256) (h : p.storeNew k = .ok p') : p'.OnlyP256 := by
  unfold PubkeyStore.storeNew at h
  obtain ⟨u, hu, h⟩ := Res.bind_eq_ok.1 h
  obtain ⟨c, n⟩ := p
  have hn : ∀ x, some k = some x → x.IsP256 := fun x hx => by cases hx; exact hk
  cases c with
  | none => cases h; exact ⟨hn, hp.2⟩
  | some c =>
    dsimp only at h
    split at h
    · cases h; exact hp
    · split at h
      · cases h; exact hp
      · cases n with
        | none => cases h; exact ⟨hp.1, hn⟩
        | some n =>
          dsimp only at h
          split at h
          · cases h; exact ⟨hp.1, hn⟩
          · cases h; exact hp

theorem low_revoke (p : PubkeyStore C) (n : Nat) : p.low.revoke n = (p.revoke n).low := by
  obtain ⟨c, m⟩ := p
  have e1 : (c.map PublicKey.low).any (fun k => decide (k.pkid < n)) = c.any (fun k => decide (k.pkid < n)) := by cases c <;> rfl
  have e2 : (m.map PublicKey.low).any (fun k => decide (k.pkid < n)) = m.any (fun k => decide (k.pkid < n)) := by cases m <;> rfl
  unfold PubkeyStore.revoke PubkeyStore.low
  dsimp only
  rw [e1]
  cases c.any (fun k => decide (k.pkid < n)) <;> simp only [Bool.false_eq_true, if_false, if_true, e2] <;>
    cases m.any (fun k => decide (k.pkid < n)) <;> rfl

theorem revoke_p256 {p : PubkeyStore C} (hp : p.OnlyP256) (n : Nat) : (p.revoke n).OnlyP256 := by
  obtain ⟨c, m⟩ := p
  have h0 : ∀ k : PublicKey C, (none : Option (PublicKey C)) = some k → k.IsP256 := fun k hk => by cases hk
  unfold PubkeyStore.revoke
  dsimp only
  split <;> split <;> first | exact hp | exact ⟨h0, hp.2⟩

theorem low_header (d : OsnmaData C) (h : NmaHeader) (pkid : Nat) : d.low.processNmaHeader h pkid = (d.processNmaHeader h pkid).low := by
  unfold OsnmaData.processNmaHeader
  cases h.nmaStatus <;> cases h.cpks <;> try rfl
  dsimp only
  show ({ d.low with pubkey := d.pubkey.low.revoke pkid, key := _ } : OsnmaData C.without521) = _
  rw [low_revoke]
  rfl

theorem header_p256 {d : OsnmaData C} (hp : d.pubkey.OnlyP256) (h : NmaHeader) (pkid : Nat) : (d.processNmaHeader h pkid).pubkey.OnlyP256 := by
  have h0 : ∀ k : PublicKey C, (none : Option (PublicKey C)) = some k → k.IsP256 := fun k hk => by cases hk
  unfold OsnmaData.processNmaHeader
  cases h.nmaStatus <;> cases h.cpks <;> first | exact hp | exact ⟨h0, h0⟩ | exact revoke_p256 hp _

/-- A DSM-KROOT is checked alike with a P-256 key. -/
theorem low_fromDsmKroot {pk : PublicKey C} (hp : pk.IsP256) (h : NmaHeader) (d : DsmKroot) :
    Key.fromDsmKroot C.without521 h d pk.low = Key.fromDsmKroot C h d pk := by
  obtain ⟨vk, id⟩ := pk
  obtain ⟨v, hv⟩ := hp
  dsimp only at hv
  subst hv
  unfold Key.fromDsmKroot
  rw [show DsmKroot.checkPadding C.without521 = DsmKroot.checkPadding C from rfl]
  congr 1
  funext c
  cases c with
  | error e => rfl
  | ok chain =>
    dsimp only
    congr 1
    funext b
    cases b with
    | false => rfl
    | true =>
      simp only [Bool.not_true, Bool.false_eq_true, if_false]
      congr 1
      funext f
      cases f <;> rfl

theorem low_kroot {d d' : OsnmaData C} (hp : d.pubkey.OnlyP256) {k : DsmKroot} {h : NmaHeader} {g : Gst} (hr : d.processDsmKroot k h g = .ok d') :
    d.low.processDsmKroot k h g = .ok d'.low ∧ d'.pubkey.OnlyP256 ∧ d.low.krootEvents k h g = (d.krootEvents k h g).map KeyEvent.low := by
  unfold OsnmaData.processDsmKroot at hr ⊢
  unfold OsnmaData.krootEvents
  obtain ⟨pkid, e1, hr⟩ := Res.bind_eq_ok.1 hr
  obtain ⟨ap, e2, hr⟩ := Res.bind_eq_ok.1 hr
  have e2' : d.low.pubkey.applicable pkid = .ok (ap.map PublicKey.low) := by
    show d.pubkey.low.applicable pkid = _
    rw [low_applicable, e2]
    rfl
  rw [e1]
  simp only [Res.ok_bind]
  rw [e2, e2']
  simp only [Res.ok_bind]
  cases ap with
  | none => cases hr; exact ⟨rfl, hp, rfl⟩
  | some pk =>
    dsimp only [Option.map] at hr ⊢
    rw [low_fromDsmKroot (applicable_p256 hp e2)]
    obtain ⟨r, e3, hr⟩ := Res.bind_eq_ok.1 hr
    rw [e3]
    simp only [Res.ok_bind]
    cases r with
    | error e => cases hr; exact ⟨rfl, hp, rfl⟩
    | ok kh =>
      obtain ⟨key, h'⟩ := kh
      dsimp only at hr ⊢
      obtain ⟨pk', e4, hr⟩ := Res.bind_eq_ok.1 hr
      cases hr
      have e4' : d.low.pubkey.makeCurrent pkid = .ok pk'.low := low_makeCurrent e4
      rw [e4']
      simp only [Res.ok_bind]
      refine ⟨?_, header_p256 (d := { d with pubkey := pk', key := d.key.storeKroot key h' g }) (makeCurrent_p256 hp e4) _ _, rfl⟩
      exact congrArg Res.ok (low_header { d with pubkey := pk', key := d.key.storeKroot key h' g } h' pkid)

/-- A public key from a DSM-PKR, if it is a P-256 one or none at all, is the same. -/
theorem low_validatePkr {root : MerkleTreeNode} {p : DsmPkr} {r : Except PkrError (PublicKey C)} (h : Merkle.validatePkr C root p = .ok r)
    (hp : ∀ k, r = .ok k → k.IsP256) :
    Merkle.validatePkr C.without521 root p = .ok (r.map PublicKey.low) := by
  unfold Merkle.validatePkr at h ⊢
  obtain ⟨t, e1, h⟩ := Res.bind_eq_ok.1 h
  rw [e1]
  simp only [Res.ok_bind]
  cases t with
  | OsnmaAlertMessage => cases h; rfl
  | Reserved => cases h; rfl
  | EcdsaKey f =>
    dsimp only at h ⊢
    rw [show Merkle.validate C.without521 = Merkle.validate C from rfl]
    obtain ⟨v, e2, h⟩ := Res.bind_eq_ok.1 h
    rw [e2]
    simp only [Res.ok_bind]
    cases v with
    | error e => cases h; rfl
    | ok u =>
      dsimp only at h ⊢
      unfold Merkle.pubkeyFromPkr at h ⊢
      obtain ⟨nk, e3, h⟩ := Res.bind_eq_ok.1 h
      rw [e3]
      simp only [Res.ok_bind]
      obtain ⟨key, e4, h⟩ := Res.bind_eq_ok.1 h
      rw [e4]
      simp only [Res.ok_bind]
      rw [e1] at h ⊢
      simp only [Res.ok_bind] at h ⊢
      cases f with
      | P256Sha256 =>
        dsimp only at h ⊢
        obtain ⟨k, e5, h⟩ := Res.bind_eq_ok.1 h
        have e5' : Res.unwrap (C.without521.p256FromSec1 key) "from_sec1_bytes(key).unwrap()" = .ok k := e5
        obtain ⟨pkid, e6, h⟩ := Res.bind_eq_ok.1 h
        cases h
        rw [e5']
        show (p.newPublicKeyId >>= fun pkid => _) = _
        rw [e6]
        rfl
      | P521Sha512 =>
        dsimp only at h ⊢
        split at h
        · obtain ⟨k, e5, h⟩ := Res.bind_eq_ok.1 h
          obtain ⟨pkid, e6, h⟩ := Res.bind_eq_ok.1 h
          cases h
          obtain ⟨v, hv⟩ := hp _ rfl
          cases hv
        · cases h; rfl

theorem low_pkr {d d' : OsnmaData C} (hp : d.pubkey.OnlyP256) {p : DsmPkr} (hr : d.processDsmPkr p = .ok d')
    (hk : ∀ data pk, KeyEvent.pkr data pk ∈ d.pkrEvents p → pk.IsP256) :
    d.low.processDsmPkr p = .ok d'.low ∧ d'.pubkey.OnlyP256 ∧ d.low.pkrEvents p = (d.pkrEvents p).map KeyEvent.low := by
  have h0 : ∀ k : PublicKey C, (none : Option (PublicKey C)) = some k → k.IsP256 := fun k hk => by cases hk
  unfold OsnmaData.processDsmPkr at hr ⊢
  unfold OsnmaData.pkrEvents at hk ⊢
  obtain ⟨t, e1, hr⟩ := Res.bind_eq_ok.1 hr
  rw [e1] at hk ⊢
  simp only [Res.ok_bind]
  obtain ⟨nav, mack, mt, pubkey, key, slow⟩ := d
  cases t with
  | Reserved => cases hr; exact ⟨rfl, hp, rfl⟩
  | EcdsaKey f =>
    dsimp only at hr hk ⊢
    unfold OsnmaData.processDsmPkrNpk at hr ⊢
    cases mt with
    | none => cases hr; exact ⟨rfl, hp, rfl⟩
    | some root =>
      dsimp only [OsnmaData.low] at hr hk ⊢
      obtain ⟨r, e2, hr⟩ := Res.bind_eq_ok.1 hr
      rw [e2] at hk ⊢
      have hk' : ∀ k, r = .ok k → k.IsP256 := by
        intro k hk'
        subst hk'
        exact hk p.data k (by simp)
      rw [low_validatePkr e2 hk']
      cases r with
      | error e => cases hr; exact ⟨rfl, hp, rfl⟩
      | ok k =>
        dsimp only at hr ⊢
        obtain ⟨pk', e3, hr⟩ := Res.bind_eq_ok.1 hr
        cases hr
        rw [show Except.map PublicKey.low (Except.ok k : Except PkrError (PublicKey C)) = .ok k.low from rfl]
        simp only [Res.ok_bind]
        rw [low_storeNew e3]
        exact ⟨rfl, storeNew_p256 hp (hk' k rfl) e3, rfl⟩
  | OsnmaAlertMessage =>
    dsimp only at hr hk ⊢
    unfold OsnmaData.processDsmPkrAlert at hr ⊢
    cases mt with
    | none => cases hr; exact ⟨rfl, hp, rfl⟩
    | some root =>
      dsimp only [OsnmaData.low] at hr hk ⊢
      rw [show Merkle.validateAlertMessage C.without521 = Merkle.validateAlertMessage C from rfl]
      obtain ⟨r, e2, hr⟩ := Res.bind_eq_ok.1 hr
      rw [e2]
      simp only [Res.ok_bind]
      cases r with
      | error e => cases hr; exact ⟨rfl, hp, rfl⟩
      | ok u => cases hr; exact ⟨rfl, ⟨h0, h0⟩, rfl⟩

theorem low_dsm {d d' : OsnmaData C} (hp : d.pubkey.OnlyP256) {x : Dsm} {h : NmaHeader} {g : Gst} (hr : d.processDsm x h g = .ok d')
    (hk : ∀ data pk, KeyEvent.pkr data pk ∈ d.dsmEvents x h g → pk.IsP256) :
    d.low.processDsm x h g = .ok d'.low ∧ d'.pubkey.OnlyP256 ∧ d.low.dsmEvents x h g = (d.dsmEvents x h g).map KeyEvent.low := by
  unfold OsnmaData.processDsm at hr ⊢
  unfold OsnmaData.dsmEvents at hk ⊢
  cases hx : x.dsmType with
  | Kroot => rw [hx] at hr; exact low_kroot hp hr
  | Pkr => rw [hx] at hr hk; exact low_pkr hp hr hk

theorem low_fast {d d' : OsnmaData C} {k : Key} {g : Gst} {v : Svn} (h : d.processFast S k g v = .ok d') :
    d.low.processFast S k g v = .ok d'.low ∧ d'.pubkey = d.pubkey := by
  unfold OsnmaData.processFast at h ⊢
  show (if d.onlySlowmac = true then _ else _) = _ ∧ _
  by_cases hs : d.onlySlowmac = true
  · rw [if_pos hs] at h ⊢
    cases h; exact ⟨rfl, rfl⟩
  · rw [if_neg hs] at h ⊢
    obtain ⟨m, e1, h⟩ := Res.bind_eq_ok.1 h
    have e1' : d.low.mack.get S v g = .ok m := e1
    rw [e1']
    simp only [Res.ok_bind]
    cases m with
    | none => cases h; exact ⟨rfl, rfl⟩
    | some ms =>
      obtain ⟨m, st⟩ := ms
      dsimp only at h ⊢
      rw [show @OsnmaData.validateMack C.without521 = @OsnmaData.validateMack C from rfl]
      obtain ⟨vm, e2, h⟩ := Res.bind_eq_ok.1 h
      rw [e2]
      simp only [Res.ok_bind]
      cases vm with
      | none => cases h; exact ⟨rfl, rfl⟩
      | some mk =>
        dsimp only at h ⊢
        obtain ⟨nav, e3, h⟩ := Res.bind_eq_ok.1 h
        cases h
        have e3' : d.low.navmessage.processMack S C.without521 mk k v g st = .ok nav := e3
        rw [e3']
        exact ⟨rfl, rfl⟩

theorem low_slow {d d' : OsnmaData C} {k : Key} {sk : Option Key} {g : Gst} {v : Svn} (h : d.processSlow S k sk g v = .ok d') :
    d.low.processSlow S k sk g v = .ok d'.low ∧ d'.pubkey = d.pubkey := by
  unfold OsnmaData.processSlow at h ⊢
  cases sk with
  | none => cases h; exact ⟨rfl, rfl⟩
  | some sk =>
    dsimp only at h ⊢
    obtain ⟨m, e1, h⟩ := Res.bind_eq_ok.1 h
    have e1' : d.low.mack.get S v g = .ok m := e1
    rw [e1']
    simp only [Res.ok_bind]
    cases m with
    | none => cases h; exact ⟨rfl, rfl⟩
    | some ms =>
      obtain ⟨m, st⟩ := ms
      dsimp only at h ⊢
      rw [show @OsnmaData.validateMack C.without521 = @OsnmaData.validateMack C from rfl]
      obtain ⟨vm, e2, h⟩ := Res.bind_eq_ok.1 h
      rw [e2]
      simp only [Res.ok_bind]
      cases vm with
      | none => cases h; exact ⟨rfl, rfl⟩
      | some mk =>
        dsimp only at h ⊢
        obtain ⟨nav, e3, h⟩ := Res.bind_eq_ok.1 h
        cases h
        have e3' : d.low.navmessage.processMackSlowmac S C.without521 mk k v g st = .ok nav := e3
        rw [e3']
        exact ⟨rfl, rfl⟩

theorem low_slowmacKey (d : OsnmaData C) (k : Key) : d.low.slowmacKey k = d.slowmacKey k := by
  unfold OsnmaData.slowmacKey
  simp only [low_derive]
  rfl

theorem low_tagLoop {k : Key} {sk : Option Key} {g1 g2 : Gst} : ∀ (l : List Svn) {d d' : OsnmaData C},
    loopM (fun d svn => do
      let d ← OsnmaData.processFast S d k g1 svn
      OsnmaData.processSlow S d k sk g2 svn) l d = .ok d' →
    loopM (fun d svn => do
      let d ← OsnmaData.processFast S d k g1 svn
      OsnmaData.processSlow S d k sk g2 svn) l d.low = .ok d'.low ∧ d'.pubkey = d.pubkey
  | [], d, d', h => by
    simp only [loopM] at h ⊢
    cases h; exact ⟨rfl, rfl⟩
  | v :: l, d, d', h => by
    simp only [loopM] at h ⊢
    obtain ⟨d2, h2, h⟩ := Res.bind_eq_ok.1 h
    obtain ⟨d1, h1, h2⟩ := Res.bind_eq_ok.1 h2
    obtain ⟨a1, a2⟩ := low_fast h1
    obtain ⟨b1, b2⟩ := low_slow h2
    obtain ⟨c1, c2⟩ := low_tagLoop l h
    rw [a1]
    simp only [Res.ok_bind]
    rw [b1]
    simp only
    exact ⟨c1, by rw [c2, b2, a2]⟩

theorem low_tags {d d' : OsnmaData C} {k : Key} (h : d.processTags S k = .ok d') :
    d.low.processTags S k = .ok d'.low ∧ d'.pubkey = d.pubkey := by
  unfold OsnmaData.processTags at h ⊢
  obtain ⟨g1, e1, h⟩ := Res.bind_eq_ok.1 h
  obtain ⟨g2, e2, h⟩ := Res.bind_eq_ok.1 h
  obtain ⟨sk, e3, h⟩ := Res.bind_eq_ok.1 h
  rw [e1]
  simp only [Res.ok_bind]
  rw [e2]
  simp only [Res.ok_bind]
  rw [low_slowmacKey, e3]
  simp only [Res.ok_bind]
  exact low_tagLoop _ h

theorem low_key {d d' : OsnmaData C} {m : MackMessage} {g : Gst} (h : d.validateKey S m g = .ok d') :
    d.low.validateKey S m g = .ok d'.low ∧ d'.pubkey = d.pubkey ∧ d.low.teslaEvents m g = (d.teslaEvents m g).map KeyEvent.low := by
  have hev : d.low.teslaEvents m g = (d.teslaEvents m g).map KeyEvent.low := by
    unfold OsnmaData.teslaEvents
    have e : d.low.key = d.key := rfl
    simp only [e, low_validateKey]
    cases d.key.currentKey with
    | none => rfl
    | some cur =>
      dsimp only
      split
      · rfl
      · split
        · split
          · rfl
          · rfl
        · rfl
  refine ⟨?_, ?_, hev⟩
  · unfold OsnmaData.validateKey at h ⊢
    have e : d.low.key = d.key := rfl
    rw [e]
    cases hc : d.key.currentKey with
    | none => rw [hc] at h; cases h; rfl
    | some cur =>
      rw [hc] at h
      dsimp only at h ⊢
      obtain ⟨kb, e1, h⟩ := Res.bind_eq_ok.1 h
      rw [e1]
      simp only [Res.ok_bind]
      obtain ⟨nk, e2, h⟩ := Res.bind_eq_ok.1 h
      rw [e2]
      simp only [Res.ok_bind]
      cases hg : Gst.cmp cur.gst nk.gst with
      | eq => rw [hg] at h; cases h; rfl
      | gt => rw [hg] at h; cases h; rfl
      | lt =>
        rw [hg] at h
        dsimp only at h ⊢
        rw [low_validateKey]
        obtain ⟨r, e3, h⟩ := Res.bind_eq_ok.1 h
        rw [e3]
        simp only [Res.ok_bind]
        cases r with
        | error e => cases h; rfl
        | ok valid =>
          dsimp only at h ⊢
          obtain ⟨ks, e4, h⟩ := Res.bind_eq_ok.1 h
          rw [e4]
          simp only [Res.ok_bind]
          exact (low_tags h).1
  · unfold OsnmaData.validateKey at h
    split at h
    · cases h; rfl
    · obtain ⟨kb, e1, h⟩ := Res.bind_eq_ok.1 h
      obtain ⟨nk, e2, h⟩ := Res.bind_eq_ok.1 h
      split at h
      · cases h; rfl
      · cases h; rfl
      · obtain ⟨r, e3, h⟩ := Res.bind_eq_ok.1 h
        split at h
        · obtain ⟨ks, e4, h⟩ := Res.bind_eq_ok.1 h
          exact (low_tags h).2
        · cases h; rfl

theorem low_subframe {o o' : OsnmaDsm C} (hp : o.data.pubkey.OnlyP256) {hk : HkrootMessage} {m : MackMessage} {v : Svn} {g : Gst}
    (hr : o.processSubframe S hk m v g = .ok o') (hev : ∀ data pk, KeyEvent.pkr data pk ∈ o.events S hk m v g → pk.IsP256) :
    o.low.processSubframe S hk m v g = .ok o'.low ∧ o'.data.pubkey.OnlyP256 ∧
      o.low.events S hk m v g = (o.events S hk m v g).map KeyEvent.low := by
  unfold OsnmaDsm.processSubframe at hr ⊢
  unfold OsnmaDsm.events at hev ⊢
  obtain ⟨b0, e1, hr⟩ := Res.bind_eq_ok.1 hr
  obtain ⟨ms, e2, hr⟩ := Res.bind_eq_ok.1 hr
  obtain ⟨b1, e3, hr⟩ := Res.bind_eq_ok.1 hr
  obtain ⟨block, e4, hr⟩ := Res.bind_eq_ok.1 hr
  obtain ⟨⟨dsm, out⟩, e5, hr⟩ := Res.bind_eq_ok.1 hr
  have e2' : o.low.data.mack.store S m v g (NmaHeader.mk b0).nmaStatus = .ok ms := e2
  have e5' : o.low.dsm.feed ⟨b1⟩ block = .ok (dsm, out) := e5
  simp only [e1, e2, e3, e4, e5, Res.ok_bind, Res.pure_eq] at hev
  simp only [e1, e2, e2', e3, e4, e5, e5', Res.ok_bind, Res.pure_eq]
  cases out with
  | none =>
    dsimp only at hr hev ⊢
    simp only [Res.ok_bind, Res.pure_eq] at hr
    obtain ⟨d2, e7, hr⟩ := Res.bind_eq_ok.1 hr
    cases hr
    obtain ⟨k1, k2, k3⟩ := low_key e7
    have k1' : ({ o.low.data with mack := ms } : OsnmaData C.without521).validateKey S m g = .ok d2.low := k1
    dsimp only
    rw [k1']
    exact ⟨rfl, by rw [k2]; exact hp, k3⟩
  | some x =>
    dsimp only at hr hev ⊢
    obtain ⟨dd, e6, hr⟩ := Res.bind_eq_ok.1 hr
    obtain ⟨d2, e7, hr⟩ := Res.bind_eq_ok.1 hr
    cases hr
    obtain ⟨j1, j2, j3⟩ := low_dsm (d := { o.data with mack := ms }) hp e6 (fun data pk h => hev data pk (List.mem_append_left _ h))
    have j1' : ({ o.low.data with mack := ms } : OsnmaData C.without521).processDsm x ⟨b0⟩ g = .ok dd.low := j1
    have j3' : ({ o.low.data with mack := ms } : OsnmaData C.without521).dsmEvents x ⟨b0⟩ g =
      (({ o.data with mack := ms } : OsnmaData C).dsmEvents x ⟨b0⟩ g).map KeyEvent.low := j3
    obtain ⟨k1, k2, k3⟩ := low_key e7
    rw [j1', j3', e6]
    simp only [Res.ok_bind]
    rw [k1]
    refine ⟨rfl, by rw [k2]; exact j2, ?_⟩
    rw [List.map_append, k3]

theorem low_call {o o' : Osnma C} (hp : o.data.data.pubkey.OnlyP256) {c : Call} (hr : c.run S o = .ok o')
    (hev : ∀ data pk, KeyEvent.pkr data pk ∈ o.events S c → pk.IsP256) :
    c.run S o.low = .ok o'.low ∧ o'.data.data.pubkey.OnlyP256 ∧ o.low.events S c = (o.events S c).map KeyEvent.low := by
  cases c with
  | inav w v g b =>
    have hr : o.feedInav S w v g b = .ok o' := hr
    show o.low.feedInav S w v g b = .ok o'.low ∧ _
    unfold Osnma.feedInav at hr ⊢
    obtain ⟨nav, e, hr⟩ := Res.bind_eq_ok.1 hr
    cases hr
    have e' : o.low.data.data.navmessage.feed S w v g b = .ok nav := e
    rw [e']
    exact ⟨rfl, hp, rfl⟩
  | osnma data v g =>
    have hr : o.feedOsnma S data v g = .ok o' := hr
    show o.low.feedOsnma S data v g = .ok o'.low ∧ _
    unfold Osnma.feedOsnma at hr ⊢
    unfold Osnma.events at hev ⊢
    dsimp only at hev ⊢
    by_cases hz : data.val.all (fun x => x == 0#8) = true
    · rw [if_pos hz] at hr
      rw [if_pos hz, if_pos hz, if_pos hz]
      cases hr
      exact ⟨rfl, hp, rfl⟩
    · rw [if_neg hz] at hr hev
      rw [if_neg hz, if_neg hz, if_neg hz]
      obtain ⟨⟨sf, out⟩, e, hr⟩ := Res.bind_eq_ok.1 hr
      have e' : o.low.subframe.feed data v g = .ok (sf, out) := e
      rw [e] at hev ⊢
      rw [e']
      simp only [Res.ok_bind]
      cases out with
      | none => cases hr; exact ⟨rfl, hp, rfl⟩
      | some x =>
        obtain ⟨hk, m, g'⟩ := x
        dsimp only at hr hev ⊢
        obtain ⟨dd, e2, hr⟩ := Res.bind_eq_ok.1 hr
        cases hr
        obtain ⟨k1, k2, k3⟩ := low_subframe hp e2 hev
        have k1' : o.low.data.processSubframe S hk m v g' = .ok dd.low := k1
        rw [k1']
        exact ⟨rfl, k2, k3⟩

variable {root0 : Option MerkleTreeNode} {pk0 : Option (PublicKey C)} {slow : Bool} {hist : List Call} {log : List (KeyEvent C)} {o : Osnma C}

theorem low_new : (Osnma.new S root0 pk0 slow : Osnma C).low = Osnma.new S root0 (pk0.map PublicKey.low) slow := by
  cases pk0 <;> rfl

theorem low_logs (hpk : ∀ pk, pk0 = some pk → pk.IsP256) (h : Logs S (Osnma.new S root0 pk0 slow) hist log o)
    (hk : ∀ data pk, KeyEvent.pkr data pk ∈ log → pk.IsP256) :
    Logs S (Osnma.new S root0 (pk0.map PublicKey.low) slow : Osnma C.without521) hist (log.map KeyEvent.low) o.low ∧
      o.data.data.pubkey.OnlyP256 := by
  induction h with
  | nil =>
    refine ⟨by rw [low_new]; exact .nil, ?_⟩
    have h0 : ∀ k : PublicKey C, (none : Option (PublicKey C)) = some k → k.IsP256 := fun k hk => by cases hk
    cases pk0 with
    | none => exact ⟨h0, h0⟩
    | some pk => exact ⟨hpk, h0⟩
  | snoc c h hc ih =>
    obtain ⟨i1, i2⟩ := ih (fun data pk hm => hk data pk (List.mem_append_left _ hm))
    obtain ⟨c1, c2, c3⟩ := low_call i2 hc (fun data pk hm => hk data pk (List.mem_append_right _ hm))
    refine ⟨?_, c2⟩
    rw [List.map_append, ← c3]
    exact .snoc c i1 c1

/-- **C93** A build without the feature `p521` behaves like one with it, as long as the public key given is a P-256 key and no P-521 key is
accepted from the signal: it does not panic if the other one does not, it accepts the same keys and gives the same data. -/
theorem C93_same_as_with_p521 (hpk : ∀ pk, pk0 = some pk → pk.IsP256) (h : Logs S (Osnma.new S root0 pk0 slow) hist log o)
    (hk : ∀ data pk, KeyEvent.pkr data pk ∈ log → pk.IsP256) :
    ∃ o' : Osnma C.without521, Logs S (Osnma.new S root0 (pk0.map PublicKey.low) slow) hist (log.map KeyEvent.low) o' ∧
      ∀ kd v, o'.get S kd v = o.get S kd v := by
  refine ⟨o.low, (low_logs hpk h hk).1, fun kd v => ?_⟩
  cases kd <;> rfl

end Verif
