import Verif.Model.Log
import Verif.Spec.NavSpec
import Verif.Lemmas.Panic

/-! # C94: the root of the Merkle tree matters only when a DSM-PKR is verified -/

namespace Verif
variable {C : Crypto} {S : Storage}

/-- The same state without the root of the Merkle tree. -/
def OsnmaData.bare (d : OsnmaData C) : OsnmaData C := { d with merkleTree := none }
def OsnmaDsm.bare (d : OsnmaDsm C) : OsnmaDsm C := { d with data := d.data.bare }
def Osnma.bare (o : Osnma C) : Osnma C := { o with data := o.data.bare }

/-- The message says that something was verified with the root of the Merkle tree. -/
def KeyEvent.OfMerkle : KeyEvent C → Prop
  | .pkr .. => True
  | .alert _ => True
  | _ => False

theorem bare_header (d : OsnmaData C) (h : NmaHeader) (pkid : Nat) : d.bare.processNmaHeader h pkid = (d.processNmaHeader h pkid).bare := by
  unfold OsnmaData.processNmaHeader
  cases h.nmaStatus <;> cases h.cpks <;> rfl

theorem bare_kroot {d d' : OsnmaData C} {k : DsmKroot} {h : NmaHeader} {g : Gst} (hr : d.processDsmKroot k h g = .ok d') :
    d.bare.processDsmKroot k h g = .ok d'.bare ∧ d.bare.krootEvents k h g = d.krootEvents k h g := by
  refine ⟨?_, rfl⟩
  unfold OsnmaData.processDsmKroot at hr ⊢
  obtain ⟨pkid, e1, hr⟩ := Res.bind_eq_ok.1 hr
  obtain ⟨ap, e2, hr⟩ := Res.bind_eq_ok.1 hr
  have e2' : d.bare.pubkey.applicable pkid = .ok ap := e2
  rw [e1]
  simp only [Res.ok_bind]
  rw [e2']
  simp only [Res.ok_bind]
  cases ap with
  | none => cases hr; rfl
  | some pk =>
    dsimp only at hr ⊢
    obtain ⟨r, e3, hr⟩ := Res.bind_eq_ok.1 hr
    rw [e3]
    simp only [Res.ok_bind]
    cases r with
    | error e => cases hr; rfl
    | ok kh =>
      obtain ⟨key, h'⟩ := kh
      dsimp only at hr ⊢
      obtain ⟨pk', e4, hr⟩ := Res.bind_eq_ok.1 hr
      cases hr
      have e4' : d.bare.pubkey.makeCurrent pkid = .ok pk' := e4
      rw [e4']
      simp only [Res.ok_bind]
      exact congrArg Res.ok (bare_header { d with pubkey := pk', key := d.key.storeKroot key h' g } h' pkid)

theorem bare_pkr {d d' : OsnmaData C} {p : DsmPkr} (hr : d.processDsmPkr p = .ok d') (hk : ∀ e ∈ d.pkrEvents p, ¬ e.OfMerkle) :
    d.bare.processDsmPkr p = .ok d'.bare ∧ d.bare.pkrEvents p = d.pkrEvents p := by
  unfold OsnmaData.processDsmPkr at hr ⊢
  unfold OsnmaData.pkrEvents at hk ⊢
  obtain ⟨t, e1, hr⟩ := Res.bind_eq_ok.1 hr
  rw [e1] at hk ⊢
  simp only [Res.ok_bind]
  obtain ⟨nav, mack, mt, pubkey, key, slow⟩ := d
  cases t with
  | Reserved => cases hr; exact ⟨rfl, rfl⟩
  | EcdsaKey f =>
    dsimp only at hr hk ⊢
    unfold OsnmaData.processDsmPkrNpk at hr ⊢
    cases mt with
    | none => cases hr; exact ⟨rfl, rfl⟩
    | some root =>
      dsimp only [OsnmaData.bare] at hr hk ⊢
      obtain ⟨r, e2, hr⟩ := Res.bind_eq_ok.1 hr
      rw [e2] at hk ⊢
      cases r with
      | error e => cases hr; exact ⟨rfl, rfl⟩
      | ok k => exact absurd trivial (hk (.pkr p.data k) (by simp))
  | OsnmaAlertMessage =>
    dsimp only at hr hk ⊢
    unfold OsnmaData.processDsmPkrAlert at hr ⊢
    cases mt with
    | none => cases hr; exact ⟨rfl, rfl⟩
    | some root =>
      dsimp only [OsnmaData.bare] at hr hk ⊢
      obtain ⟨r, e2, hr⟩ := Res.bind_eq_ok.1 hr
      rw [e2] at hk ⊢
      cases r with
      | error e => cases hr; exact ⟨rfl, rfl⟩
      | ok u => exact absurd trivial (hk (.alert p.data) (by simp))

theorem bare_dsm {d d' : OsnmaData C} {x : Dsm} {h : NmaHeader} {g : Gst} (hr : d.processDsm x h g = .ok d')
    (hk : ∀ e ∈ d.dsmEvents x h g, ¬ e.OfMerkle) :
    d.bare.processDsm x h g = .ok d'.bare ∧ d.bare.dsmEvents x h g = d.dsmEvents x h g := by
  unfold OsnmaData.processDsm at hr ⊢
  unfold OsnmaData.dsmEvents at hk ⊢
  cases hx : x.dsmType with
  | Kroot => rw [hx] at hr; exact bare_kroot hr
  | Pkr => rw [hx] at hr hk; exact bare_pkr hr hk

theorem bare_fast {d d' : OsnmaData C} {k : Key} {g : Gst} {v : Svn} (h : d.processFast S k g v = .ok d') :
    d.bare.processFast S k g v = .ok d'.bare := by
  unfold OsnmaData.processFast at h ⊢
  show (if d.onlySlowmac = true then _ else _) = _
  by_cases hs : d.onlySlowmac = true
  · rw [if_pos hs] at h ⊢
    cases h; rfl
  · rw [if_neg hs] at h ⊢
    obtain ⟨m, e1, h⟩ := Res.bind_eq_ok.1 h
    have e1' : d.bare.mack.get S v g = .ok m := e1
    rw [e1']
    simp only [Res.ok_bind]
    cases m with
    | none => cases h; rfl
    | some ms =>
      obtain ⟨m, st⟩ := ms
      dsimp only at h ⊢
      obtain ⟨vm, e2, h⟩ := Res.bind_eq_ok.1 h
      rw [e2]
      simp only [Res.ok_bind]
      cases vm with
      | none => cases h; rfl
      | some mk =>
        dsimp only at h ⊢
        obtain ⟨nav, e3, h⟩ := Res.bind_eq_ok.1 h
        cases h
        have e3' : d.bare.navmessage.processMack S C mk k v g st = .ok nav := e3
        rw [e3']
        rfl

theorem bare_slow {d d' : OsnmaData C} {k : Key} {sk : Option Key} {g : Gst} {v : Svn} (h : d.processSlow S k sk g v = .ok d') :
    d.bare.processSlow S k sk g v = .ok d'.bare := by
  unfold OsnmaData.processSlow at h ⊢
  cases sk with
  | none => cases h; rfl
  | some sk =>
    dsimp only at h ⊢
    obtain ⟨m, e1, h⟩ := Res.bind_eq_ok.1 h
    have e1' : d.bare.mack.get S v g = .ok m := e1
    rw [e1']
    simp only [Res.ok_bind]
    cases m with
    | none => cases h; rfl
    | some ms =>
      obtain ⟨m, st⟩ := ms
      dsimp only at h ⊢
      obtain ⟨vm, e2, h⟩ := Res.bind_eq_ok.1 h
      rw [e2]
      simp only [Res.ok_bind]
      cases vm with
      | none => cases h; rfl
      | some mk =>
        dsimp only at h ⊢
        obtain ⟨nav, e3, h⟩ := Res.bind_eq_ok.1 h
        cases h
        have e3' : d.bare.navmessage.processMackSlowmac S C mk k v g st = .ok nav := e3
        rw [e3']
        rfl

theorem bare_slowmacKey (d : OsnmaData C) (k : Key) : d.bare.slowmacKey k = d.slowmacKey k := by
  rfl

theorem bare_tagLoop {k : Key} {sk : Option Key} {g1 g2 : Gst} : ∀ (l : List Svn) {d d' : OsnmaData C},
    loopM (fun d svn => do
      let d ← OsnmaData.processFast S d k g1 svn
      OsnmaData.processSlow S d k sk g2 svn) l d = .ok d' →
    loopM (fun d svn => do
      let d ← OsnmaData.processFast S d k g1 svn
      OsnmaData.processSlow S d k sk g2 svn) l d.bare = .ok d'.bare
  | [], d, d', h => by
    simp only [loopM] at h ⊢
    cases h; rfl
  | v :: l, d, d', h => by
    simp only [loopM] at h ⊢
    obtain ⟨d2, h2, h⟩ := Res.bind_eq_ok.1 h
    obtain ⟨d1, h1, h2⟩ := Res.bind_eq_ok.1 h2
    have a1 := bare_fast h1
    have b1 := bare_slow h2
    have c1 := bare_tagLoop l h
    rw [a1]
    simp only [Res.ok_bind]
    rw [b1]
    simp only
    exact c1

theorem bare_tags {d d' : OsnmaData C} {k : Key} (h : d.processTags S k = .ok d') :
    d.bare.processTags S k = .ok d'.bare := by
  unfold OsnmaData.processTags at h ⊢
  obtain ⟨g1, e1, h⟩ := Res.bind_eq_ok.1 h
  obtain ⟨g2, e2, h⟩ := Res.bind_eq_ok.1 h
  obtain ⟨sk, e3, h⟩ := Res.bind_eq_ok.1 h
  rw [e1]
  simp only [Res.ok_bind]
  rw [e2]
  simp only [Res.ok_bind]
  rw [bare_slowmacKey, e3]
  simp only [Res.ok_bind]
  exact bare_tagLoop _ h

theorem bare_key {d d' : OsnmaData C} {m : MackMessage} {g : Gst} (h : d.validateKey S m g = .ok d') :
    d.bare.validateKey S m g = .ok d'.bare ∧ d.bare.teslaEvents m g = d.teslaEvents m g := by
  refine ⟨?_, rfl⟩
  · unfold OsnmaData.validateKey at h ⊢
    have e : d.bare.key = d.key := rfl
    rw [e]
    cases hc : d.key.currentKey with
    | none => rw [hc] at h; cases h; rfl
    | some cur =>
      rw [hc] at h
      dsimp only at h ⊢
      obtain ⟨kb, e1, h⟩ := Res.bind_eq_ok.1 h
      rw [e1]
      simp only [Res.ok_bind]
      obtain ⟨nk, e2, h⟩ := Res.bind_eq_ok.1 h
      rw [e2]
      simp only [Res.ok_bind]
      cases hg : Gst.cmp cur.gst nk.gst with
      | eq => rw [hg] at h; cases h; rfl
      | gt => rw [hg] at h; cases h; rfl
      | lt =>
        rw [hg] at h
        dsimp only at h ⊢
        obtain ⟨r, e3, h⟩ := Res.bind_eq_ok.1 h
        rw [e3]
        simp only [Res.ok_bind]
        cases r with
        | error e => cases h; rfl
        | ok valid =>
          dsimp only at h ⊢
          obtain ⟨ks, e4, h⟩ := Res.bind_eq_ok.1 h
          rw [e4]
          simp only [Res.ok_bind]
          exact bare_tags h

theorem bare_subframe {o o' : OsnmaDsm C} {hk : HkrootMessage} {m : MackMessage} {v : Svn} {g : Gst}
    (hr : o.processSubframe S hk m v g = .ok o') (hev : ∀ e ∈ o.events S hk m v g, ¬ e.OfMerkle) :
    o.bare.processSubframe S hk m v g = .ok o'.bare ∧ o.bare.events S hk m v g = o.events S hk m v g := by
  unfold OsnmaDsm.processSubframe at hr ⊢
  unfold OsnmaDsm.events at hev ⊢
  obtain ⟨b0, e1, hr⟩ := Res.bind_eq_ok.1 hr
  obtain ⟨ms, e2, hr⟩ := Res.bind_eq_ok.1 hr
  obtain ⟨b1, e3, hr⟩ := Res.bind_eq_ok.1 hr
  obtain ⟨block, e4, hr⟩ := Res.bind_eq_ok.1 hr
  obtain ⟨⟨dsm, out⟩, e5, hr⟩ := Res.bind_eq_ok.1 hr
  have e2' : o.bare.data.mack.store S m v g (NmaHeader.mk b0).nmaStatus = .ok ms := e2
  have e5' : o.bare.dsm.feed ⟨b1⟩ block = .ok (dsm, out) := e5
  simp only [e1, e2, e3, e4, e5, Res.ok_bind, Res.pure_eq] at hev
  simp only [e1, e2, e2', e3, e4, e5, e5', Res.ok_bind, Res.pure_eq]
  cases out with
  | none =>
    dsimp only at hr hev ⊢
    simp only [Res.ok_bind, Res.pure_eq] at hr
    obtain ⟨d2, e7, hr⟩ := Res.bind_eq_ok.1 hr
    cases hr
    obtain ⟨k1, k3⟩ := bare_key e7
    have k1' : ({ o.bare.data with mack := ms } : OsnmaData C).validateKey S m g = .ok d2.bare := k1
    rw [k1']
    exact ⟨rfl, k3⟩
  | some x =>
    dsimp only at hr hev ⊢
    obtain ⟨dd, e6, hr⟩ := Res.bind_eq_ok.1 hr
    obtain ⟨d2, e7, hr⟩ := Res.bind_eq_ok.1 hr
    cases hr
    obtain ⟨j1, j3⟩ := bare_dsm (d := { o.data with mack := ms }) e6 (fun e h => hev e (List.mem_append_left _ h))
    have j1' : ({ o.bare.data with mack := ms } : OsnmaData C).processDsm x ⟨b0⟩ g = .ok dd.bare := j1
    have j3' : ({ o.bare.data with mack := ms } : OsnmaData C).dsmEvents x ⟨b0⟩ g =
      ({ o.data with mack := ms } : OsnmaData C).dsmEvents x ⟨b0⟩ g := j3
    obtain ⟨k1, k3⟩ := bare_key e7
    rw [j1', j3', e6]
    simp only [Res.ok_bind]
    rw [k1]
    exact ⟨rfl, by rw [k3]⟩

theorem bare_call {o o' : Osnma C} {c : Call} (hr : c.run S o = .ok o')
    (hev : ∀ e ∈ o.events S c, ¬ e.OfMerkle) :
    c.run S o.bare = .ok o'.bare ∧ o.bare.events S c = o.events S c := by
  cases c with
  | inav w v g b =>
    have hr : o.feedInav S w v g b = .ok o' := hr
    show o.bare.feedInav S w v g b = .ok o'.bare ∧ _
    unfold Osnma.feedInav at hr ⊢
    obtain ⟨nav, e, hr⟩ := Res.bind_eq_ok.1 hr
    cases hr
    have e' : o.bare.data.data.navmessage.feed S w v g b = .ok nav := e
    rw [e']
    exact ⟨rfl, rfl⟩
  | osnma data v g =>
    have hr : o.feedOsnma S data v g = .ok o' := hr
    show o.bare.feedOsnma S data v g = .ok o'.bare ∧ _
    unfold Osnma.feedOsnma at hr ⊢
    unfold Osnma.events at hev ⊢
    dsimp only at hev ⊢
    by_cases hz : data.val.all (fun x => x == 0#8) = true
    · rw [if_pos hz] at hr
      rw [if_pos hz, if_pos hz, if_pos hz]
      cases hr
      exact ⟨rfl, rfl⟩
    · rw [if_neg hz] at hr hev
      rw [if_neg hz, if_neg hz, if_neg hz]
      obtain ⟨⟨sf, out⟩, e, hr⟩ := Res.bind_eq_ok.1 hr
      have e' : o.bare.subframe.feed data v g = .ok (sf, out) := e
      rw [e] at hev ⊢
      rw [e']
      simp only [Res.ok_bind]
      cases out with
      | none => cases hr; exact ⟨rfl, rfl⟩
      | some x =>
        obtain ⟨hk, m, g'⟩ := x
        dsimp only at hr hev ⊢
        obtain ⟨dd, e2, hr⟩ := Res.bind_eq_ok.1 hr
        cases hr
        obtain ⟨k1, k3⟩ := bare_subframe e2 hev
        have k1' : o.bare.data.processSubframe S hk m v g' = .ok dd.bare := k1
        rw [k1']
        exact ⟨rfl, k3⟩

variable {root0 : Option MerkleTreeNode} {pk0 : Option (PublicKey C)} {slow : Bool} {hist : List Call} {log : List (KeyEvent C)} {o : Osnma C}

theorem bare_logs (h : Logs S (Osnma.new S root0 pk0 slow) hist log o) (hk : ∀ e ∈ log, ¬ e.OfMerkle) :
    Logs S (Osnma.new S none pk0 slow) hist log o.bare := by
  induction h with
  | nil => exact .nil
  | snoc c h hc ih =>
    have i1 := ih (fun e hm => hk e (List.mem_append_left _ hm))
    obtain ⟨c1, c3⟩ := bare_call hc (fun e hm => hk e (List.mem_append_right _ hm))
    rw [← c3]
    exact .snoc c i1 c1

/-- **C94** Giving the root of the Merkle tree in addition to the public key changes nothing until a DSM-PKR is verified with it: as long as no
public key and no alert is accepted from a DSM-PKR, the receiver without the root does the same. -/
theorem C94_root_unused (h : Logs S (Osnma.new S root0 pk0 slow) hist log o)
    (hpkr : ∀ data pk, KeyEvent.pkr data pk ∉ log) (halert : ∀ data, KeyEvent.alert data ∉ log) :
    ∃ o', Logs S (Osnma.new S none pk0 slow) hist log o' ∧ ∀ kd v, o'.get S kd v = o.get S kd v := by
  refine ⟨o.bare, bare_logs h (fun e he => ?_), fun kd v => by cases kd <;> rfl⟩
  cases e with
  | pkr data pk => exact absurd he (hpkr data pk)
  | alert data => exact absurd he (halert data)
  | _ => exact id

end Verif
