import Verif.Model.Work

/-! # The functions of `Model/Work.lean` compute what those of the model compute -/

namespace Verif
namespace W

variable {C : Crypto} {α β : Type}

theorem res_bind (x : W C α) (f : α → W C β) : (x >>= f).res = (x.res >>= fun a => (f a).res) := by
  show (W.bind x f).res = _
  unfold W.bind
  cases x.res <;> rfl

@[simp] theorem res_lift (x : Res α) : (lift x : W C α).res = x := rfl
@[simp] theorem res_pure (a : α) : (pure a : W C α).res = .ok a := rfl

theorem res_ite {p : Prop} [Decidable p] (x y : W C α) : (if p then x else y).res = if p then x.res else y.res := by
  split <;> rfl

theorem bind_congr {x : Res α} {f g : α → Res β} (h : ∀ a, f a = g a) : (x >>= f) = (x >>= g) := by
  rw [funext h]

theorem bind_congr2 {x y : Res α} {f g : α → Res β} (hx : x = y) (h : ∀ a, f a = g a) : (x >>= f) = (y >>= g) := by
  rw [hx, funext h]

theorem res_loop {σ : Type} {f : σ → α → W C σ} {g : σ → α → Res σ} (h : ∀ s a, (f s a).res = g s a) :
    ∀ (l : List α) (s : σ), (loop f l s).res = loopM g l s := by
  intro l
  induction l with
  | nil => intro s; rfl
  | cons a l ih =>
    intro s
    unfold loop loopM
    rw [res_bind, h]
    cases g s a with
    | ok s => exact ih s
    | panic w => rfl

theorem res_sha256 (m : List Byte) : (sha256 m : W C _).res = .ok (C.sha256 m) := rfl

theorem res_hash (c : Chain) (m : List Byte) : (hash c m : W C _).res = .ok (Key.hash C c m) := by
  unfold hash Key.hash
  cases c.hashFunction <;> rfl

theorem res_oneWay (k : Key) : (oneWayFunction k : W C _).res = Key.oneWayFunction C k := by
  unfold oneWayFunction Key.oneWayFunction
  simp only [res_bind, res_lift, res_hash, res_pure]
  rfl

theorem res_derive (n : Nat) : ∀ k : Key, (derive k n : W C _).res = Key.derive C k n := by
  induction n with
  | zero => intro k; rfl
  | succ n ih =>
    intro k
    unfold derive Key.derive
    rw [res_bind, res_oneWay]
    cases Key.oneWayFunction C k with
    | ok k => exact ih k
    | panic w => rfl

theorem res_validateKey (a b : Key) : (validateKey a b : W C _).res = Key.validateKey C a b := by
  unfold validateKey Key.validateKey
  simp only [res_ite, res_bind, res_lift, res_derive, res_pure]
  rfl

theorem res_checkPadding (d : DsmKroot) (h : NmaHeader) : (checkPadding d h : W C _).res = d.checkPadding C h := by
  unfold checkPadding DsmKroot.checkPadding
  simp only [res_bind, res_lift, res_sha256, res_pure]
  rfl

theorem res_checkSignatureP256 (d : DsmKroot) (h : NmaHeader) (pk : C.P256Key) :
    (checkSignatureP256 d h pk : W C _).res = d.checkSignatureP256 C h pk := by
  unfold checkSignatureP256 DsmKroot.checkSignatureP256 verify256
  simp only [res_bind, res_lift]
  cases d.ecdsaFunction <;> rfl

theorem res_checkSignatureP521 (d : DsmKroot) (h : NmaHeader) (pk : C.P521Key) :
    (checkSignatureP521 d h pk : W C _).res = d.checkSignatureP521 C h pk := by
  unfold checkSignatureP521 DsmKroot.checkSignatureP521 verify521
  simp only [res_bind, res_lift]
  cases d.ecdsaFunction <;> rfl

theorem res_fromDsmKroot (h : NmaHeader) (d : DsmKroot) (pk : PublicKey C) :
    (fromDsmKroot h d pk).res = Key.fromDsmKroot C h d pk := by
  unfold fromDsmKroot Key.fromDsmKroot
  rw [res_bind, res_lift]
  refine bind_congr fun r => ?_
  cases r with
  | error e => rfl
  | ok chain =>
    dsimp only
    rw [res_bind, res_checkPadding]
    refine bind_congr fun p => ?_
    cases p with
    | false => rfl
    | true =>
      rw [res_ite, if_neg (by decide), if_neg (by decide), res_bind, res_lift]
      refine bind_congr fun f => ?_
      rw [res_bind]
      unfold krootVerdict
      cases pk.key with
      | P256 key => cases f with
        | P256Sha256 =>
          dsimp only
          simp only [res_bind, res_checkSignatureP256]
          cases d.checkSignatureP256 C h key with
          | panic w => rfl
          | ok b => cases b <;> rfl
        | P521Sha512 => rfl
      | P521 key => cases f with
        | P256Sha256 => rfl
        | P521Sha512 =>
          dsimp only
          split
          · simp only [res_bind, res_checkSignatureP521]
            cases d.checkSignatureP521 C h key with
            | panic w => rfl
            | ok b => cases b <;> rfl
          · rfl

theorem res_mac (k : Key) (m : List Byte) : (mac k m : W C _).res = Key.mac C k m := by
  unfold mac Key.mac
  cases k.chain.macFunction with
  | HmacSha256 => rfl
  | CmacAes =>
    dsimp only
    split <;> rfl

theorem res_checkCommon (k : Key) (m : List Byte) (tag : List Bool) :
    (checkCommon k m tag : W C _).res = Key.checkCommon C k m tag := by
  unfold checkCommon Key.checkCommon
  simp only [res_bind, res_lift, res_mac, res_pure]
  rfl

theorem res_validateTag (k : Key) (tag : List Bool) (g : Gst) (prnd : Byte) (prna : Svn) (ctr : Byte) (st : NmaStatus) (nav : List Bool) :
    (validateTag k tag g prnd prna ctr st nav : W C _).res = k.validateTag C tag g prnd prna ctr st nav := by
  unfold validateTag Key.validateTag
  simp only [res_bind, res_lift, res_checkCommon]

theorem res_validateTagDummy (k : Key) (tag : List Bool) (g : Gst) (prnd : Byte) (prna : Svn) (ctr : Byte) (st : NmaStatus) (len : Nat) :
    (validateTagDummy k tag g prnd prna ctr st len : W C _).res = k.validateTagDummy C tag g prnd prna ctr st len := by
  unfold validateTagDummy Key.validateTagDummy
  simp only [res_bind, res_lift, res_checkCommon]

theorem res_validateTag0 (k : Key) (tag : List Bool) (g : Gst) (prna : Svn) (st : NmaStatus) (nav : List Bool) :
    (validateTag0 k tag g prna st nav : W C _).res = k.validateTag0 C tag g prna st nav := by
  unfold validateTag0 Key.validateTag0
  simp only [res_bind, res_lift, res_checkCommon]

theorem res_validateTag0Dummy (k : Key) (tag : List Bool) (g : Gst) (prna : Svn) (st : NmaStatus) (len : Nat) :
    (validateTag0Dummy k tag g prna st len : W C _).res = k.validateTag0Dummy C tag g prna st len := by
  unfold validateTag0Dummy Key.validateTag0Dummy
  simp only [res_bind, res_lift, res_checkCommon]

theorem res_validateMacseq (k : Key) (m : Mack) (prna : Svn) (g : Gst) :
    (validateMacseq k m prna g : W C _).res = k.validateMacseq C m prna g := by
  unfold validateMacseq Key.validateMacseq
  rw [res_bind, res_lift]
  refine bind_congr fun _ => ?_
  rw [res_bind, res_lift]
  refine bind_congr fun r => ?_
  cases r with
  | error e => rfl
  | ok idxs =>
    simp only [res_bind, res_lift, res_mac, res_ite, res_pure]
    rfl

theorem res_validateMack (m : Mack) (k : Key) (prna : Svn) (g : Gst) : (validateMack m k prna g : W C _).res = m.validate C k prna g := by
  unfold validateMack Mack.validate
  rw [res_bind, res_validateMacseq]
  refine bind_congr fun r => ?_
  cases r with
  | error e => rfl
  | ok u =>
    simp only [res_bind, res_lift]
    refine bind_congr fun n => bind_congr fun r => ?_
    cases r <;> rfl

theorem res_climb (d : DsmPkr) (n : Nat) : ∀ (j id : Nat) (node : List Byte), (climb d n j id node : W C _).res = Merkle.climb C d n j id node := by
  induction n with
  | zero => intros; rfl
  | succ n ih =>
    intro j id node
    unfold climb Merkle.climb
    rw [res_bind, res_lift]
    cases d.intermediateTreeNode j with
    | panic w => rfl
    | ok itn =>
      rw [Res.ok_bind]
      dsimp only
      split
      · rw [res_bind]; exact ih _ _ _
      · rw [res_bind]; exact ih _ _ _

theorem res_validateLeaf (root : MerkleTreeNode) (d : DsmPkr) : (validateLeaf root d : W C _).res = Merkle.validate C root d := by
  unfold validateLeaf Merkle.validate
  rw [res_bind, res_lift]
  refine bind_congr fun r => ?_
  cases r with
  | none => rfl
  | some leaf =>
    simp only [res_bind, res_lift, res_sha256, res_climb, res_ite, res_pure, Res.ok_bind, Merkle.hashLeaf]
    rfl

theorem res_pubkeyFromPkr (d : DsmPkr) : (pubkeyFromPkr d : W C _).res = Merkle.pubkeyFromPkr C d := by
  unfold pubkeyFromPkr Merkle.pubkeyFromPkr
  rw [res_bind, res_lift]
  simp only [bind_assoc]
  refine bind_congr fun k => bind_congr fun k => ?_
  rw [res_bind, res_lift]
  refine bind_congr fun t => ?_
  split
  · simp only [res_bind, res_lift, res_pure, decode256, Res.ok_bind]; rfl
  · simp only [res_bind, res_lift, res_pure, decode521, Res.ok_bind, res_ite]; rfl
  · rename_i h1 h2
    cases t with
    | EcdsaKey f => cases f with
      | P256Sha256 => exact absurd rfl h1
      | P521Sha512 => exact absurd rfl h2
    | OsnmaAlertMessage => rfl
    | Reserved => rfl

theorem res_validatePkr (root : MerkleTreeNode) (d : DsmPkr) : (validatePkr root d : W C _).res = Merkle.validatePkr C root d := by
  unfold validatePkr Merkle.validatePkr
  rw [res_bind, res_lift]
  refine bind_congr fun t => ?_
  cases t with
  | EcdsaKey f =>
    dsimp only
    rw [res_bind, res_validateLeaf]
    refine bind_congr fun r => ?_
    cases r with
    | error e => rfl
    | ok u => exact res_pubkeyFromPkr d
  | OsnmaAlertMessage => rfl
  | Reserved => rfl

theorem res_validateAlert (root : MerkleTreeNode) (d : DsmPkr) :
    (validateAlertMessage root d : W C _).res = Merkle.validateAlertMessage C root d := by
  unfold validateAlertMessage Merkle.validateAlertMessage
  rw [res_bind, res_lift]
  refine bind_congr fun t => ?_
  cases t with
  | EcdsaKey f => rfl
  | OsnmaAlertMessage => exact res_validateLeaf root d
  | Reserved => rfl

variable (S : Storage)

theorem res_validateNavTag (key : Key) (tag : List Bool) (g : Gst) (prnd : Nat) (prna : Svn) (j : Nat) (st : NmaStatus) (nbits : Nat)
    (x : NavItem) (arr : List NavItem) :
    (validateNavTag key tag g prnd prna j st nbits x arr : W C _).res = CollectNavMessage.validateTag C key tag g prnd prna j st nbits x arr := by
  unfold validateNavTag CollectNavMessage.validateTag
  rw [res_bind, res_lift]
  refine bind_congr fun _ => ?_
  dsimp only
  by_cases hj : j = 0
  · simp only [if_pos hj, res_bind, res_validateTag0, res_ite, res_pure]; rfl
  · simp only [if_neg hj, res_bind, res_validateTag, res_ite, res_pure]; rfl

theorem res_validateDummyTag (key : Key) (tag : List Bool) (g : Gst) (prnd : Nat) (prna : Svn) (j : Nat) (st : NmaStatus) (len : Nat) :
    (validateDummyTag key tag g prnd prna j st len : W C _).res = CollectNavMessage.validateDummyTag C key tag g prnd prna j st len := by
  unfold validateDummyTag CollectNavMessage.validateDummyTag
  simp only [res_bind, res_lift, res_ite, res_validateTag0Dummy, res_validateTagDummy]

theorem res_processCedTag (n : CollectNavMessage) (key : Key) (tag : List Bool) (cop : Nat) (g gn : Gst) (s prna : Svn) (j : Nat) (st : NmaStatus) :
    (processCedTag S n key tag cop g gn s prna j st : W C _).res = CollectNavMessage.processCedTag S C n key tag cop g gn s prna j st := by
  unfold processCedTag CollectNavMessage.processCedTag
  split
  · simp only [res_bind, res_validateDummyTag, res_pure]; rfl
  · rw [res_bind, res_lift]
    refine bind_congr fun r => ?_
    cases r with
    | none => rfl
    | some x =>
      dsimp only
      split
      · simp only [res_bind, res_validateNavTag, res_pure]; rfl
      · rfl

theorem res_processTimingTag (n : CollectNavMessage) (key : Key) (tag : List Bool) (cop : Nat) (g gn : Gst) (s prna : Svn) (j : Nat) (st : NmaStatus) :
    (processTimingTag S n key tag cop g gn s prna j st : W C _).res = CollectNavMessage.processTimingTag S C n key tag cop g gn s prna j st := by
  unfold processTimingTag CollectNavMessage.processTimingTag
  split
  · simp only [res_bind, res_validateDummyTag, res_pure]; rfl
  · rw [res_bind, res_lift]
    refine bind_congr fun r => ?_
    cases r with
    | none => rfl
    | some x =>
      dsimp only
      split
      · simp only [res_bind, res_validateNavTag, res_pure]; rfl
      · rfl

theorem res_processTagJ (key : Key) (m : Mack) (prna : Svn) (g gn : Gst) (st : NmaStatus) (n : CollectNavMessage) (j : Nat) :
    (processTagJ S key m prna g gn st n j : W C _).res = CollectNavMessage.processTagJ S C key m prna g gn st n j := by
  unfold processTagJ CollectNavMessage.processTagJ
  rw [res_bind, res_lift]
  refine bind_congr fun tag => ?_
  cases tag.prnd.toU8 with
  | none => rfl
  | some p =>
    dsimp only
    cases tag.adkd with
    | InavCed => dsimp only; cases Svn.tryFrom p with
      | none => rfl
      | some s => exact res_processCedTag ..
    | InavTiming => dsimp only; cases Svn.tryFrom p with
      | none => rfl
      | some s => exact res_processTimingTag ..
    | SlowMac => rfl
    | Reserved => rfl

theorem res_processMack (n : CollectNavMessage) (m : Mack) (key : Key) (prna : Svn) (g : Gst) (st : NmaStatus) :
    (processMack S n m key prna g st : W C _).res = CollectNavMessage.processMack S C n m key prna g st := by
  unfold processMack CollectNavMessage.processMack
  simp only [res_bind, res_lift, res_processCedTag, res_loop (res_processTagJ S key m prna g _ st)]

theorem res_processSlowTagJ (key : Key) (m : Mack) (prna : Svn) (g gn : Gst) (st : NmaStatus) (n : CollectNavMessage) (j : Nat) :
    (processSlowTagJ S key m prna g gn st n j : W C _).res = CollectNavMessage.processSlowTagJ S C key m prna g gn st n j := by
  unfold processSlowTagJ CollectNavMessage.processSlowTagJ
  rw [res_bind, res_lift]
  refine bind_congr fun tag => ?_
  rw [res_ite]
  split
  · rfl
  · cases tag.prnd.toU8 with
    | none => rfl
    | some p =>
      dsimp only
      cases Svn.tryFrom p with
      | none => rfl
      | some s => exact res_processCedTag ..

theorem res_processMackSlowmac (n : CollectNavMessage) (m : Mack) (key : Key) (prna : Svn) (g : Gst) (st : NmaStatus) :
    (processMackSlowmac S n m key prna g st : W C _).res = CollectNavMessage.processMackSlowmac S C n m key prna g st := by
  unfold processMackSlowmac CollectNavMessage.processMackSlowmac
  simp only [res_bind, res_lift, res_loop (res_processSlowTagJ S key m prna g _ st)]

theorem res_processDsmKroot (d : OsnmaData C) (k : DsmKroot) (h : NmaHeader) (g : Gst) :
    (processDsmKroot d k h g).res = d.processDsmKroot k h g := by
  unfold processDsmKroot OsnmaData.processDsmKroot
  simp only [res_bind, res_lift]
  refine bind_congr fun pkid => bind_congr fun r => ?_
  cases r with
  | none => rfl
  | some pk =>
    dsimp only
    rw [res_bind, res_fromDsmKroot]
    refine bind_congr fun r => ?_
    cases r with
    | error e => rfl
    | ok kh =>
      simp only [res_bind, res_lift, res_pure]
      rfl

theorem res_processDsmPkrNpk (d : OsnmaData C) (p : DsmPkr) : (processDsmPkrNpk d p).res = d.processDsmPkrNpk p := by
  unfold processDsmPkrNpk OsnmaData.processDsmPkrNpk
  cases d.merkleTree with
  | none => rfl
  | some root =>
    dsimp only
    rw [res_bind, res_validatePkr]
    refine bind_congr fun r => ?_
    cases r with
    | error e => rfl
    | ok k => simp only [res_bind, res_lift, res_pure]; rfl

theorem res_processDsmPkrAlert (d : OsnmaData C) (p : DsmPkr) : (processDsmPkrAlert d p).res = d.processDsmPkrAlert p := by
  unfold processDsmPkrAlert OsnmaData.processDsmPkrAlert
  cases d.merkleTree with
  | none => rfl
  | some root =>
    dsimp only
    rw [res_bind, res_validateAlert]
    refine bind_congr fun r => ?_
    cases r <;> rfl

theorem res_processDsmPkr (d : OsnmaData C) (p : DsmPkr) : (processDsmPkr d p).res = d.processDsmPkr p := by
  unfold processDsmPkr OsnmaData.processDsmPkr
  rw [res_bind, res_lift]
  refine bind_congr fun t => ?_
  cases t with
  | EcdsaKey f => exact res_processDsmPkrNpk d p
  | OsnmaAlertMessage => exact res_processDsmPkrAlert d p
  | Reserved => rfl

theorem res_processDsm (d : OsnmaData C) (x : Dsm) (h : NmaHeader) (g : Gst) : (processDsm d x h g).res = d.processDsm x h g := by
  unfold processDsm OsnmaData.processDsm
  cases x.dsmType with
  | Kroot => exact res_processDsmKroot ..
  | Pkr => exact res_processDsmPkr ..

theorem res_checkMack (m : Mack) (k : Key) (prna : Svn) (g : Gst) : (checkMack m k prna g : W C _).res = OsnmaData.validateMack (C := C) m k prna g := by
  unfold checkMack OsnmaData.validateMack
  rw [res_bind, res_validateMack]
  refine bind_congr fun r => ?_
  cases r <;> rfl

theorem res_processFast (d : OsnmaData C) (k : Key) (g : Gst) (svn : Svn) : (processFast S d k g svn).res = OsnmaData.processFast S d k g svn := by
  unfold processFast OsnmaData.processFast
  split
  · rfl
  · rw [res_bind, res_lift]
    refine bind_congr fun r => ?_
    cases r with
    | none => rfl
    | some x =>
      dsimp only
      rw [res_bind, res_checkMack]
      refine bind_congr fun r => ?_
      cases r with
      | none => rfl
      | some m => simp only [res_bind, res_processMack, res_pure]; rfl

theorem res_processSlow (d : OsnmaData C) (k : Key) (sk : Option Key) (g : Gst) (svn : Svn) :
    (processSlow S d k sk g svn).res = OsnmaData.processSlow S d k sk g svn := by
  unfold processSlow OsnmaData.processSlow
  cases sk with
  | none => rfl
  | some sk =>
    dsimp only
    rw [res_bind, res_lift]
    refine bind_congr fun r => ?_
    cases r with
    | none => rfl
    | some x =>
      dsimp only
      rw [res_bind, res_checkMack]
      refine bind_congr fun r => ?_
      cases r with
      | none => rfl
      | some m => simp only [res_bind, res_processMackSlowmac, res_pure]; rfl

theorem res_slowmacKey (d : OsnmaData C) (k : Key) : (slowmacKey d k).res = d.slowmacKey k := by
  unfold slowmacKey OsnmaData.slowmacKey
  rw [res_bind, res_lift]
  refine bind_congr fun g => ?_
  cases d.key.keyPastChain g with
  | none => rfl
  | some k' =>
    dsimp only
    rw [res_bind, res_lift]
    refine bind_congr fun n => ?_
    rw [res_ite]
    split
    · simp only [res_bind, res_derive, res_pure]; rfl
    · rfl

theorem res_processTags (d : OsnmaData C) (k : Key) : (processTags S d k).res = d.processTags S k := by
  unfold processTags OsnmaData.processTags
  simp only [res_bind, res_lift, res_slowmacKey]
  refine bind_congr fun g => bind_congr fun gs => bind_congr fun sk => ?_
  refine res_loop (fun d svn => ?_) _ _
  rw [res_bind, res_processFast]
  exact bind_congr fun d => res_processSlow ..

theorem res_acceptKey (d : OsnmaData C) (m : MackMessage) (g : Gst) : (acceptKey S d m g).res = d.validateKey S m g := by
  unfold acceptKey OsnmaData.validateKey
  cases d.key.currentKey with
  | none => rfl
  | some cur =>
    dsimp only
    rw [res_bind, res_lift]
    refine bind_congr fun kb => ?_
    rw [res_bind, res_lift]
    refine bind_congr fun nk => ?_
    cases Gst.cmp cur.gst nk.gst with
    | eq => rfl
    | gt => rfl
    | lt =>
      dsimp only
      rw [res_bind, res_validateKey]
      refine bind_congr fun r => ?_
      cases r with
      | error e => rfl
      | ok v => simp only [res_bind, res_lift, res_processTags]

theorem res_processSubframe (o : OsnmaDsm C) (hk : HkrootMessage) (m : MackMessage) (svn : Svn) (g : Gst) :
    (processSubframe S o hk m svn g).res = o.processSubframe S hk m svn g := by
  unfold processSubframe OsnmaDsm.processSubframe
  simp only [res_bind, res_lift]
  refine bind_congr fun b0 => bind_congr fun ms => bind_congr fun b1 => bind_congr fun block => bind_congr fun r => ?_
  obtain ⟨dsm, out⟩ := r
  cases out with
  | none => simp only [res_bind, res_acceptKey, res_pure, Res.ok_bind, Res.pure_eq]
  | some x => simp only [res_bind, res_processDsm, res_acceptKey, res_pure, Res.pure_eq]

theorem res_feedOsnma (o : Osnma C) (x : OsnmaDataMessage) (svn : Svn) (g : Gst) : (feedOsnma S o x svn g).res = o.feedOsnma S x svn g := by
  unfold feedOsnma Osnma.feedOsnma
  split
  · rfl
  · rw [res_bind, res_lift]
    refine bind_congr fun r => ?_
    obtain ⟨sf, out⟩ := r
    cases out with
    | none => rfl
    | some y =>
      simp only [res_bind, res_processSubframe, res_pure]
      rfl

end W
end Verif
