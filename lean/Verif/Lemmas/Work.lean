import Verif.Spec.WorkSpec
import Verif.Lemmas.WorkErase
import Verif.Props.Logging

/-! # Bounds on the cryptographic work -/

namespace Verif

variable {C : Crypto} {α β : Type}

theorem AtMost.nil {h m p : Nat} : AtMost ([] : List (Op C)) h m p :=
  ⟨Nat.zero_le _, Nat.zero_le _, Nat.zero_le _, by intro op h; cases h⟩

theorem AtMost.append {a b : List (Op C)} {h m p h' m' p' : Nat} (ha : AtMost a h m p) (hb : AtMost b h' m' p') :
    AtMost (a ++ b) (h + h') (m + m') (p + p') := by
  refine ⟨?_, ?_, ?_, ?_⟩
  · rw [List.countP_append]; exact Nat.add_le_add ha.hashes hb.hashes
  · rw [List.countP_append]; exact Nat.add_le_add ha.macs hb.macs
  · rw [List.countP_append]; exact Nat.add_le_add ha.publicKey hb.publicKey
  · intro op h
    rcases List.mem_append.1 h with h | h
    · exact ha.sizes op h
    · exact hb.sizes op h

theorem AtMost.mono {a : List (Op C)} {h m p h' m' p' : Nat} (ha : AtMost a h m p) (h1 : h ≤ h') (h2 : m ≤ m') (h3 : p ≤ p') :
    AtMost a h' m' p' :=
  ⟨Nat.le_trans ha.hashes h1, Nat.le_trans ha.macs h2, Nat.le_trans ha.publicKey h3, ha.sizes⟩

namespace W

/-- The bound of a computation. -/
abbrev Costs (x : W C α) (h m p : Nat) : Prop := AtMost x.ops h m p

theorem Costs.lift {x : Res α} {h m p : Nat} : Costs (lift x : W C α) h m p := AtMost.nil
theorem Costs.pure {a : α} {h m p : Nat} : Costs (pure a : W C α) h m p := AtMost.nil

theorem Costs.bind {x : W C α} {f : α → W C β} {h m p h' m' p' : Nat} (hx : Costs x h m p)
    (hf : ∀ a, x.res = .ok a → Costs (f a) h' m' p') : Costs (x >>= f) (h + h') (m + m') (p + p') := by
  show AtMost (W.bind x f).ops _ _ _
  unfold W.bind
  cases hr : x.res with
  | ok a => exact hx.append (hf a hr)
  | panic w => exact hx.mono (Nat.le_add_right ..) (Nat.le_add_right ..) (Nat.le_add_right ..)

theorem Costs.bindLift {x : Res α} {f : α → W C β} {h m p : Nat} (hf : ∀ a, x = .ok a → Costs (f a) h m p) :
    Costs (W.lift x >>= f) h m p := by
  have := Costs.bind (C := C) (x := W.lift x) (h := 0) (m := 0) (p := 0) Costs.lift hf
  simpa using this

theorem Costs.bindPure {x : W C α} {f : α → W C β} {h m p : Nat} (hx : Costs x h m p) (hf : ∀ a, x.res = .ok a → Costs (f a) 0 0 0) :
    Costs (x >>= f) h m p := by
  simpa using hx.bind hf

theorem Costs.loop {σ : Type} {f : σ → α → W C σ} (l : List α) (h m p : Nat) (hf : ∀ s, ∀ a ∈ l, Costs (f s a) h m p) :
    ∀ s, Costs (loop f l s) (l.length * h) (l.length * m) (l.length * p) := by
  induction l with
  | nil => intro s; exact Costs.pure
  | cons a l ih =>
    intro s
    unfold W.loop
    refine (Costs.bind (hf s a (List.mem_cons_self ..)) fun s _ => ih (fun s a ha => hf s a (List.mem_cons_of_mem _ ha)) s).mono ?_ ?_ ?_ <;>
      simp only [List.length_cons, Nat.succ_mul] <;> omega

theorem costs_sha256 {m : List Byte} (h : m.length ≤ 177) : Costs (sha256 m : W C _) 1 0 0 :=
  ⟨Nat.le_refl _, Nat.le_refl _, Nat.le_refl _, by intro op ho; cases List.mem_singleton.1 ho; exact h⟩

theorem costs_hash {c : Chain} {m : List Byte} (h : m.length ≤ 177) : Costs (hash c m : W C _) 1 0 0 := by
  unfold hash
  cases c.hashFunction with
  | Sha256 => exact costs_sha256 h
  | Sha3_256 => exact ⟨Nat.le_refl _, Nat.le_refl _, Nat.le_refl _, by intro op ho; cases List.mem_singleton.1 ho; exact h⟩

theorem key_bytes_length (k : Key) : k.bytes.length ≤ 32 := by
  unfold Key.bytes
  rw [List.length_take]
  have := k.data.property
  omega

theorem costs_oneWay (k : Key) : Costs (oneWayFunction k : W C _) 1 0 0 := by
  unfold oneWayFunction
  refine Costs.bindLift fun prev _ => ?_
  refine Costs.bindPure (costs_hash ?_) fun _ _ => Costs.pure
  have := key_bytes_length k
  have := Key.storeGst_length prev
  have : (beBytes 6 k.chain.alpha).length = 6 := by rw [beBytes, packBytes_length, storeBe_length]
  simp only [List.length_append]
  omega

theorem costs_derive (n : Nat) : ∀ k : Key, Costs (derive k n : W C _) n 0 0 := by
  induction n with
  | zero => intro k; exact Costs.pure
  | succ n ih =>
    intro k
    unfold derive
    exact (Costs.bind (costs_oneWay k) fun k _ => ih k).mono (by omega) (by omega) (by omega)

theorem costs_validateKey (a b : Key) : Costs (validateKey a b : W C _) 3000 0 0 := by
  unfold validateKey
  split
  · exact Costs.pure
  · split
    · exact Costs.pure
    · refine Costs.bindLift fun n _ => Costs.bindLift fun _ _ => ?_
      split
      · exact Costs.pure
      · rename_i hn
        refine Costs.bindPure ((costs_derive n.toNat b).mono (by omega) (by omega) (by omega)) fun d _ => ?_
        refine Costs.bindLift fun _ _ => ?_
        split <;> exact Costs.pure

theorem costs_validateKey_near (a b : Key) (N : Nat) (h : ∀ n, b.gst.subframesDifference a.gst = .ok n → n ≤ N) :
    Costs (validateKey a b : W C _) N 0 0 := by
  unfold validateKey
  split
  · exact Costs.pure
  · split
    · exact Costs.pure
    · refine Costs.bindLift fun n hn => Costs.bindLift fun _ _ => ?_
      split
      · exact Costs.pure
      · have := h n hn
        refine Costs.bindPure ((costs_derive n.toNat b).mono (by omega) (by omega) (by omega)) fun d _ => ?_
        refine Costs.bindLift fun _ _ => ?_
        split <;> exact Costs.pure

/-! ## Public keys -/

theorem kroot_length {d : DsmKroot} {k : List Byte} (h : d.kroot = .ok k) : k.length ≤ 32 := by
  unfold DsmKroot.kroot at h
  obtain ⟨o, ho, h⟩ := Res.bind_eq_ok.1 h
  obtain ⟨n, hn, h⟩ := Res.bind_eq_ok.1 h
  rw [slice_length h]
  unfold DsmKroot.keySize at ho
  obtain ⟨v, _, ho⟩ := Res.bind_eq_ok.1 ho
  have ho := Res.ok.inj ho
  cases o with
  | none => cases hn
  | some s =>
    cases hn
    unfold DsmKroot.keySizeTable at ho
    split at ho <;> first | (cases ho; done) | (cases ho; omega)

theorem signatureMessage_length {d : DsmKroot} {h : NmaHeader} {m : List Byte} (hm : d.signatureMessage h = .ok m) : m.length ≤ 45 := by
  unfold DsmKroot.signatureMessage at hm
  obtain ⟨k, hk, hm⟩ := Res.bind_eq_ok.1 hm
  obtain ⟨b, hb, hm⟩ := Res.bind_eq_ok.1 hm
  cases hm
  have h1 := slice_length hb
  have h2 := kroot_length hk
  simp only [List.length_cons]
  omega

theorem digitalSignature_length {d : DsmKroot} {m : List Byte} (hm : d.digitalSignature = .ok m) : m.length ≤ 132 := by
  unfold DsmKroot.digitalSignature at hm
  obtain ⟨f, _, hm⟩ := Res.bind_eq_ok.1 hm
  obtain ⟨k, _, hm⟩ := Res.bind_eq_ok.1 hm
  rw [slice_length hm]
  cases f <;> dsimp only <;> omega

theorem costs_checkPadding (d : DsmKroot) (h : NmaHeader) : Costs (checkPadding d h : W C _) 1 0 0 := by
  unfold checkPadding
  refine Costs.bindLift fun m hm => Costs.bindLift fun s hs => ?_
  refine Costs.bindPure (costs_sha256 ?_) fun x _ => Costs.bindLift fun _ _ => Costs.bindLift fun _ _ => Costs.pure
  have := signatureMessage_length hm
  have := digitalSignature_length hs
  rw [List.length_append]
  omega

theorem costs_checkSignatureP256 (d : DsmKroot) (h : NmaHeader) (pk : C.P256Key) : Costs (checkSignatureP256 d h pk) 0 0 1 := by
  unfold checkSignatureP256
  refine Costs.bindLift fun _ _ => Costs.bindLift fun m hm => Costs.bindLift fun s hs => Costs.bindLift fun _ _ => ?_
  refine ⟨Nat.le_refl _, Nat.le_refl _, Nat.le_refl _, ?_⟩
  intro op ho
  cases List.mem_singleton.1 ho
  have := signatureMessage_length hm
  have := digitalSignature_length hs
  show m.length + s.length ≤ 177
  omega

theorem costs_checkSignatureP521 (d : DsmKroot) (h : NmaHeader) (pk : C.P521Key) : Costs (checkSignatureP521 d h pk) 0 0 1 := by
  unfold checkSignatureP521
  refine Costs.bindLift fun _ _ => Costs.bindLift fun m hm => Costs.bindLift fun s hs => Costs.bindLift fun _ _ => ?_
  refine ⟨Nat.le_refl _, Nat.le_refl _, Nat.le_refl _, ?_⟩
  intro op ho
  cases List.mem_singleton.1 ho
  have := signatureMessage_length hm
  have := digitalSignature_length hs
  show m.length + s.length ≤ 177
  omega

theorem costs_krootVerdict (h : NmaHeader) (d : DsmKroot) (pk : PublicKey C) (f : EcdsaFunction) : Costs (krootVerdict h d pk f) 0 0 1 := by
  unfold krootVerdict
  split
  · refine Costs.bindPure (costs_checkSignatureP256 ..) fun b _ => ?_
    split <;> exact Costs.pure
  · split
    · refine Costs.bindPure (costs_checkSignatureP521 ..) fun b _ => ?_
      split <;> exact Costs.pure
    · exact Costs.pure
  · exact Costs.pure

theorem costs_fromDsmKroot (h : NmaHeader) (d : DsmKroot) (pk : PublicKey C) : Costs (fromDsmKroot h d pk) 1 0 1 := by
  unfold fromDsmKroot
  refine Costs.bindLift fun r _ => ?_
  split
  · exact Costs.pure
  · refine (Costs.bind (h' := 0) (m' := 0) (p' := 1) (costs_checkPadding d h) fun b _ => ?_).mono (by omega) (by omega) (by omega)
    split
    · exact Costs.pure
    · refine Costs.bindLift fun f _ => Costs.bindPure (costs_krootVerdict ..) fun v _ => ?_
      split
      · exact Costs.pure
      · exact Costs.lift

theorem node_length {d : DsmPkr} {j : Nat} {b : List Byte} (h : d.intermediateTreeNode j = .ok b) : b.length = 32 := by
  unfold DsmPkr.intermediateTreeNode at h
  obtain ⟨_, _, h⟩ := Res.bind_eq_ok.1 h
  rw [slice_length h]
  omega

theorem costs_climb (d : DsmPkr) (n : Nat) : ∀ (j id : Nat) (node : List Byte), node.length = 32 → Costs (climb d n j id node : W C _) n 0 0 := by
  induction n with
  | zero => intros; exact Costs.pure
  | succ n ih =>
    intro j id node hn
    unfold climb
    refine Costs.bindLift fun itn hi => ?_
    have hi := node_length hi
    dsimp only
    split
    · refine (Costs.bind (x := calcNode node itn) (h' := n) (m' := 0) (p' := 0) (costs_sha256 (by rw [List.length_append]; omega)) fun x hx => ?_).mono (by omega) (by omega) (by omega)
      cases hx; exact ih _ _ _ (C.sha256_len _)
    · refine (Costs.bind (x := calcNode itn node) (h' := n) (m' := 0) (p' := 0) (costs_sha256 (by rw [List.length_append]; omega)) fun x hx => ?_).mono (by omega) (by omega) (by omega)
      cases hx; exact ih _ _ _ (C.sha256_len _)

theorem keySize_le {d : DsmPkr} {n : Nat} (h : d.keySize = .ok (some n)) : n ≤ 78 := by
  unfold DsmPkr.keySize at h
  obtain ⟨t, _, h⟩ := Res.bind_eq_ok.1 h
  split at h
  · cases h; omega
  · cases h; omega
  · obtain ⟨nb, hnb, h⟩ := Res.bind_eq_ok.1 h
    unfold DsmPkr.numberOfBlocks at hnb
    obtain ⟨v, _, hnb⟩ := Res.bind_eq_ok.1 hnb
    have hnb := Res.ok.inj hnb
    have h := Res.ok.inj h
    split at hnb
    · subst hnb
      simp only [Option.map_some, Option.some.injEq] at h
      omega
    · subst hnb; cases h
  · cases h

theorem leaf_length {d : DsmPkr} {l : List Byte} (h : d.merkleTreeLeaf = .ok (some l)) : l.length ≤ 79 := by
  unfold DsmPkr.merkleTreeLeaf at h
  obtain ⟨o, ho, h⟩ := Res.bind_eq_ok.1 h
  cases o with
  | none => cases h
  | some n =>
    have := keySize_le ho
    obtain ⟨x, hx, h⟩ := Res.map_eq_ok.1 h
    cases h
    rw [slice_length hx]
    omega

theorem costs_validateLeaf (root : MerkleTreeNode) (d : DsmPkr) : Costs (validateLeaf root d : W C _) 5 0 0 := by
  unfold validateLeaf
  refine Costs.bindLift fun r hr => ?_
  split
  · exact Costs.pure
  · refine Costs.bindLift fun id _ => ?_
    refine (Costs.bind (h' := 4) (m' := 0) (p' := 0) (costs_sha256 ?_) fun x hx => ?_).mono (by omega) (by omega) (by omega)
    · have := leaf_length hr; omega
    · cases hx
      refine Costs.bindPure (costs_climb d 4 0 id _ (C.sha256_len _)) fun node _ => ?_
      split <;> exact Costs.pure

theorem newPublicKey_length {d : DsmPkr} {l : List Byte} (h : d.newPublicKey = .ok (some l)) : l.length ≤ 78 := by
  unfold DsmPkr.newPublicKey at h
  obtain ⟨o, ho, h⟩ := Res.bind_eq_ok.1 h
  cases o with
  | none => cases h
  | some n =>
    have := keySize_le ho
    obtain ⟨x, hx, h⟩ := Res.map_eq_ok.1 h
    cases h
    rw [slice_length hx]
    omega

theorem costs_pubkeyFromPkr (d : DsmPkr) : Costs (pubkeyFromPkr d : W C _) 0 0 1 := by
  unfold pubkeyFromPkr
  refine Costs.bindLift fun key hk => Costs.bindLift fun t _ => ?_
  have hl : key.length ≤ 78 := by
    obtain ⟨o, ho, hk⟩ := Res.bind_eq_ok.1 hk
    cases o with
    | none => cases hk
    | some x => cases hk; exact newPublicKey_length ho
  split
  · refine Costs.bindPure ?_ fun k _ => Costs.bindLift fun _ _ => Costs.bindLift fun _ _ => Costs.pure
    refine ⟨Nat.le_refl _, Nat.le_refl _, Nat.le_refl _, ?_⟩
    intro op ho
    cases List.mem_singleton.1 ho
    exact Nat.le_trans hl (by omega)
  · split
    · refine Costs.bindPure ?_ fun k _ => Costs.bindLift fun _ _ => Costs.bindLift fun _ _ => Costs.pure
      refine ⟨Nat.le_refl _, Nat.le_refl _, Nat.le_refl _, ?_⟩
      intro op ho
      cases List.mem_singleton.1 ho
      exact Nat.le_trans hl (by omega)
    · exact Costs.pure
  · exact Costs.lift

theorem costs_validatePkr (root : MerkleTreeNode) (d : DsmPkr) : Costs (validatePkr root d : W C _) 5 0 1 := by
  unfold validatePkr
  refine Costs.bindLift fun t _ => ?_
  split
  · refine (Costs.bind (h' := 0) (m' := 0) (p' := 1) (costs_validateLeaf root d) fun r _ => ?_).mono (by omega) (by omega) (by omega)
    split
    · exact Costs.pure
    · exact costs_pubkeyFromPkr d
  · exact Costs.pure

theorem costs_validateAlert (root : MerkleTreeNode) (d : DsmPkr) : Costs (validateAlertMessage root d : W C _) 5 0 0 := by
  unfold validateAlertMessage
  refine Costs.bindLift fun t _ => ?_
  split
  · exact costs_validateLeaf root d
  · exact Costs.pure

theorem costs_processDsm (d : OsnmaData C) (x : Dsm) (h : NmaHeader) (g : Gst) : Costs (processDsm d x h g) 5 0 1 := by
  unfold processDsm
  split
  · unfold processDsmKroot
    refine Costs.bindLift fun pkid _ => Costs.bindLift fun r _ => ?_
    split
    · exact Costs.pure
    · refine Costs.bindPure ((costs_fromDsmKroot ..).mono (by omega) (by omega) (by omega)) fun r _ => ?_
      split
      · exact Costs.pure
      · exact Costs.bindLift fun _ _ => Costs.pure
  · unfold processDsmPkr
    refine Costs.bindLift fun t _ => ?_
    split
    · unfold processDsmPkrNpk
      split
      · exact Costs.pure
      · refine Costs.bindPure (costs_validatePkr ..) fun r _ => ?_
        split
        · exact Costs.bindLift fun _ _ => Costs.pure
        · exact Costs.pure
    · unfold processDsmPkrAlert
      split
      · exact Costs.pure
      · refine Costs.bindPure ((costs_validateAlert ..).mono (by omega) (by omega) (by omega)) fun r _ => ?_
        split <;> exact Costs.pure
    · exact Costs.pure

/-! ## Tags -/

theorem costs_mac (k : Key) {m : List Byte} (h : m.length ≤ 177) : Costs (mac k m : W C _) 0 1 0 := by
  unfold mac
  split
  · exact ⟨Nat.le_refl _, Nat.le_refl _, Nat.le_refl _, by intro op ho; cases List.mem_singleton.1 ho; exact h⟩
  · split
    · refine Costs.bindPure ?_ fun _ _ => Costs.pure
      exact ⟨Nat.le_refl _, Nat.le_refl _, Nat.le_refl _, by intro op ho; cases List.mem_singleton.1 ho; exact h⟩
    · exact Costs.lift

theorem costs_checkCommon (k : Key) {m : List Byte} (tag : List Bool) (h : m.length ≤ 177) : Costs (checkCommon k m tag : W C _) 0 1 0 := by
  unfold checkCommon
  exact Costs.bindPure (costs_mac k h) fun _ _ => Costs.bindLift fun _ _ => Costs.pure

theorem bufferHeader_length (g : Gst) (prna : Svn) (ctr : Byte) (st : NmaStatus) : (Key.bufferHeader g prna ctr st).length = 50 := by
  unfold Key.bufferHeader
  simp [Key.storeGst_length, bitsOf_length]

theorem navdataMessage_length {g : Gst} {prna : Svn} {ctr : Byte} {st : NmaStatus} {nav : List Bool} {m : List Byte}
    (h : Key.navdataMessage g prna ctr st nav = .ok m) : m.length ≤ 75 := by
  unfold Key.navdataMessage at h
  split at h
  · cases h
    rw [packBytes_length, List.length_append, bufferHeader_length]
    omega
  · cases h

theorem dummyMessage_length {g : Gst} {prna : Svn} {ctr : Byte} {st : NmaStatus} {len : Nat} {m : List Byte}
    (h : Key.dummyMessage g prna ctr st len = .ok m) : m.length ≤ 75 := by
  unfold Key.dummyMessage at h
  split at h
  · cases h
    rw [List.length_take]
    omega
  · cases h

theorem costs_validateNavTag (key : Key) (tag : List Bool) (g : Gst) (prnd : Nat) (prna : Svn) (j : Nat) (st : NmaStatus) (nbits : Nat)
    (x : NavItem) (arr : List NavItem) : Costs (validateNavTag key tag g prnd prna j st nbits x arr : W C _) 0 1 0 := by
  unfold validateNavTag
  refine Costs.bindLift fun _ _ => ?_
  dsimp only
  by_cases hj : j = 0
  · rw [if_pos hj]
    refine Costs.bindPure ?_ fun b _ => ?_
    · unfold validateTag0
      exact Costs.bindLift fun m hm => costs_checkCommon _ _ (by have := navdataMessage_length hm; omega)
    · split <;> exact Costs.pure
  · rw [if_neg hj]
    refine Costs.bindPure ?_ fun b _ => ?_
    · unfold validateTag
      exact Costs.bindLift fun m hm => costs_checkCommon _ _ (by have := navdataMessage_length hm; simp only [List.length_cons]; omega)
    · split <;> exact Costs.pure

theorem costs_validateDummyTag (key : Key) (tag : List Bool) (g : Gst) (prnd : Nat) (prna : Svn) (j : Nat) (st : NmaStatus) (len : Nat) :
    Costs (validateDummyTag key tag g prnd prna j st len : W C _) 0 1 0 := by
  unfold validateDummyTag
  refine Costs.bindLift fun _ _ => ?_
  split
  · unfold validateTag0Dummy
    exact Costs.bindLift fun m hm => costs_checkCommon _ _ (by have := dummyMessage_length hm; omega)
  · unfold validateTagDummy
    exact Costs.bindLift fun m hm => costs_checkCommon _ _ (by have := dummyMessage_length hm; simp only [List.length_cons]; omega)

variable (S : Storage)

theorem costs_processCedTag (n : CollectNavMessage) (key : Key) (tag : List Bool) (cop : Nat) (g gn : Gst) (s prna : Svn) (j : Nat) (st : NmaStatus) :
    Costs (processCedTag S n key tag cop g gn s prna j st : W C _) 0 1 0 := by
  unfold processCedTag
  split
  · exact Costs.bindPure (costs_validateDummyTag ..) fun _ _ => Costs.pure
  · refine Costs.bindLift fun r _ => ?_
    split
    · split
      · exact Costs.bindPure (costs_validateNavTag ..) fun _ _ => Costs.pure
      · exact Costs.pure
    · exact Costs.pure

theorem costs_processTimingTag (n : CollectNavMessage) (key : Key) (tag : List Bool) (cop : Nat) (g gn : Gst) (s prna : Svn) (j : Nat)
    (st : NmaStatus) : Costs (processTimingTag S n key tag cop g gn s prna j st : W C _) 0 1 0 := by
  unfold processTimingTag
  split
  · exact Costs.bindPure (costs_validateDummyTag ..) fun _ _ => Costs.pure
  · refine Costs.bindLift fun r _ => ?_
    split
    · split
      · exact Costs.bindPure (costs_validateNavTag ..) fun _ _ => Costs.pure
      · exact Costs.pure
    · exact Costs.pure

theorem costs_processTagJ (key : Key) (m : Mack) (prna : Svn) (g gn : Gst) (st : NmaStatus) (n : CollectNavMessage) (j : Nat) :
    Costs (processTagJ S key m prna g gn st n j : W C _) 0 1 0 := by
  unfold processTagJ
  refine Costs.bindLift fun tag _ => ?_
  split
  · exact Costs.pure
  · split
    · split
      · exact costs_processCedTag ..
      · exact Costs.pure
    · split
      · exact costs_processTimingTag ..
      · exact Costs.pure
    · exact Costs.pure
    · exact Costs.pure

theorem costs_processSlowTagJ (key : Key) (m : Mack) (prna : Svn) (g gn : Gst) (st : NmaStatus) (n : CollectNavMessage) (j : Nat) :
    Costs (processSlowTagJ S key m prna g gn st n j : W C _) 0 1 0 := by
  unfold processSlowTagJ
  refine Costs.bindLift fun tag _ => ?_
  split
  · exact Costs.pure
  · split
    · exact Costs.pure
    · split
      · exact costs_processCedTag ..
      · exact Costs.pure

theorem numTags_le {m : MackMessage} {c : Chain} {n : Nat} (h : (Mack.new m c.keySizeBits c.tagSizeBits).numTags = .ok n) : n ≤ 10 := by
  unfold Mack.numTags at h
  obtain ⟨r, hr, h⟩ := Res.bind_eq_ok.1 h
  cases h
  unfold DsmKroot.usub at hr
  split at hr
  · cases hr
    have h1 : 12 ≤ c.keySizeBytes := by
      have := c.hks
      simp only [List.mem_cons, List.not_mem_nil, or_false] at this
      omega
    have h2 : 20 ≤ c.tagSizeBits := by
      have := c.hts
      simp only [List.mem_cons, List.not_mem_nil, or_false] at this
      omega
    show (480 - c.keySizeBytes * 8) / (c.tagSizeBits + 16) ≤ 10
    exact Nat.le_of_lt_succ ((Nat.div_lt_iff_lt_mul (by omega)).2 (by omega))
  · cases hr

theorem costs_processMack (n : CollectNavMessage) (m : MackMessage) (c : Chain) (key : Key) (prna : Svn) (g : Gst) (st : NmaStatus) :
    Costs (processMack S n (Mack.new m c.keySizeBits c.tagSizeBits) key prna g st : W C _) 0 10 0 := by
  unfold processMack
  refine Costs.bindLift fun gn _ => Costs.bindLift fun cop _ => Costs.bindLift fun tag0 _ => ?_
  refine (Costs.bind (h' := 0) (m' := 9) (p' := 0) (costs_processCedTag ..) fun n _ => ?_).mono (by omega) (by omega) (by omega)
  refine Costs.bindLift fun nt hnt => ?_
  have := numTags_le hnt
  refine (Costs.loop _ 0 1 0 (fun s j _ => costs_processTagJ ..) n).mono ?_ ?_ ?_ <;> rw [List.length_range'] <;> omega

theorem costs_processMackSlowmac (n : CollectNavMessage) (m : MackMessage) (c : Chain) (key : Key) (prna : Svn) (g : Gst) (st : NmaStatus) :
    Costs (processMackSlowmac S n (Mack.new m c.keySizeBits c.tagSizeBits) key prna g st : W C _) 0 9 0 := by
  unfold processMackSlowmac
  refine Costs.bindLift fun gn _ => Costs.bindLift fun nt hnt => ?_
  have := numTags_le hnt
  refine (Costs.loop _ 0 1 0 (fun s j _ => costs_processSlowTagJ ..) n).mono ?_ ?_ ?_ <;> rw [List.length_range'] <;> omega

theorem flexPositions_length (l : List MacLTSlot) : ∀ j, (Maclt.flexPositions l j).length ≤ l.length := by
  induction l with
  | nil => intro j; exact Nat.le_refl _
  | cons s ss ih =>
    intro j
    unfold Maclt.flexPositions
    have := ih (j + 1)
    split <;> simp only [List.length_cons] <;> omega

theorem flx_length {maclt msg : Nat} {l : List Nat} (h : Maclt.getFlxIndices maclt msg = .ok (.ok l)) : l.length ≤ 9 := by
  unfold Maclt.getFlxIndices at h
  obtain ⟨_, _, h⟩ := Res.bind_eq_ok.1 h
  split at h
  · cases h
  · rename_i e he
    cases h
    have hm := List.mem_of_find?_eq_some he
    have hl : ∀ e ∈ Maclt.table, e.seq0.length = 9 ∧ e.seq1.length = 9 := by decide
    have := hl e hm
    refine Nat.le_trans (flexPositions_length _ _) ?_
    rw [List.length_take]
    refine Nat.le_trans (Nat.min_le_right ..) ?_
    unfold Maclt.Entry.seq
    split <;> omega

theorem flexInfos_length {m : Mack} (l : List Nat) : ∀ {b : List Byte}, Key.flexInfos m l = .ok b → b.length ≤ 2 * l.length := by
  induction l with
  | nil => intro b h; cases h; exact Nat.le_refl _
  | cons j js ih =>
    intro b h
    unfold Key.flexInfos at h
    split at h
    · split at h
      · rename_i t _ _ rest hrest
        cases h
        have := ih hrest
        rw [List.length_append, packBytes_length]
        have ht : t.tagInfo.length ≤ 16 := by
          unfold TagAndInfo.tagInfo
          rw [List.length_drop]
          omega
        simp only [List.length_cons]
        omega
      · cases h
    · cases h

theorem costs_checkMack (m : Mack) (k : Key) (prna : Svn) (g : Gst) : Costs (checkMack m k prna g : W C _) 0 1 0 := by
  unfold checkMack validateMack
  refine Costs.bindPure (Costs.bindPure ?_ fun r _ => ?_) fun r _ => ?_
  · unfold validateMacseq
    refine Costs.bindLift fun _ _ => Costs.bindLift fun r hr => ?_
    split
    · exact Costs.pure
    · refine Costs.bindLift fun infos hi => Costs.bindPure (costs_mac _ ?_) fun _ _ => Costs.bindLift fun _ _ => ?_
      · have h1 := flexInfos_length _ hi
        have h2 := flx_length hr
        simp only [List.length_append, List.length_cons, Key.storeGst_length]
        omega
      · split <;> exact Costs.pure
  · split
    · exact Costs.pure
    · refine Costs.bindLift fun _ _ => Costs.bindLift fun r _ => ?_
      split <;> exact Costs.pure
  · split <;> exact Costs.pure

end W
end Verif
