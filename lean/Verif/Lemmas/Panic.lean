import Verif.Spec.PanicSpec
import Verif.Lemmas.Kroot
import Verif.Lemmas.KeyInv
import Verif.Lemmas.Maclt
import Verif.Lemmas.OsnmaSteps
import Verif.Lemmas.OsnmaRun
import Verif.Lemmas.NavReach
import Verif.Lemmas.Authentic
import Verif.Lemmas.Dsm
import Verif.Lemmas.MackStorage

/-! # When the calls return -/

namespace Verif
variable {C : Crypto} {S : Storage}

/-! ## Tags -/

theorem Gst.addSeconds_neg_returns {g : Gst} {s : Int} (h0 : 0 ≤ s) (h1 : s < 604800) (h2 : s ≤ g.abs) :
    ∃ g', g.addSeconds (-s) = .ok g' := by
  obtain ⟨gn, hgn⟩ := exists_gst (t := g.abs - s) (by
    have := g.abs_representable; simp only [Representable] at *; omega)
  exact ⟨gn, (Gst.addSeconds_eq_ok (by omega)).2 ⟨by omega, by omega⟩⟩

theorem Key.usable_of {k : Key} {c : Chain} (h : SensibleChains k.chain c) : k.MacUsable := h.1

theorem SensibleChains.flex {c₁ c₂ : Chain} (h : SensibleChains c₁ c₂) {half : Nat} {slots : List Slot}
    (hs : icdSlots c₁.maclt half = some slots) : ∀ j ∈ flexSlots slots, j < c₂.numTags := h.2 half slots hs

/-- `Mack::validate` returns for sensible chains. -/
theorem Mack.validate_returns {k : Key} {c' : Chain} (h : SensibleChains k.chain c') (msg : MackMessage) (prna : Svn)
    (g : Gst) : ∃ r, (mackOf msg c').validate C k prna g = .ok r := by
  unfold validate
  cases hs : icdSlots k.chain.maclt (minuteHalf g) with
  | none =>
    obtain ⟨o, ho, _⟩ := Key.mac_ok (C := C) (k := k) (Key.usable_of h) []
    have : k.validateMacseq C (mackOf msg c') prna g = .ok (.error (.MacLTError .InvalidMaclt)) := by
      unfold Key.validateMacseq
      rw [ho]
      simp only [Res.ok_bind]
      rw [halfMinute_eq, Maclt.getFlxIndices_eq (minuteHalf_cases g)]
      simp [hs]
    rw [this]
    exact ⟨_, rfl⟩
  | some slots =>
    obtain ⟨r, h1, _⟩ := Key.validateMacseq_ok (C := C) (Key.usable_of h) msg c' prna g hs (h.flex hs)
    rw [h1]
    simp only [Res.ok_bind]
    cases r with
    | error e => exact ⟨_, rfl⟩
    | ok u =>
      dsimp only
      rw [numTags_ok]
      simp only [Res.ok_bind]
      obtain ⟨r, h2, _⟩ := validateTags_ok msg k.chain c' prna g hs (js := List.range' 1 (c'.numTags - 1)) (by
        intro j hj
        rw [List.mem_range'_1] at hj; omega)
      rw [h2]
      cases r <;> exact ⟨_, rfl⟩

theorem KeyStore.keyPastChain_has {ks : KeyStore} {g : Gst} {k : Key} (hp : ks.keyPastChain g = some k) : ks.Has k := by
  unfold KeyStore.keyPastChain at hp
  cases hcif : ks.chainInForce with
  | none => rw [hcif] at hp; cases hp
  | some cif =>
    rw [hcif] at hp
    simp only [Option.bind_some] at hp
    have hcur : ks.currentKey = some k → ks.Has k := fun h => (KeyStore.currentKey_some h).1
    split at hp
    · split at hp
      · exact KeyStore.mem_keys.1 (List.mem_of_find?_eq_some hp)
      · exact hcur hp
    · exact hcur hp

namespace OsnmaData

theorem get_returns {d : OsnmaData C} {L : List MackStorage.Slot} (hm : MackStorage.Rep S d.mack L) (svn : Svn) (g : Gst) :
    ∃ r, d.mack.get S svn g = .ok r := by
  rcases MackStorage.get_rep hm svn g with ⟨_, h⟩ | ⟨_, _, h⟩ <;> exact ⟨_, h⟩

theorem processFast_returns {d : OsnmaData C} {key : Key} {g : Gst} {svn : Svn} {L : List MackStorage.Slot}
    (hm : MackStorage.Rep S d.mack L) (ha : g.Aligned) (hg : 30 ≤ g.abs) (hi : CollectNavMessage.Inv S d.navmessage)
    (hc : SensibleChains key.chain key.chain) : ∃ d', processFast S d key g svn = .ok d' := by
  unfold processFast
  by_cases hs : d.onlySlowmac
  · rw [if_pos hs]; exact ⟨_, rfl⟩
  · rw [if_neg hs]
    obtain ⟨r, hr⟩ := get_returns hm svn g
    rw [hr]
    simp only [Res.ok_bind]
    cases r with
    | none => exact ⟨_, rfl⟩
    | some p =>
      obtain ⟨m, st⟩ := p
      dsimp only
      unfold validateMack
      obtain ⟨v, hv⟩ := Mack.validate_returns (C := C) (k := key) hc m svn g
      have hv' := hv
      unfold mackOf at hv'
      rw [hv']
      simp only [Res.ok_bind]
      cases v with
      | error e => exact ⟨_, rfl⟩
      | ok m' =>
        have hm' := Mack.validate_same hv
        subst hm'
        simp only [Res.pure_eq, Res.ok_bind]
        obtain ⟨gnav, hgn⟩ := Gst.addSeconds_neg_returns (g := g) (s := 30) (by omega) (by omega) (by omega)
        have hga : gnav.isSubframe = true := by
          rw [Gst.isSubframe_iff]
          have := ((Gst.addSeconds_eq_ok (by omega)).1 hgn).2
          unfold Gst.Aligned at *
          omega
        rw [CollectNavMessage.processMack_eq (C := C) (S := S) (c := key.chain) (msg := m) (prna := svn) (st := st) (Key.usable_of hc) hgn hga hi.lens hi.okc hi.okt]
        exact ⟨_, rfl⟩

theorem processSlow_returns {d : OsnmaData C} {key : Key} {sk : Option Key} {g : Gst} {svn : Svn} {L : List MackStorage.Slot}
    (hm : MackStorage.Rep S d.mack L) (ha : g.Aligned) (hg : 30 ≤ g.abs) (hi : CollectNavMessage.Inv S d.navmessage)
    (hu : key.MacUsable) (hc : ∀ k, sk = some k → SensibleChains k.chain key.chain) :
    ∃ d', processSlow S d key sk g svn = .ok d' := by
  unfold processSlow
  cases sk with
  | none => exact ⟨_, rfl⟩
  | some sk =>
    dsimp only
    obtain ⟨r, hr⟩ := get_returns hm svn g
    rw [hr]
    simp only [Res.ok_bind]
    cases r with
    | none => exact ⟨_, rfl⟩
    | some p =>
      obtain ⟨m, st⟩ := p
      dsimp only
      unfold validateMack
      obtain ⟨v, hv⟩ := Mack.validate_returns (C := C) (k := sk) (hc sk rfl) m svn g
      have hv' := hv
      unfold mackOf at hv'
      rw [hv']
      simp only [Res.ok_bind]
      cases v with
      | error e => exact ⟨_, rfl⟩
      | ok m' =>
        have hm' := Mack.validate_same hv
        subst hm'
        simp only [Res.pure_eq, Res.ok_bind]
        obtain ⟨gnav, hgn⟩ := Gst.addSeconds_neg_returns (g := g) (s := 30) (by omega) (by omega) (by omega)
        have hga : gnav.isSubframe = true := by
          rw [Gst.isSubframe_iff]
          have := ((Gst.addSeconds_eq_ok (by omega)).1 hgn).2
          unfold Gst.Aligned at *
          omega
        rw [CollectNavMessage.processMackSlowmac_eq (C := C) (S := S) (c := key.chain) (msg := m) (prna := svn) (st := st) hu hgn hga hi.lens hi.okc hi.okt]
        exact ⟨_, rfl⟩

theorem slowmacKey_returns {d : OsnmaData C} {key : Key} (ha : key.gst.Aligned) (hg : 300 ≤ key.gst.abs)
    (hk : ∀ k, d.key.Has k → k.gst.Aligned) :
    ∃ sk, d.slowmacKey key = .ok sk ∧ ∀ k, sk = some k → ∃ k', d.key.Has k' ∧ k'.chain = k.chain := by
  unfold slowmacKey
  obtain ⟨gk, hgk⟩ := Gst.addSeconds_neg_returns (g := key.gst) (s := 300) (by omega) (by omega) (by omega)
  rw [hgk]
  simp only [Res.ok_bind]
  have hgk' := ((Gst.addSeconds_eq_ok (by omega)).1 hgk).2
  cases hp : d.key.keyPastChain gk with
  | none => exact ⟨none, rfl, by simp⟩
  | some k =>
    have hhas : d.key.Has k := KeyStore.keyPastChain_has hp
    have hal := hk k hhas
    have hgal : gk.Aligned := by unfold Gst.Aligned at *; omega
    dsimp only
    rw [Gst.subframesDifference_aligned hal hgal]
    simp only [Res.ok_bind]
    by_cases hge : 0 ≤ (k.gst.abs - gk.abs) / 30
    · obtain ⟨n, hn⟩ := Int.eq_ofNat_of_zero_le hge
      have hr := gk.abs_representable
      simp only [Representable] at hr
      obtain ⟨k', hk'⟩ := Key.derive_returns (C := C) (k := k) (n := n) (by
        unfold Gst.Aligned at hal hgal
        omega)
      rw [hn, if_pos (Int.natCast_nonneg n), Int.toNat_natCast, hk']
      refine ⟨some k', rfl, ?_⟩
      intro x hx
      cases hx
      exact ⟨k, hhas, (Key.derive_gst hk').1.symm⟩
    · rw [if_neg hge]
      exact ⟨none, rfl, by simp⟩

theorem processTags_returns {d : OsnmaData C} {key : Key} {L : List MackStorage.Slot}
    (hm : MackStorage.Rep S d.mack L) (ha : key.gst.Aligned) (hg : 360 ≤ key.gst.abs) (hi : CollectNavMessage.Inv S d.navmessage)
    (hk : ∀ k, d.key.Has k → k.gst.Aligned) (hc : SensibleChains key.chain key.chain)
    (hc' : ∀ k, d.key.Has k → SensibleChains k.chain key.chain) :
    ∃ d', processTags S d key = .ok d' := by
  unfold processTags
  obtain ⟨g1, h1⟩ := Gst.addSeconds_neg_returns (g := key.gst) (s := 30) (by omega) (by omega) (by omega)
  have h1' := ((Gst.addSeconds_eq_ok (by omega)).1 h1).2
  obtain ⟨g2, h2⟩ := Gst.addSeconds_neg_returns (g := g1) (s := 300) (by omega) (by omega) (by omega)
  have h2' := ((Gst.addSeconds_eq_ok (by omega)).1 h2).2
  obtain ⟨sk, h3, h4⟩ := slowmacKey_returns (C := C) ha (by omega) hk
  rw [h1]
  simp only [Res.ok_bind]
  rw [h2]
  simp only [Res.ok_bind]
  rw [h3]
  simp only [Res.ok_bind]
  have a1 : g1.Aligned := by unfold Gst.Aligned at *; omega
  have a2 : g2.Aligned := by unfold Gst.Aligned at *; omega
  obtain ⟨s', h5, _⟩ := loopM_returns (as := Svn.iter) (s := d)
    (f := fun d svn => (do
      let d ← processFast S d key g1 svn
      processSlow S d key sk g2 svn : Res (OsnmaData C)))
    (P := fun s => s.mack = d.mack ∧ CollectNavMessage.Inv S s.navmessage) ⟨rfl, hi⟩ (by
      intro svn _ s ⟨e1, e2⟩
      obtain ⟨s1, f1⟩ := processFast_returns (S := S) (d := s) (key := key) (g := g1) (svn := svn) (by rw [e1]; exact hm) a1 (by omega) e2 hc
      have f2 := processFast_of_ok a1 e2 f1
      have f3 : s1.mack = d.mack := by rw [f2]; exact e1
      have f4 : CollectNavMessage.Inv S s1.navmessage := by rw [f2]; exact CollectNavMessage.useGains_inv e2 _ _
      obtain ⟨s2, f5⟩ := processSlow_returns (S := S) (d := s1) (key := key) (sk := sk) (g := g2) (svn := svn) (by rw [f3]; exact hm) a2 (by omega) f4
        (Key.usable_of hc) (by
          intro k hk
          obtain ⟨k', b1, b2⟩ := h4 k hk
          rw [← b2]; exact hc' k' b1)
      have f6 := processSlow_of_ok a2 f4 f5
      refine ⟨s2, ?_, ?_, ?_⟩
      · rw [f1]; exact f5
      · rw [f6]; exact f3
      · rw [f6]; exact CollectNavMessage.useGains_inv f4 _ _)
  exact ⟨s', h5⟩

theorem _root_.Verif.SensibleLog.keys {log : List (KeyEvent C)} (h : SensibleLog log) {k k' : Key} (hk : RootedKey log k)
    (hk' : RootedKey log k') : SensibleChains k.chain k'.chain := by
  obtain ⟨_, _, _, kr, _, _, h1, h2, _⟩ := hk
  obtain ⟨_, _, _, kr', _, _, h1', h2', _⟩ := hk'
  rw [← h2, ← h2']
  exact h _ _ _ _ _ _ _ _ _ _ h1 h1'

theorem validateKey_returns {root0 : Option MerkleTreeNode} {pk0 : Option (PublicKey C)} {log : List (KeyEvent C)}
    {d : OsnmaData C} {m : MackMessage} {g : Gst} {L : List MackStorage.Slot}
    (inv : KeyInv root0 pk0 log d.merkleTree d.pubkey d.key) (hs : SensibleLog log)
    (hm : MackStorage.Rep S d.mack L) (ha : g.Aligned) (hg : 360 ≤ g.abs) (hi : CollectNavMessage.Inv S d.navmessage) :
    ∃ d', d.validateKey S m g = .ok d' := by
  unfold validateKey
  cases hcur : d.key.currentKey with
  | none => exact ⟨_, rfl⟩
  | some cur =>
    obtain ⟨hhas, cif, hcif, hid⟩ := KeyStore.currentKey_some hcur
    obtain ⟨hcal, hroot⟩ := inv.krooted cur hhas
    dsimp only
    have hk := Mack.key_ok m cur.chain
    unfold mackOf at hk
    rw [hk]
    simp only [Res.ok_bind]
    have hfb : Key.fromBitslice (((bitsOf m.val).drop (cur.chain.numTags * (cur.chain.tagSizeBits + 16))).take (8 * cur.chain.keySizeBytes)) g cur.chain
        = .ok (mackKey m cur.chain g) := by
      unfold Key.fromBitslice Key.checkGst
      rw [(Gst.isSubframe_iff g).2 ha, Mack.key_length]
      simp only [Res.assert_true, Res.ok_bind]
      rw [show (8 * cur.chain.keySizeBytes == cur.chain.keySizeBytes * 8) = true by rw [Nat.mul_comm]; exact beq_self_eq_true _]
      rfl
    rw [hfb]
    simp only [Res.ok_bind]
    split
    · exact ⟨_, rfl⟩
    · exact ⟨_, rfl⟩
    · have hal' : (mackKey m cur.chain g).gst.Aligned := ha
      obtain ⟨r, hr, _⟩ := C23_validate_key_exact (C := C) cur (mackKey m cur.chain g) hcal hal'
      rw [hr]
      simp only [Res.ok_bind]
      cases r with
      | error e => exact ⟨_, rfl⟩
      | ok v =>
        have hv := Key.validateKey_same hr
        subst hv
        dsimp only
        obtain ⟨ks, hks⟩ := KeyStore.storeKey_returns (key := mackKey m cur.chain g) hhas rfl
        rw [hks]
        simp only [Res.ok_bind]
        obtain ⟨k1, _, _⟩ := KeyStore.storeKey_spec inv.kdist hks
        have hch : (mackKey m cur.chain g).chain = cur.chain := rfl
        refine processTags_returns (L := L) hm ha hg hi ?_ ?_ ?_
        · intro k hk
          rcases (k1 k).1 hk with ⟨h1, _⟩ | rfl
          · exact (inv.krooted k h1).1
          · exact ha
        · rw [hch]; exact hs.keys hroot hroot
        · intro k hk
          rw [hch]
          rcases (k1 k).1 hk with ⟨h1, _⟩ | rfl
          · exact hs.keys (inv.krooted k h1).2 hroot
          · have := hs.keys hroot hroot
            exact this

/-! ## DSM -/

end OsnmaData

/-- `Key::from_dsm_kroot` returns exactly for the harmless messages. -/
theorem Key.fromDsmKroot_returns_iff {h : NmaHeader} {d : DsmKroot} {pk : PublicKey C} (hl : 13 ≤ d.data.length) :
    (∃ r, fromDsmKroot C h d pk = .ok r) ↔ HarmlessKroot C pk.key h d.data := by
  rw [fromDsmKroot_unfold]
  obtain ⟨r, h1, h2⟩ := Chain.fromDsmKroot_returns hl
  rw [h1]
  simp only [Res.ok_bind]
  unfold HarmlessKroot
  cases r with
  | error e =>
    simp only [Res.pure_eq, Res.ok.injEq, exists_eq', true_iff]
    intro a1 a2 a3 n a4
    have := h2.2 ⟨a1, a2, by rw [a4]; rfl, a3⟩
    obtain ⟨c, hc⟩ := this
    cases hc
  | ok c =>
    obtain ⟨a1, a2, a3, a4⟩ := h2.1 ⟨c, rfl⟩
    obtain ⟨e1, e2, e3, e4, e5, e6, e7, e8⟩ := Chain.fromDsmKroot_ok h1
    dsimp only
    have hn := e4
    constructor
    · rintro ⟨r, hr⟩ _ _ _ n hn'
      rw [hn] at hn'
      cases hn'
      obtain ⟨b, hb, hr⟩ := Res.bind_eq_ok.1 hr
      obtain ⟨f, n, hf, hn'⟩ := DsmKroot.checkPadding_function hb
      rw [hn] at hn'
      cases hn'
      obtain ⟨n', f1, f2, f3, f4⟩ := DsmKroot.ecdsaFunction_eq_ok.1 hf
      rw [hn] at f1; cases f1
      refine ⟨f, f2, f3, f4, ?_⟩
      intro hp
      rw [DsmKroot.checkPadding_of hf hn] at hb
      simp only [hp, decide_true, Res.ok.injEq] at hb
      subst hb
      simp only [Bool.not_true, Bool.false_eq_true, if_false, hf, Res.ok_bind] at hr
      obtain ⟨v, hv, hr⟩ := Res.bind_eq_ok.1 hr
      constructor
      · rcases pk with ⟨key, id⟩
        unfold sigVerdict at hv
        cases key with
        | P256 key =>
          cases f with
          | P256Sha256 =>
            dsimp only at hv
            rw [DsmKroot.checkSignatureP256_of hf hn] at hv
            simp only [SignatureDecodes, icdSigBytes]
            cases hq : C.p256SigOk (byteField d.data (13 + c.keySizeBytes) 64) with
            | false => simp [hq] at hv
            | true => rfl
          | P521Sha512 => trivial
        | P521 key =>
          cases f with
          | P256Sha256 => trivial
          | P521Sha512 =>
            dsimp only at hv
            simp only [SignatureDecodes, icdSigBytes]
            intro hp5
            rw [if_pos hp5, DsmKroot.checkSignatureP521_of hf hn] at hv
            cases hq : C.p521SigOk (byteField d.data (13 + c.keySizeBytes) 132) with
            | false => simp [hq] at hv
            | true => rfl
      · intro hsig
        rw [(sigVerdict_none hf hn).2 hsig] at hv
        cases hv
        dsimp only at hr
        obtain ⟨k, hk, _⟩ := Res.bind_eq_ok.1 hr
        exact ((krootKey_eq_ok hn (by omega)).1 hk).1
    · intro hh
      obtain ⟨f, f2, f3, f4, hq⟩ := hh a1 a2 a4 _ hn
      have hf : d.ecdsaFunction = .ok f := DsmKroot.ecdsaFunction_eq_ok.2 ⟨_, hn, f2, f3, f4⟩
      rw [DsmKroot.checkPadding_of hf hn]
      simp only [Res.ok_bind]
      by_cases hp : d.data.drop (13 + c.keySizeBytes + icdSigBytes f) =
        (C.sha256 (signedMessage h d.data c.keySizeBytes ++ byteField d.data (13 + c.keySizeBytes) (icdSigBytes f))).take
          (d.data.length - (13 + c.keySizeBytes + icdSigBytes f))
      case neg => simp [hp]
      obtain ⟨q1, q2⟩ := hq hp
      simp only [hp, decide_true, Bool.not_true, Bool.false_eq_true, if_false, hf, Res.ok_bind]
      obtain ⟨v, hv⟩ : ∃ v, sigVerdict C h d pk f = .ok v := by
        rcases pk with ⟨key, id⟩
        unfold sigVerdict
        cases key with
        | P256 key =>
          cases f with
          | P256Sha256 =>
            dsimp only
            rw [DsmKroot.checkSignatureP256_of hf hn]
            simp only [SignatureDecodes, icdSigBytes] at q1
            rw [q1]
            simp only [Res.assert_true, Res.ok_bind, Res.pure_eq]
            split <;> exact ⟨_, rfl⟩
          | P521Sha512 => exact ⟨_, rfl⟩
        | P521 key =>
          cases f with
          | P256Sha256 => exact ⟨_, rfl⟩
          | P521Sha512 =>
            dsimp only
            by_cases hp5 : C.p521 = true
            · rw [if_pos hp5]
              rw [DsmKroot.checkSignatureP521_of hf hn]
              simp only [SignatureDecodes, icdSigBytes] at q1
              rw [q1 hp5]
              simp only [Res.assert_true, Res.ok_bind, Res.pure_eq]
              split <;> exact ⟨_, rfl⟩
            · rw [if_neg hp5]; exact ⟨_, rfl⟩
      rw [hv]
      simp only [Res.ok_bind]
      cases v with
      | some e => exact ⟨_, rfl⟩
      | none =>
        dsimp only
        have ht := q2 ((sigVerdict_none hf hn).1 hv)
        obtain ⟨g, hg⟩ := exists_gst (t := (bitField d.data 36 12 : Int) * 604800 + (bitField d.data 48 8 : Int) * 3600 - 30) (by
          have := bitField_lt d.data 36 12
          obtain ⟨t1, t2⟩ := ht
          simp only [Representable]
          omega)
        rw [(krootKey_eq_ok (k := ⟨padData (byteField d.data 13 c.keySizeBytes), c, g⟩) hn (by omega)).2 ⟨ht, rfl, rfl, hg⟩]
        exact ⟨_, rfl⟩

/-- `validate_pkr` returns exactly for the harmless messages. -/
theorem Merkle.validatePkr_returns_iff {root : MerkleTreeNode} {d : DsmPkr} (hl : 169 ≤ d.data.length) :
    (∃ r, validatePkr C root d = .ok r) ↔ HarmlessPkr C root.val d.data := by
  have hvr : ∀ s, icdPkrKeyBytes (bitField d.data 1032 4) (bitField d.data 0 4) = some s → 130 + s ≤ d.data.length →
      ¬ MerkleProof C root.val d.data (byteField d.data 129 (1 + s)) → validate C root d = .ok (.error .Invalid) := by
    intro s hs hls hn
    unfold validate
    rw [DsmPkr.merkleTreeLeaf_eq_ok.2 ⟨by omega, .inr ⟨s, hs, hls, rfl⟩⟩]
    simp only [Res.ok_bind]
    rw [DsmPkr.messageId_ok (by omega)]
    simp only [Res.ok_bind]
    rw [climb_ok (by omega) _ _ _ _ (by omega)]
    simp only [Res.ok_bind]
    exact if_neg hn
  have hvp : ∀ s, icdPkrKeyBytes (bitField d.data 1032 4) (bitField d.data 0 4) = some s →
      (∃ r, validate C root d = .ok r) → 130 + s ≤ d.data.length := by
    rintro s hs ⟨r, hr⟩
    unfold validate at hr
    obtain ⟨lf, h1, _⟩ := Res.bind_eq_ok.1 hr
    obtain ⟨_, h3⟩ := DsmPkr.merkleTreeLeaf_eq_ok.1 h1
    rcases h3 with ⟨h4, _⟩ | ⟨s', h4, h5, _⟩
    · rw [hs] at h4; cases h4
    · rw [hs] at h4; cases h4; exact h5
  unfold validatePkr HarmlessPkr
  rw [DsmPkr.newPublicKeyType_ok (by omega)]
  simp only [Res.ok_bind]
  by_cases h1 : bitField d.data 1032 4 = 1
  · have hs : icdPkrKeyBytes (bitField d.data 1032 4) (bitField d.data 0 4) = some 33 := by
      unfold icdPkrKeyBytes; rw [if_pos h1]
    have ht : DsmPkr.typeOf (bitField d.data 1032 4) = .EcdsaKey .P256Sha256 := by rw [h1]; rfl
    rw [ht]
    dsimp only
    by_cases hp : MerkleProof C root.val d.data (byteField d.data 129 34)
    · rw [validate_eq_ok.2 ⟨33, hs, by omega, hp⟩]
      simp only [Res.ok_bind]
      unfold pubkeyFromPkr
      rw [DsmPkr.newPublicKey_ok (by omega) hs (by omega), DsmPkr.newPublicKeyType_ok (by omega), ht]
      simp only [Res.ok_bind, Res.unwrap_some]
      rw [DsmPkr.newPublicKeyId_ok (by omega)]
      cases hk : C.p256FromSec1 (byteField d.data 130 33) with
      | none => simp [hp, h1]
      | some k => simp [h1]
    · rw [hvr 33 hs (by omega) hp]
      simp [hp, h1]
  · by_cases h3 : bitField d.data 1032 4 = 3
    · have hs : icdPkrKeyBytes (bitField d.data 1032 4) (bitField d.data 0 4) = some 67 := by
        unfold icdPkrKeyBytes; rw [if_neg (by omega), if_pos h3]
      have ht : DsmPkr.typeOf (bitField d.data 1032 4) = .EcdsaKey .P521Sha512 := by rw [h3]; rfl
      rw [ht]
      dsimp only
      by_cases hlen : 197 ≤ d.data.length
      · by_cases hp : MerkleProof C root.val d.data (byteField d.data 129 68)
        · rw [validate_eq_ok.2 ⟨67, hs, by omega, hp⟩]
          simp only [Res.ok_bind]
          unfold pubkeyFromPkr
          rw [DsmPkr.newPublicKey_ok (by omega) hs (by omega), DsmPkr.newPublicKeyType_ok (by omega), ht]
          simp only [Res.ok_bind, Res.unwrap_some]
          rw [DsmPkr.newPublicKeyId_ok (by omega)]
          by_cases h5 : C.p521 = true
          · cases hk : C.p521FromSec1 (byteField d.data 130 67) with
            | none => simp [hp, h3, h5]
            | some k => simp [h3, h5, hlen]
          · simp [h3, h5, hlen]
        · rw [hvr 67 hs (by omega) hp]
          simp [hp, h3, hlen]
      · simp only [h3, hlen, false_and, imp_false, not_true_eq_false, and_false, iff_false]
        rintro ⟨r, hr⟩
        obtain ⟨v, hv, _⟩ := Res.bind_eq_ok.1 hr
        have := hvp 67 hs ⟨v, hv⟩
        omega
    · simp only [h1, h3, false_implies, and_self, iff_true]
      unfold DsmPkr.typeOf
      split
      · rename_i hh
        split at hh <;> simp_all
      · exact ⟨_, rfl⟩

/-- `validate_alert_message` returns on complete messages. -/
theorem Merkle.validateAlert_returns {root : MerkleTreeNode} {d : DsmPkr} (hl : 169 ≤ d.data.length)
    (hnb : ∀ s, icdPkrKeyBytes 4 (bitField d.data 0 4) = some s → 130 + s ≤ d.data.length) :
    ∃ r, validateAlertMessage C root d = .ok r := by
  unfold validateAlertMessage
  rw [DsmPkr.newPublicKeyType_ok (by omega)]
  simp only [Res.ok_bind]
  split
  · rename_i hh
    have h4 : bitField d.data 1032 4 = 4 := by
      unfold DsmPkr.typeOf at hh
      split at hh <;> simp_all
    unfold validate
    obtain ⟨r, hr⟩ : ∃ r, d.merkleTreeLeaf = .ok r := by
      cases hk : icdPkrKeyBytes (bitField d.data 1032 4) (bitField d.data 0 4) with
      | none => exact ⟨_, DsmPkr.merkleTreeLeaf_eq_ok.2 ⟨by omega, .inl ⟨hk, rfl⟩⟩⟩
      | some s => exact ⟨_, DsmPkr.merkleTreeLeaf_eq_ok.2 ⟨by omega, .inr ⟨s, hk, hnb s (by rw [h4] at hk; exact hk), rfl⟩⟩⟩
    rw [hr]
    simp only [Res.ok_bind]
    cases r with
    | none => exact ⟨_, rfl⟩
    | some leaf =>
      dsimp only
      rw [DsmPkr.messageId_ok (by omega)]
      simp only [Res.ok_bind]
      rw [climb_ok (by omega) _ _ _ _ (by omega)]
      simp only [Res.ok_bind]
      split <;> exact ⟨_, rfl⟩
  · exact ⟨_, rfl⟩

theorem PubkeyStore.applicable_of_has {p : PubkeyStore C} (hw : p.Wf) {k : PublicKey C} (hk : p.Has k) :
    p.applicable k.pkid = .ok (some k) := by
  unfold applicable
  rw [hw.check]
  simp only [Res.ok_bind]
  rcases hk with hk | hk
  · rw [hk]
    dsimp only
    rw [if_pos rfl]; rfl
  · obtain ⟨c, hc, hlt⟩ := hw k hk
    rw [hc, hk]
    dsimp only
    rw [if_neg (by omega), if_pos rfl]; rfl

theorem OsnmaData.processDsm_returns_iff {d : OsnmaData C} {x : Dsm} {h : NmaHeader} {g : Gst} (hw : d.pubkey.Wf)
    (hlk : x.dsmType = .Kroot → 13 ≤ x.data.length)
    (hlp : x.dsmType = .Pkr → 169 ≤ x.data.length ∧ x.data.length = 13 * (bitField x.data 0 4 + 6)) :
    (∃ d', d.processDsm x h g = .ok d') ↔ HarmlessDsm d.pubkey.current d.pubkey.next d.merkleTree h x := by
  unfold processDsm HarmlessDsm
  cases ht : x.dsmType with
  | Kroot =>
    dsimp only
    have hl := hlk ht
    unfold processDsmKroot
    have hid : DsmKroot.publicKeyId ⟨x.data⟩ = .ok (bitField x.data 4 4) := by
      unfold DsmKroot.publicKeyId
      rw [field_ok (by omega) (by dsimp only; omega)]
    rw [hid]
    simp only [Res.ok_bind]
    obtain ⟨r, hr⟩ := PubkeyStore.applicable_returns hw (bitField x.data 4 4)
    rw [hr]
    simp only [Res.ok_bind]
    cases r with
    | none =>
      simp only [Res.pure_eq, Res.ok.injEq, exists_eq', true_iff]
      intro pk hpk he
      have := PubkeyStore.applicable_of_has hw hpk
      rw [he, hr] at this
      cases this
    | some pk =>
      dsimp only
      obtain ⟨hhas, he⟩ := PubkeyStore.applicable_some hr
      constructor
      · rintro ⟨d', hd'⟩ pk' hpk' he'
        have := PubkeyStore.applicable_of_has hw hpk'
        rw [he', hr] at this
        cases this
        obtain ⟨v, hv, _⟩ := Res.bind_eq_ok.1 hd'
        exact (Key.fromDsmKroot_returns_iff hl).1 ⟨v, hv⟩
      · intro hh
        obtain ⟨v, hv⟩ := (Key.fromDsmKroot_returns_iff (d := ⟨x.data⟩) hl).2 (hh pk hhas he)
        rw [hv]
        simp only [Res.ok_bind]
        cases v with
        | error e => exact ⟨_, rfl⟩
        | ok v =>
          obtain ⟨p', hp'⟩ := PubkeyStore.makeCurrent_returns hw hhas
          rw [he] at hp'
          dsimp only
          rw [hp']
          exact ⟨_, rfl⟩
  | Pkr =>
    dsimp only
    obtain ⟨hl, hn⟩ := hlp ht
    unfold processDsmPkr
    rw [DsmPkr.newPublicKeyType_ok (by dsimp only; omega)]
    simp only [Res.ok_bind]
    by_cases hv : bitField x.data 1032 4 = 1 ∨ bitField x.data 1032 4 = 3
    · obtain ⟨f, hf⟩ : ∃ f, DsmPkr.typeOf (bitField x.data 1032 4) = .EcdsaKey f := by
        rcases hv with hv | hv <;> rw [hv] <;> exact ⟨_, rfl⟩
      rw [hf]
      dsimp only
      unfold processDsmPkrNpk
      cases hroot : d.merkleTree with
      | none => simp
      | some root =>
        dsimp only
        rw [show (∀ r, some root = some r → HarmlessPkr C r.val x.data) ↔ HarmlessPkr C root.val x.data by simp,
          ← Merkle.validatePkr_returns_iff (d := ⟨x.data⟩) hl]
        constructor
        · rintro ⟨d', hd'⟩
          obtain ⟨v, hv, _⟩ := Res.bind_eq_ok.1 hd'
          exact ⟨v, hv⟩
        · rintro ⟨v, hv⟩
          rw [hv]
          simp only [Res.ok_bind]
          cases v with
          | error e => exact ⟨_, rfl⟩
          | ok k =>
            obtain ⟨p', hp'⟩ := PubkeyStore.storeNew_returns hw k
            dsimp only
            rw [hp']
            exact ⟨_, rfl⟩
    · have hr : ∀ r, d.merkleTree = some r → HarmlessPkr C r.val x.data := by
        intro r _
        exact ⟨fun h => absurd (.inl h) hv, fun h => absurd (.inr h) hv⟩
      refine iff_of_true ?_ hr
      split
      · rename_i f hf
        exfalso
        unfold DsmPkr.typeOf at hf
        split at hf <;> simp_all
      · unfold processDsmPkrAlert
        cases hroot : d.merkleTree with
        | none => exact ⟨_, rfl⟩
        | some root =>
          dsimp only
          obtain ⟨v, hv⟩ := Merkle.validateAlert_returns (C := C) (root := root) (d := ⟨x.data⟩) hl (by
            intro s hs
            unfold icdPkrKeyBytes at hs
            simp only [show ¬ (4 = 1) by omega, show ¬ (4 = 3) by omega, if_false, true_and] at hs
            split at hs
            · rename_i hb
              have hs' := Option.some.inj hs
              dsimp only at hs' hb ⊢
              omega
            · exact absurd hs (by simp))
          rw [hv]
          simp only [Res.ok_bind]
          cases v <;> exact ⟨_, rfl⟩
      · exact ⟨_, rfl⟩

/-! ## The collectors -/

theorem DsmHeader.type_eq (h : DsmHeader) : h.dsmType = if 12 ≤ h.dsmId then .Pkr else .Kroot := rfl

theorem bitField_head {data : List Byte} (h : data ≠ []) : bitField data 0 4 = (data.headD 0).toNat / 16 := by
  cases data with
  | nil => exact absurd rfl h
  | cons b t =>
    simp only [bitField, List.drop_zero, List.headD_cons]
    have : (bitsOf (b :: t)).take 4 = (byteBits b).take 4 := by
      rw [bitsOf_cons, List.take_append_of_le_length (by simp)]
    rw [this]
    exact (by decide +kernel : ∀ b : Byte, loadBe ((byteBits b).take 4) = b.toNat / 16) b

theorem CollectDsm.feedBlocks_snoc {c c1 c2 : CollectDsm} {ps : List DsmCall} {outs : List (Option Dsm)} {p : DsmCall}
    {out : Option Dsm} (h : feedBlocks c ps = .ok (c1, outs)) (h' : c1.feed p.header p.block = .ok (c2, out)) :
    feedBlocks c (ps ++ [p]) = .ok (c2, outs ++ [out]) := by
  induction ps generalizing c outs with
  | nil =>
    simp only [feedBlocks, Res.ok.injEq, Prod.mk.injEq] at h
    obtain ⟨rfl, rfl⟩ := h
    simp only [List.nil_append, feedBlocks, h']
  | cons q ps ih =>
    simp only [feedBlocks, List.cons_append] at h ⊢
    cases hq : c.feed q.header q.block with
    | panic w => rw [hq] at h; cases h
    | ok x =>
      obtain ⟨s', o⟩ := x
      rw [hq] at h
      dsimp only at h ⊢
      cases hr : feedBlocks s' ps with
      | panic w => rw [hr] at h; cases h
      | ok y =>
        obtain ⟨s'', os⟩ := y
        rw [hr] at h
        simp only [Res.ok.injEq, Prod.mk.injEq] at h
        obtain ⟨rfl, rfl⟩ := h
        rw [ih hr]
        rfl

/-- The DSM collector of a reachable state has been fed some blocks. -/
theorem blocks_run {o0 : Osnma C} (h0 : o0.Fresh S) {hist : List Call} {o : Osnma C} (h : run S o0 hist = .ok o) :
    ∃ bs outs, feedBlocks .new bs = .ok (o.data.dsm, outs) := by
  refine run_induction (P := fun _ o => ∃ bs outs, feedBlocks .new bs = .ok (o.data.dsm, outs)) ?_ ?_ h
  · rcases h0 with ⟨_, _, _, rfl⟩ | ⟨_, _, rfl⟩ <;> exact ⟨[], [], rfl⟩
  · intro hist o c o' hrun ⟨bs, outs, ih⟩ hc
    cases c with
    | inav w s g b =>
      obtain ⟨n, _, he⟩ := feedInav_of_ok (c := ⟨w, s, g, b⟩) hc
      subst he
      exact ⟨bs, outs, ih⟩
    | osnma d s g =>
      rcases Osnma.feedOsnma_of_ok hc with ⟨hz, rfl⟩ | ⟨hz, ⟨sf, hf, rfl⟩ | ⟨⟨c⟩⟩⟩
      · exact ⟨bs, outs, ih⟩
      · exact ⟨bs, outs, ih⟩
      · have e1 : o'.data.dsm = c.dsm := congrArg (fun x => x.data.dsm) c.ho
        rw [e1]
        have h2 := CollectDsm.feedBlocks_snoc (p := DsmCall.mk ⟨c.b1⟩ c.block) ih c.hdsm
        exact ⟨_, _, h2⟩

end Verif
