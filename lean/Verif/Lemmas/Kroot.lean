import Verif.Lemmas.Bitfields
import Verif.Spec.PanicSpec

/-! # Lemmas on `Key::from_dsm_kroot` -/

namespace Verif
variable {C : Crypto}

namespace DsmKroot
variable {d : DsmKroot}

/-- `check_padding` compares the padding with the truncated hash of signed message and signature. -/
theorem checkPadding_of {f : EcdsaFunction} {n : Nat} {h : NmaHeader} (hf : d.ecdsaFunction = .ok f)
    (hn : icdKeyBytes (bitField d.data 16 4) = some n) :
    d.checkPadding C h = .ok (decide (d.data.drop (13 + n + icdSigBytes f) =
      (C.sha256 (signedMessage h d.data n ++ byteField d.data (13 + n) (icdSigBytes f))).take
        (d.data.length - (13 + n + icdSigBytes f)))) := by
  obtain ⟨n', h1, h2, h3, h4⟩ := ecdsaFunction_eq_ok.1 hf
  rw [hn] at h1; cases h1
  unfold checkPadding
  rw [signatureMessage_of (by omega) hn, digitalSignature_of hf hn, padding_of hf hn]
  simp only [Res.ok_bind]
  rw [slice_ok (by omega) (by rw [C.sha256_len, List.length_drop]; omega)]
  simp only [Res.ok_bind, Res.pure_eq, Res.ok.injEq, List.drop_zero, Nat.sub_zero, List.length_drop]
  rw [Bool.eq_iff_iff, beq_iff_eq, decide_eq_true_iff]
  exact eq_comm

/-- `check_padding` only returns if the curve is recognised. -/
theorem checkPadding_function {h : NmaHeader} {b : Bool} (hc : d.checkPadding C h = .ok b) :
    ∃ f n, d.ecdsaFunction = .ok f ∧ icdKeyBytes (bitField d.data 16 4) = some n := by
  unfold checkPadding at hc
  obtain ⟨m, _, hc⟩ := Res.bind_eq_ok.1 hc
  obtain ⟨sg, h1, _⟩ := Res.bind_eq_ok.1 hc
  unfold digitalSignature at h1
  obtain ⟨f, h2, _⟩ := Res.bind_eq_ok.1 h1
  obtain ⟨n, h3, _⟩ := ecdsaFunction_eq_ok.1 h2
  exact ⟨f, n, h2, h3⟩

theorem checkSignatureP256_of {n : Nat} {h : NmaHeader} (hf : d.ecdsaFunction = .ok .P256Sha256)
    (hn : icdKeyBytes (bitField d.data 16 4) = some n) (k : C.P256Key) :
    d.checkSignatureP256 C h k =
      (do Res.assert (C.p256SigOk (byteField d.data (13 + n) 64)) "error serializing ECDSA signature"
          pure (C.p256Verify k (signedMessage h d.data n) (byteField d.data (13 + n) 64))) := by
  obtain ⟨n', h1, h2, h3, h4⟩ := ecdsaFunction_eq_ok.1 hf
  rw [hn] at h1; cases h1
  unfold checkSignatureP256
  rw [hf]
  simp only [Res.ok_bind, beq_self_eq_true, Res.assert_true]
  rw [signatureMessage_of (by omega) hn, digitalSignature_of hf hn]
  rfl

theorem checkSignatureP521_of {n : Nat} {h : NmaHeader} (hf : d.ecdsaFunction = .ok .P521Sha512)
    (hn : icdKeyBytes (bitField d.data 16 4) = some n) (k : C.P521Key) :
    d.checkSignatureP521 C h k =
      (do Res.assert (C.p521SigOk (byteField d.data (13 + n) 132)) "error serializing ECDSA signature"
          pure (C.p521Verify k (signedMessage h d.data n) (byteField d.data (13 + n) 132))) := by
  obtain ⟨n', h1, h2, h3, h4⟩ := ecdsaFunction_eq_ok.1 hf
  rw [hn] at h1; cases h1
  unfold checkSignatureP521
  rw [hf]
  simp only [Res.ok_bind, beq_self_eq_true, Res.assert_true]
  rw [signatureMessage_of (by omega) hn, digitalSignature_of hf hn]
  rfl

end DsmKroot

namespace Key

/-- The verdict on the signature in `Key::from_dsm_kroot` (`tesla.rs:601-615`). -/
def sigVerdict (C : Crypto) (h : NmaHeader) (d : DsmKroot) (pk : PublicKey C) (f : EcdsaFunction) :
    Res (Option KrootValidationError) :=
  match pk.key, f with
  | .P256 key, .P256Sha256 => do
    if !(← d.checkSignatureP256 C h key) then pure (some .WrongEcdsa) else pure none
  | .P521 key, .P521Sha512 =>
    if C.p521 then do
      if !(← d.checkSignatureP521 C h key) then pure (some .WrongEcdsa) else pure none
    else pure (some .WrongEcdsaKeyType)
  | _, _ => pure (some .WrongEcdsaKeyType)

/-- The rest of `Key::from_dsm_kroot` once the signature is verified (`tesla.rs:616-623`). -/
def krootKey (d : DsmKroot) (chain : Chain) : Res Key := do
  let wn ← d.krootWn
  let towh ← d.krootTowh
  let gst ← if hwn : wn < 65536 then Gst.new wn (towh * 3600) hwn else .panic "unreachable"
  checkGst gst
  let gst ← gst.addSeconds (-30)
  let kroot ← d.kroot
  fromSlice kroot gst chain

theorem fromDsmKroot_unfold (h : NmaHeader) (d : DsmKroot) (pk : PublicKey C) :
    fromDsmKroot C h d pk = (do
      match ← Chain.fromDsmKroot d with
      | .error e => pure (.error (.WrongDsmKrootChain e))
      | .ok chain =>
        if !(← d.checkPadding C h) then pure (.error .WrongDsmKrootPadding)
        else do
          let f ← d.ecdsaFunction
          match ← sigVerdict C h d pk f with
          | some e => pure (.error e)
          | none => do
            let key ← krootKey d chain
            pure (.ok (key, h))) := by
  unfold fromDsmKroot
  congr 1
  funext r
  cases r with
  | error e => rfl
  | ok chain =>
    dsimp only
    congr 1
    funext b
    cases b with
    | false => rfl
    | true =>
      simp only [Bool.not_true, Bool.false_eq_true, if_false]
      congr 1
      funext f
      have hk : ∀ hh, (do
          let wn ← d.krootWn
          let towh ← d.krootTowh
          let gst ← if hwn : wn < 65536 then Gst.new wn (towh * 3600) hwn else .panic "unreachable"
          checkGst gst
          let gst ← gst.addSeconds (-30)
          let kroot ← d.kroot
          let key ← fromSlice kroot gst chain
          pure (.ok (key, hh)) : Res (Except KrootValidationError (Key × NmaHeader)))
          = (do let key ← krootKey d chain; pure (.ok (key, hh))) := by
        intro hh
        unfold krootKey
        cases d.krootWn with
        | panic w => rfl
        | ok wn =>
        simp only [Res.ok_bind]
        cases d.krootTowh with
        | panic w => rfl
        | ok towh =>
        simp only [Res.ok_bind]
        by_cases hw : wn < 65536
        case neg => rw [dif_neg hw, dif_neg hw]; rfl
        rw [dif_pos hw, dif_pos hw]
        cases Gst.new wn (towh * 3600) hw with
        | panic w => rfl
        | ok g =>
        simp only [Res.ok_bind]
        cases checkGst g with
        | panic w => rfl
        | ok u =>
        simp only [Res.ok_bind]
        cases g.addSeconds (-30) with
        | panic w => rfl
        | ok g' =>
        simp only [Res.ok_bind]
        cases d.kroot with
        | panic w => rfl
        | ok kr => simp only [Res.ok_bind]
      unfold sigVerdict
      rcases pk with ⟨key, id⟩
      cases key with
      | P256 key =>
        cases f with
        | P256Sha256 =>
          dsimp only
          cases d.checkSignatureP256 C h key with
          | panic w => rfl
          | ok b =>
            simp only [Res.ok_bind]
            cases b with
            | false => rfl
            | true => exact hk h
        | P521Sha512 => rfl
      | P521 key =>
        cases f with
        | P256Sha256 => rfl
        | P521Sha512 =>
          dsimp only
          by_cases hp : C.p521 = true
          · simp only [hp, if_true]
            cases d.checkSignatureP521 C h key with
            | panic w => rfl
            | ok b =>
              simp only [Res.ok_bind]
              cases b with
              | false => rfl
              | true => exact hk h
          · simp only [Bool.not_eq_true] at hp
            simp only [hp]
            rfl

theorem sigVerdict_none {h : NmaHeader} {d : DsmKroot} {pk : PublicKey C} {f : EcdsaFunction} {n : Nat}
    (hf : d.ecdsaFunction = .ok f) (hn : icdKeyBytes (bitField d.data 16 4) = some n) :
    sigVerdict C h d pk f = .ok none ↔
      SignatureVerifies C pk.key f (signedMessage h d.data n) (byteField d.data (13 + n) (icdSigBytes f)) := by
  rcases pk with ⟨key, id⟩
  unfold sigVerdict
  cases key with
  | P256 key =>
    cases f with
    | P256Sha256 =>
      dsimp only
      rw [DsmKroot.checkSignatureP256_of hf hn]
      simp only [SignatureVerifies, icdSigBytes]
      cases C.p256SigOk (byteField d.data (13 + n) 64) with
      | false => simp
      | true =>
        simp only [Res.assert_true, Res.ok_bind, Res.pure_eq, true_and]
        cases C.p256Verify key (signedMessage h d.data n) (byteField d.data (13 + n) 64) <;> simp
    | P521Sha512 => simp [SignatureVerifies]
  | P521 key =>
    cases f with
    | P256Sha256 => simp [SignatureVerifies]
    | P521Sha512 =>
      dsimp only
      simp only [SignatureVerifies, icdSigBytes]
      cases hp : C.p521 with
      | false => simp
      | true =>
        simp only [if_true]
        rw [DsmKroot.checkSignatureP521_of hf hn]
        cases C.p521SigOk (byteField d.data (13 + n) 132) with
        | false => simp
        | true =>
          simp only [Res.assert_true, Res.ok_bind, Res.pure_eq, true_and]
          cases C.p521Verify key (signedMessage h d.data n) (byteField d.data (13 + n) 132) <;> simp

theorem krootKey_eq_ok {d : DsmKroot} {c : Chain} {k : Key}
    (hn : icdKeyBytes (bitField d.data 16 4) = some c.keySizeBytes) (hl : 13 + c.keySizeBytes ≤ d.data.length) :
    krootKey d c = .ok k ↔ KrootTimeOk d.data ∧ k.chain = c ∧
      k = ⟨padData (byteField d.data 13 c.keySizeBytes), c, k.gst⟩ ∧
      k.gst.abs = (bitField d.data 36 12 : Int) * 604800 + (bitField d.data 48 8 : Int) * 3600 - 30 := by
  have hks := c.keySize_pos
  have hkl : (byteField d.data 13 c.keySizeBytes).length = c.keySizeBytes := by simp [byteField]; omega
  have hwn : bitField d.data 36 12 < 65536 := by have := bitField_lt d.data 36 12; omega
  unfold krootKey DsmKroot.krootWn DsmKroot.krootTowh
  rw [field_ok (by omega) (by omega), field_ok (by omega) (by omega)]
  simp only [Res.ok_bind, show (48 - 36 : Nat) = 12 from rfl, show (56 - 48 : Nat) = 8 from rfl]
  rw [dif_pos hwn]
  unfold Gst.new
  by_cases ht : bitField d.data 48 8 * 3600 < 604800
  · rw [dif_pos ht]
    simp only [Res.ok_bind]
    unfold checkGst
    have hsf : (⟨bitField d.data 36 12, bitField d.data 48 8 * 3600, hwn, ht⟩ : Gst).isSubframe = true := by
      simp only [Gst.isSubframe, beq_iff_eq]; omega
    rw [hsf]
    simp only [Res.assert_true, Res.ok_bind]
    rw [DsmKroot.kroot_eq_ok.2 ⟨_, hn, hl, rfl⟩]
    simp only [Res.ok_bind]
    rw [Res.bind_eq_ok]
    constructor
    · rintro ⟨g, h1, h2⟩
      rw [Gst.addSeconds_eq_ok (by omega)] at h1
      unfold fromSlice at h2
      obtain ⟨_, _, h3⟩ := Res.bind_eq_ok.1 h2
      obtain ⟨_, _, h4⟩ := Res.bind_eq_ok.1 h3
      simp only [Res.pure_eq, Res.ok.injEq] at h4
      subst h4
      have h5 := h1.2
      have h6 := g.abs_representable
      simp only [Representable] at h6
      simp only [Gst.abs] at h5 h6
      refine ⟨⟨by omega, by omega⟩, rfl, rfl, ?_⟩
      simp only [Gst.abs]
      omega
    · rintro ⟨_, h2, h3, h4⟩
      refine ⟨k.gst, ?_, ?_⟩
      · rw [Gst.addSeconds_eq_ok (by omega)]
        refine ⟨by omega, ?_⟩
        rw [h4]
        simp only [Gst.abs]
        omega
      · unfold fromSlice checkGst
        have : k.gst.isSubframe = true := by
          rw [Gst.isSubframe_iff, Gst.Aligned]; omega
        rw [this]
        simp only [Res.assert_true, Res.ok_bind, hkl, beq_self_eq_true, Res.pure_eq, Res.ok.injEq]
        exact h3.symm
  · rw [dif_neg ht]
    simp only [Res.panic_bind, reduceCtorEq, false_iff]
    intro h
    have := h.1.1
    omega

/-- `Key::from_dsm_kroot` accepts exactly the correctly signed messages. -/
theorem fromDsmKroot_eq_ok {h h' : NmaHeader} {d : DsmKroot} {pk : PublicKey C} {k : Key} :
    fromDsmKroot C h d pk = .ok (.ok (k, h')) ↔ h' = h ∧ KrootTimeOk d.data ∧
      (∃ f n, SignedKroot C pk.key h d.data f n) ∧ AnnouncedKey d.data k ∧
      k.data = padData k.bytes := by
  rw [fromDsmKroot_unfold]
  constructor
  · intro hh
    obtain ⟨r, h1, hh⟩ := Res.bind_eq_ok.1 hh
    cases r with
    | error e => simp at hh
    | ok c =>
      dsimp only at hh
      obtain ⟨e1, e2, e3, e4, e5, e6, e7, e8⟩ := Chain.fromDsmKroot_ok h1
      obtain ⟨b, h2, hh⟩ := Res.bind_eq_ok.1 hh
      obtain ⟨f, n, hf, hn⟩ := DsmKroot.checkPadding_function h2
      rw [DsmKroot.checkPadding_of hf hn] at h2
      cases b with
      | false => simp at hh
      | true =>
        simp only [Bool.not_true, Bool.false_eq_true, if_false] at hh
        simp only [Res.ok.injEq, decide_eq_true_eq] at h2
        rw [hf] at hh
        simp only [Res.ok_bind] at hh
        obtain ⟨v, h3, hh⟩ := Res.bind_eq_ok.1 hh
        cases v with
        | some e => simp at hh
        | none =>
          dsimp only at hh
          obtain ⟨k', h4, hh⟩ := Res.bind_eq_ok.1 hh
          simp only [Res.pure_eq, Res.ok.injEq, Except.ok.injEq, Prod.mk.injEq] at hh
          obtain ⟨rfl, rfl⟩ := hh
          have h3 := (sigVerdict_none hf hn).1 h3
          obtain ⟨n', f1, f2, f3, f4⟩ := DsmKroot.ecdsaFunction_eq_ok.1 hf
          rw [hn] at f1; cases f1
          rw [hn] at e4
          cases e4
          have hl : 13 + c.keySizeBytes ≤ d.data.length := by omega
          obtain ⟨g1, g2, g3, g4⟩ := (krootKey_eq_ok hn hl).1 h4
          have hb : k'.bytes = byteField d.data 13 c.keySizeBytes := by
            rw [bytes, g2, g3]
            exact padData_take (by simp [byteField]; omega) c.keySize_le
          refine ⟨rfl, g1, ⟨f, c.keySizeBytes, ?_⟩, ?_, ?_⟩
          · exact ⟨e2.imp And.right And.right, e3.imp And.right And.right, hn, by rw [e5]; rfl, f2, f4, f3, h2, h3⟩
          · refine ⟨by rw [g2]; exact hb, by rw [g2]; exact e1, ?_, ?_, by rw [g2]; exact hn, by rw [g2]; exact e5,
              by rw [g2]; exact e6, by rw [g2]; exact e7, g4⟩
            · rw [g2]
              rcases e2 with ⟨a, b⟩ | ⟨a, b⟩ <;> simp [a, b]
            · rw [g2]
              rcases e3 with ⟨a, b⟩ | ⟨a, b⟩ <;> simp [a, b]
          · rw [hb]
            exact congrArg Key.data g3
  · rintro ⟨rfl, ht, ⟨f, n, hs⟩, ha, hd⟩
    have hn := hs.ks
    have hn' := ha.ks
    rw [hn] at hn'
    cases hn'
    have hkp := k.chain.keySize_pos
    have hl : 13 ≤ d.data.length := by have := hs.fits; omega
    obtain ⟨r, h1, h2⟩ := Chain.fromDsmKroot_returns hl
    obtain ⟨c, rfl⟩ := h2.2 ⟨hs.hf, hs.mf, by rw [hn]; rfl, hs.ts⟩
    obtain ⟨e1, e2, e3, e4, e5, e6, e7, e8⟩ := Chain.fromDsmKroot_ok h1
    have hc : k.chain = c := by
      have i1 : k.chain.id = c.id := by rw [ha.id, e1]
      have i2 : k.chain.hashFunction = c.hashFunction := by
        rcases e2 with ⟨a, b⟩ | ⟨a, b⟩
        · rw [a]; exact ha.hf.2 b
        · rw [a]
          have := ha.hf
          cases hk : k.chain.hashFunction with
          | Sha256 => have := this.1 hk; omega
          | Sha3_256 => rfl
      have i3 : k.chain.macFunction = c.macFunction := by
        rcases e3 with ⟨a, b⟩ | ⟨a, b⟩
        · rw [a]; exact ha.mf.2 b
        · rw [a]
          have := ha.mf
          cases hk : k.chain.macFunction with
          | HmacSha256 => have := this.1 hk; omega
          | CmacAes => rfl
      have i4 : k.chain.keySizeBytes = c.keySizeBytes := by
        have := hn.symm.trans e4; simpa using this
      have i5 : k.chain.tagSizeBits = c.tagSizeBits := by
        have := ha.ts.symm.trans e5; simpa using this
      have i6 : k.chain.maclt = c.maclt := by rw [ha.maclt, e6]
      have i7 : k.chain.alpha = c.alpha := by rw [ha.alpha, e7]
      rcases hkc : k.chain with ⟨⟩
      rcases c with ⟨⟩
      rw [hkc] at i1 i2 i3 i4 i5 i6 i7
      simp only at i1 i2 i3 i4 i5 i6 i7
      subst i1 i2 i3 i4 i5 i6 i7
      rfl
    subst hc
    have hf : d.ecdsaFunction = .ok f := DsmKroot.ecdsaFunction_eq_ok.2 ⟨_, hn, hs.fits, hs.minimal, hs.blocks⟩
    rw [h1]
    simp only [Res.ok_bind]
    rw [DsmKroot.checkPadding_of hf hn, decide_eq_true hs.padding]
    simp only [Res.ok_bind, Bool.not_true, Bool.false_eq_true, if_false]
    rw [hf]
    simp only [Res.ok_bind]
    rw [(sigVerdict_none hf hn).2 hs.sig]
    simp only [Res.ok_bind]
    have hfits := hs.fits
    rw [(krootKey_eq_ok (k := k) hn (by omega)).2 ⟨ht, rfl, ?_, ha.time⟩]
    · rfl
    · rcases k with ⟨kd, kc, kg⟩
      simp only [Key.mk.injEq, and_self, and_true]
      exact hd.trans (congrArg padData ha.bytes)

end Key
end Verif
