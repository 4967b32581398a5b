import Verif.Lemmas.Kroot

/-! # C27, C28, C49: DSM-KROOT -/

namespace Verif
variable {C : Crypto}

/-! ## C27 -/

/-- **C27** `Key::from_dsm_kroot` returns a key exactly when the DSM-KROOT is correctly signed by the
public key (`SignedKroot`: no reserved chain field, whole blocks, padding equal to the truncated hash
of signed message and signature, signature of the right kind valid over the NMA header followed by the
DSM from its second byte through the KROOT) and its time is a valid one after the origin of the GST; the
key is the announced one (`AnnouncedKey`: KROOT bytes, chain parameters, time WNK/TOWHK minus 30 s)
and the header is returned unchanged. -/
theorem C27_kroot_accepted_iff (h h' : NmaHeader) (d : DsmKroot) (pk : PublicKey C) (k : Key) :
    Key.fromDsmKroot C h d pk = .ok (.ok (k, h')) ↔
      (∃ f n, SignedKroot C pk.key h d.data f n) ∧
      (bitField d.data 48 8 ≤ 167 ∧ ¬ (bitField d.data 36 12 = 0 ∧ bitField d.data 48 8 = 0)) ∧
      AnnouncedKey d.data k ∧ k.data.val = k.bytes ++ List.replicate (32 - k.chain.keySizeBytes) 0#8 ∧
      h' = h := by
  rw [Key.fromDsmKroot_eq_ok]
  have hpad : k.data = Key.padData k.bytes ↔
      k.data.val = k.bytes ++ List.replicate (32 - k.chain.keySizeBytes) 0#8 := by
    have hl := k.bytes_length
    have hle := k.chain.keySize_le
    rw [Subtype.ext_iff]
    simp only [Key.padData]
    rw [List.take_append, List.take_of_length_le (by omega), List.take_replicate, hl]
    rw [show min (32 - k.chain.keySizeBytes) 32 = 32 - k.chain.keySizeBytes by omega]
  rw [hpad]
  unfold Key.KrootTimeOk
  constructor
  · rintro ⟨a, b, c, e, f⟩; exact ⟨c, b, e, f, a⟩
  · rintro ⟨c, b, e, f, a⟩; exact ⟨a, b, c, e, f⟩

theorem byteField_take {a b : List Byte} {i n : Nat} (h : byteField a i n = byteField b i n)
    {j m : Nat} (hj : i ≤ j) (hm : j + m ≤ i + n) : byteField a j m = byteField b j m := by
  have := congrArg (fun l => (l.drop (j - i)).take m) h
  simp only [byteField, List.drop_take, List.drop_drop, List.take_take] at this
  rw [show i + (j - i) = j by omega, show min m (n - (j - i)) = m by omega] at this
  exact this

theorem bitField_byteField (a : List Byte) {i j n w : Nat} (h : 8 * i ≤ j) (h2 : j + w ≤ 8 * (i + n)) :
    bitField a j w = loadBe (((bitsOf (byteField a i n)).drop (j - 8 * i)).take w) := by
  unfold bitField byteField
  rw [← bitsOf_take, ← bitsOf_drop, List.drop_take, List.take_take, List.drop_drop]
  rw [show 8 * i + (j - 8 * i) = j by omega, show min w (8 * n - (j - 8 * i)) = w by omega]

theorem bitField_congr {a b : List Byte} {i n : Nat} (h : byteField a i n = byteField b i n)
    {j w : Nat} (hj : 8 * i ≤ j) (hw : j + w ≤ 8 * (i + n)) : bitField a j w = bitField b j w := by
  rw [bitField_byteField a hj hw, bitField_byteField b hj hw, h]

/-- The announced key is determined by the DSM. -/
theorem AnnouncedKey.unique {da db : List Byte} {a b : Key} (ha : AnnouncedKey da a) (hb : AnnouncedKey db b)
    (h0 : ∀ j w, 8 ≤ j → j + w ≤ 104 → bitField da j w = bitField db j w)
    (h1 : byteField da 13 a.chain.keySizeBytes = byteField db 13 a.chain.keySizeBytes) :
    a.bytes = b.bytes ∧ a.chain = b.chain ∧ a.gst = b.gst := by
  have i4 : a.chain.keySizeBytes = b.chain.keySizeBytes := by
    have h := ha.ks
    rw [h0 16 4 (by omega) (by omega), hb.ks] at h
    simpa using h.symm
  have hc : a.chain = b.chain := by
    have i1 : a.chain.id = b.chain.id := by rw [ha.id, hb.id]; exact h0 8 2 (by omega) (by omega)
    have i2 : a.chain.hashFunction = b.chain.hashFunction := by
      have h1 := ha.hf
      have h2 := hb.hf
      rw [h0 12 2 (by omega) (by omega)] at h1
      cases ea : a.chain.hashFunction <;> cases eb : b.chain.hashFunction <;> simp_all
    have i3 : a.chain.macFunction = b.chain.macFunction := by
      have h1 := ha.mf
      have h2 := hb.mf
      rw [h0 14 2 (by omega) (by omega)] at h1
      cases ea : a.chain.macFunction <;> cases eb : b.chain.macFunction <;> simp_all
    have i5 : a.chain.tagSizeBits = b.chain.tagSizeBits := by
      have h := ha.ts
      rw [h0 20 4 (by omega) (by omega), hb.ts] at h
      simpa using h.symm
    have i6 : a.chain.maclt = b.chain.maclt := by rw [ha.maclt, hb.maclt]; exact h0 24 8 (by omega) (by omega)
    have i7 : a.chain.alpha = b.chain.alpha := by rw [ha.alpha, hb.alpha]; exact h0 56 48 (by omega) (by omega)
    rcases hac : a.chain with ⟨⟩
    rcases hbc : b.chain with ⟨⟩
    rw [hac, hbc] at i1 i2 i3 i4 i5 i6 i7
    simp only at i1 i2 i3 i4 i5 i6 i7
    subst i1 i2 i3 i4 i5 i6 i7
    rfl
  refine ⟨?_, hc, ?_⟩
  · rw [ha.bytes, hb.bytes, ← hc]; exact h1
  · apply Gst.abs_inj
    rw [ha.time, hb.time, h0 36 12 (by omega) (by omega), h0 48 8 (by omega) (by omega)]

/-- **C27** the signed message determines the NMA header, the chain parameters, the root key and its
time: two accepted DSM-KROOTs with the same signed message give the same key and header, whichever
public keys accepted them. -/
theorem C27_signed_message_determines_key (pk₁ pk₂ : PublicKey C) (h₁ h₂ h₁' h₂' : NmaHeader)
    (d₁ d₂ : DsmKroot) (k₁ k₂ : Key)
    (a₁ : Key.fromDsmKroot C h₁ d₁ pk₁ = .ok (.ok (k₁, h₁')))
    (a₂ : Key.fromDsmKroot C h₂ d₂ pk₂ = .ok (.ok (k₂, h₂')))
    (hm : d₁.signatureMessage h₁ = d₂.signatureMessage h₂) :
    h₁' = h₂' ∧ k₁ = k₂ := by
  obtain ⟨rfl, _, ⟨f₁, n₁, s₁⟩, b₁, p₁⟩ := Key.fromDsmKroot_eq_ok.1 a₁
  obtain ⟨rfl, _, ⟨f₂, n₂, s₂⟩, b₂, p₂⟩ := Key.fromDsmKroot_eq_ok.1 a₂
  have l₁ := s₁.fits
  have l₂ := s₂.fits
  rw [DsmKroot.signatureMessage_of (by omega) s₁.ks, DsmKroot.signatureMessage_of (by omega) s₂.ks] at hm
  simp only [Res.ok.injEq, signedMessage, List.cons.injEq] at hm
  obtain ⟨hh, hb⟩ := hm
  have hn : n₁ = n₂ := by
    have := congrArg List.length hb
    simp only [byteField, List.length_take, List.length_drop] at this
    omega
  subst hn
  have hk₁ : n₁ = k₁.chain.keySizeBytes := by
    have := s₁.ks.symm.trans b₁.ks; simpa using this
  have hc := b₁.unique b₂
    (fun j w hj hw => bitField_congr hb (by omega) (by
      have := (DsmKroot.icdKeyBytes_le s₁.ks).1; omega))
    (byteField_take hb (by omega) (by omega))
  refine ⟨?_, ?_⟩
  · cases h₁'; cases h₂'; simp only at hh; rw [hh]
  · rcases k₁ with ⟨x1, x2, x3⟩
    rcases k₂ with ⟨y1, y2, y3⟩
    obtain ⟨e1, e2, e3⟩ := hc
    simp only at e2 e3
    subst e2 e3
    rw [e1] at p₁
    simp only [Key.mk.injEq, and_true]
    exact p₁.trans p₂.symm

/-! ## C28 -/

/-- **C28** `ecdsa_function` recognises a curve exactly when the message is made of whole 13-byte blocks
and the part after key and signature (of the size of that curve) is shorter than a block. -/
theorem C28_curve_recognised_iff (d : DsmKroot) (f : EcdsaFunction) :
    d.ecdsaFunction = .ok f ↔
      ∃ n, icdKeyBytes (bitField d.data 16 4) = some n ∧ 13 + n + icdSigBytes f ≤ d.data.length ∧
        d.data.length < 13 + n + icdSigBytes f + 13 ∧ d.data.length % 13 = 0 :=
  DsmKroot.ecdsaFunction_eq_ok

/-- **C28** every genuine DSM-KROOT (13 bytes, key of any of the nine sizes, signature of either curve,
padding that completes the last 13-byte block) is recognised with the right curve, and key, signature
and padding are located exactly. -/
theorem C28_genuine_kroot_located (f : EcdsaFunction) (head key sig pad : List Byte) (n : Nat)
    (hh : head.length = 13) (hn : icdKeyBytes (bitField head 16 4) = some n) (hk : key.length = n)
    (hs : sig.length = icdSigBytes f) (hp : pad.length < 13)
    (hb : (head ++ key ++ sig ++ pad).length % 13 = 0) :
    let d : DsmKroot := ⟨head ++ key ++ sig ++ pad⟩
    d.ecdsaFunction = .ok f ∧ d.kroot = .ok key ∧ d.digitalSignature = .ok sig ∧ d.padding = .ok pad := by
  intro d
  have hl : d.data.length = 13 + n + icdSigBytes f + pad.length := by
    simp only [d, List.length_append]; omega
  have hf16 : bitField d.data 16 4 = bitField head 16 4 := by
    unfold bitField
    simp only [d, bitsOf_append, List.append_assoc]
    rw [List.drop_append_of_le_length (by rw [bitsOf_length]; omega),
      List.take_append_of_le_length (by rw [List.length_drop, bitsOf_length]; omega)]
  have hn' : icdKeyBytes (bitField d.data 16 4) = some n := by rw [hf16]; exact hn
  have hf : d.ecdsaFunction = .ok f :=
    DsmKroot.ecdsaFunction_eq_ok.2 ⟨n, hn', by omega, by omega, hb⟩
  have e1 : byteField d.data 13 n = key := by
    simp only [byteField, d, List.append_assoc]
    rw [← hh, List.drop_left, ← hk, List.take_left]
  have e2 : byteField d.data (13 + n) (icdSigBytes f) = sig := by
    simp only [byteField, d, List.append_assoc]
    rw [← hh, ← hk, ← List.drop_drop, List.drop_left, List.drop_left, ← hs, List.take_left]
  have e3 : d.data.drop (13 + n + icdSigBytes f) = pad := by
    simp only [d, List.append_assoc]
    rw [← hh, ← hk, ← hs, ← List.drop_drop, ← List.drop_drop, List.drop_left, List.drop_left, List.drop_left]
  refine ⟨hf, ?_, ?_, ?_⟩
  · rw [DsmKroot.kroot_eq_ok.2 ⟨n, hn', by omega, rfl⟩, e1]
  · rw [DsmKroot.digitalSignature_of hf hn', e2]
  · rw [DsmKroot.padding_of hf hn', e3]

/-- **C28** the number of blocks of a genuine DSM-KROOT, for all nine key sizes and both curves: always
between 7 and 14, and never the same for the two curves. -/
theorem C28_block_counts (n : Nat) (hn : n ∈ [12, 13, 14, 15, 16, 20, 24, 28, 32]) (L₁ L₂ : Nat)
    (b₁ : L₁ % 13 = 0) (b₂ : L₂ % 13 = 0) (h₁ : 13 + n + 64 ≤ L₁ ∧ L₁ < 13 + n + 64 + 13)
    (h₂ : 13 + n + 132 ≤ L₂ ∧ L₂ < 13 + n + 132 + 13) :
    L₁ ≠ L₂ ∧ 7 ≤ L₁ / 13 ∧ L₁ / 13 ≤ 9 ∧ 13 ≤ L₂ / 13 ∧ L₂ / 13 ≤ 14 := by
  simp only [List.mem_cons, List.not_mem_nil, or_false] at hn
  omega

/-- A case for `C28_genuine_kroot_located`: 128-bit key, P-256. -/
example : icdKeyBytes (bitField (0#8 :: 0#8 :: 0x49#8 :: List.replicate 10 0#8) 16 4) = some 16 ∧
    (List.replicate 13 0#8 ++ List.replicate 16 0#8 ++ List.replicate 64 0#8 ++ List.replicate 11 (0#8 : Byte)).length % 13 = 0 := by
  decide

/-! ## C49 -/

/-- **C49** decoding the bytes laid out as in ICD Figure 7 gives back every field, for all field values,
with reserved codes reported as reserved. -/
theorem C49_kroot_fields_decoded (f : KrootFields) (hr : f.InRange) (d : DsmKroot)
    (hd : bitsOf d.data = f.bits) :
    d.numberOfBlocks = .ok (if 1 ≤ f.nb ∧ f.nb ≤ 8 then some (f.nb + 6) else none) ∧
    d.publicKeyId = .ok f.pkid ∧ d.krootChainId = .ok f.cidkr ∧
    (∃ x, d.hashFunction = .ok x ∧ HfMeans f.hf x) ∧ (∃ x, d.macFunction = .ok x ∧ MfMeans f.mf x) ∧
    d.keySize = .ok ((icdKeyBytes f.ks).map (8 * ·)) ∧ d.tagSize = .ok (icdTagBits f.ts) ∧
    d.macLookupTable = .ok f.maclt ∧ d.krootWn = .ok f.wn ∧ d.krootTowh = .ok f.towh ∧
    d.alpha = .ok f.alpha ∧
    (∀ n, icdKeyBytes f.ks = some n → f.kroot.length = n → d.kroot = .ok f.kroot ∧
      ∀ e, f.signature.length = icdSigBytes e → f.padding.length < 13 → d.data.length % 13 = 0 →
        d.ecdsaFunction = .ok e ∧ d.digitalSignature = .ok f.signature ∧ d.padding = .ok f.padding) := by
  obtain ⟨hr0, hr1, hr2, hr3, hr4, hr5, hr6, hr7, hr8, hr9, hr10⟩ := hr
  have hlen : 13 ≤ d.data.length := by
    have := congrArg List.length hd
    rw [bitsOf_length] at this
    simp only [KrootFields.bits, List.length_append, storeBe_length] at this
    omega
  have h := hd
  unfold KrootFields.bits at h
  simp only [List.append_assoc] at h
  have f0 : bitField d.data 0 4 = f.nb := bitField_layout (a := []) h hr0
  have f4 : bitField d.data 4 4 = f.pkid :=
    bitField_layout (a := storeBe 4 f.nb) (by simpa only [List.append_assoc] using h) hr1
  have f8 : bitField d.data 8 2 = f.cidkr := by
    have := bitField_layout (a := storeBe 4 f.nb ++ storeBe 4 f.pkid)
      (by simpa only [List.append_assoc] using h) hr2
    simpa using this
  have f12 : bitField d.data 12 2 = f.hf := by
    have := bitField_layout (a := storeBe 4 f.nb ++ storeBe 4 f.pkid ++ storeBe 2 f.cidkr ++ storeBe 2 f.rsvd1)
      (by simpa only [List.append_assoc] using h) hr3
    simpa using this
  have f14 : bitField d.data 14 2 = f.mf := by
    have := bitField_layout (a := storeBe 4 f.nb ++ storeBe 4 f.pkid ++ storeBe 2 f.cidkr ++ storeBe 2 f.rsvd1
      ++ storeBe 2 f.hf) (by simpa only [List.append_assoc] using h) hr4
    simpa using this
  have f16 : bitField d.data 16 4 = f.ks := by
    have := bitField_layout (a := storeBe 4 f.nb ++ storeBe 4 f.pkid ++ storeBe 2 f.cidkr ++ storeBe 2 f.rsvd1
      ++ storeBe 2 f.hf ++ storeBe 2 f.mf) (by simpa only [List.append_assoc] using h) hr5
    simpa using this
  have f20 : bitField d.data 20 4 = f.ts := by
    have := bitField_layout (a := storeBe 4 f.nb ++ storeBe 4 f.pkid ++ storeBe 2 f.cidkr ++ storeBe 2 f.rsvd1
      ++ storeBe 2 f.hf ++ storeBe 2 f.mf ++ storeBe 4 f.ks) (by simpa only [List.append_assoc] using h) hr6
    simpa using this
  have f24 : bitField d.data 24 8 = f.maclt := by
    have := bitField_layout (a := storeBe 4 f.nb ++ storeBe 4 f.pkid ++ storeBe 2 f.cidkr ++ storeBe 2 f.rsvd1
      ++ storeBe 2 f.hf ++ storeBe 2 f.mf ++ storeBe 4 f.ks ++ storeBe 4 f.ts)
      (by simpa only [List.append_assoc] using h) hr7
    simpa using this
  have f36 : bitField d.data 36 12 = f.wn := by
    have := bitField_layout (a := storeBe 4 f.nb ++ storeBe 4 f.pkid ++ storeBe 2 f.cidkr ++ storeBe 2 f.rsvd1
      ++ storeBe 2 f.hf ++ storeBe 2 f.mf ++ storeBe 4 f.ks ++ storeBe 4 f.ts ++ storeBe 8 f.maclt
      ++ storeBe 4 f.rsvd2) (by simpa only [List.append_assoc] using h) hr8
    simpa using this
  have f48 : bitField d.data 48 8 = f.towh := by
    have := bitField_layout (a := storeBe 4 f.nb ++ storeBe 4 f.pkid ++ storeBe 2 f.cidkr ++ storeBe 2 f.rsvd1
      ++ storeBe 2 f.hf ++ storeBe 2 f.mf ++ storeBe 4 f.ks ++ storeBe 4 f.ts ++ storeBe 8 f.maclt
      ++ storeBe 4 f.rsvd2 ++ storeBe 12 f.wn) (by simpa only [List.append_assoc] using h) hr9
    simpa using this
  have f56 : bitField d.data 56 48 = f.alpha := by
    have := bitField_layout (a := storeBe 4 f.nb ++ storeBe 4 f.pkid ++ storeBe 2 f.cidkr ++ storeBe 2 f.rsvd1
      ++ storeBe 2 f.hf ++ storeBe 2 f.mf ++ storeBe 4 f.ks ++ storeBe 4 f.ts ++ storeBe 8 f.maclt
      ++ storeBe 4 f.rsvd2 ++ storeBe 12 f.wn ++ storeBe 8 f.towh) (by simpa only [List.append_assoc] using h) hr10
    simpa using this
  refine ⟨?_, ?_, ?_, ?_, ?_, ?_, ?_, ?_, ?_, ?_, ?_, ?_⟩
  · unfold DsmKroot.numberOfBlocks
    rw [field_ok (by omega) (by omega), ← f0]; rfl
  · unfold DsmKroot.publicKeyId
    rw [field_ok (by omega) (by omega), ← f4]
  · unfold DsmKroot.krootChainId
    rw [field_ok (by omega) (by omega), ← f8]
  · unfold DsmKroot.hashFunction
    rw [field_ok (by omega) (by omega), show (14 - 12 : Nat) = 2 from rfl, f12]
    simp only [Res.ok_bind]
    split
    · rename_i hv; exact ⟨_, rfl, hv⟩
    · rename_i hv; exact ⟨_, rfl, hv⟩
    · rename_i h0 h1; exact ⟨_, rfl, h0, h1⟩
  · unfold DsmKroot.macFunction
    rw [field_ok (by omega) (by omega), show (16 - 14 : Nat) = 2 from rfl, f14]
    simp only [Res.ok_bind]
    split
    · rename_i hv; exact ⟨_, rfl, hv⟩
    · rename_i hv; exact ⟨_, rfl, hv⟩
    · rename_i h0 h1; exact ⟨_, rfl, h0, h1⟩
  · rw [DsmKroot.keySize_eq_ok]
    exact ⟨by omega, by rw [f16]⟩
  · unfold DsmKroot.tagSize
    rw [field_ok (by omega) (by omega), show (24 - 20 : Nat) = 4 from rfl, f20]
    simp [DsmKroot.tagSizeTable_eq]
  · unfold DsmKroot.macLookupTable
    rw [field_ok (by omega) (by omega), ← f24]
  · unfold DsmKroot.krootWn
    rw [field_ok (by omega) (by omega), ← f36]
  · unfold DsmKroot.krootTowh
    rw [field_ok (by omega) (by omega), ← f48]
  · unfold DsmKroot.alpha
    rw [field_ok (by omega) (by omega), ← f56]
  · intro n hn hkl
    -- the bytes
    let head := d.data.take 13
    have hhead : head.length = 13 := by simp [head]; omega
    have hrest : d.data.drop 13 = f.kroot ++ f.signature ++ f.padding := by
      apply bitsOf_inj
      rw [← bitsOf_drop, hd, bitsOf_append, bitsOf_append]
      unfold KrootFields.bits
      rw [List.append_assoc _ (bitsOf f.signature), List.append_assoc _ (bitsOf f.kroot)]
      rw [List.drop_append, List.drop_of_length_le (by simp), List.nil_append]
      simp
    have hdata : d.data = head ++ f.kroot ++ f.signature ++ f.padding := by
      have := List.take_append_drop 13 d.data
      rw [hrest] at this
      simp only [List.append_assoc] at this ⊢
      exact this.symm
    have hks : icdKeyBytes (bitField head 16 4) = some n := by
      rw [← hn, ← f16]
      congr 1
      unfold bitField
      simp only [head]
      rw [← bitsOf_take, List.drop_take, List.take_take]
      rfl
    refine ⟨?_, ?_⟩
    · rw [DsmKroot.kroot_eq_ok]
      have hl2 := congrArg List.length hdata
      simp only [List.length_append] at hl2
      refine ⟨n, by rw [f16]; exact hn, by omega, ?_⟩
      rw [byteField, hrest, List.append_assoc, ← hkl, List.take_left]
    · intro e he hp hb
      have := C28_genuine_kroot_located e head f.kroot f.signature f.padding n hhead hks hkl he hp
        (by rw [← hdata]; exact hb)
      have hde : d = ⟨head ++ f.kroot ++ f.signature ++ f.padding⟩ := by cases d; exact congrArg DsmKroot.mk hdata
      rw [hde]
      exact ⟨this.1, this.2.2.1, this.2.2.2⟩

end Verif
