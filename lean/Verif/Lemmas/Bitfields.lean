import Verif.Spec.KrootSpec
import Verif.Lemmas.TeslaChain

/-! # Lemmas on field extraction, DSM-KROOT and DSM-PKR -/

namespace Verif

theorem bitField_lt (data : List Byte) (i n : Nat) : bitField data i n < 2 ^ n := by
  refine Nat.lt_of_lt_of_le (loadBe_lt _) (Nat.pow_le_pow_right (by omega) ?_)
  rw [List.length_take]; omega

/-- A field that is inside the data is read; otherwise the code panics. -/
theorem field_ok {data : List Byte} {i j : Nat} (h1 : i ≤ j) (h2 : j ≤ 8 * data.length) :
    field data i j = .ok (bitField data i (j - i)) := by
  unfold field bitField
  rw [slice_ok h1 (by rw [bitsOf_length]; exact h2)]
  rfl

theorem field_eq_ok {data : List Byte} {i j v : Nat} :
    field data i j = .ok v ↔ i ≤ j ∧ j ≤ 8 * data.length ∧ v = bitField data i (j - i) := by
  constructor
  · intro h
    unfold field at h
    obtain ⟨b, h1, h2⟩ := Res.bind_eq_ok.1 h
    obtain ⟨h3, h4, h5⟩ := slice_eq_ok.1 h1
    rw [bitsOf_length] at h4
    simp only [Res.pure_eq, Res.ok.injEq] at h2
    exact ⟨h3, h4, by rw [← h2, h5]; rfl⟩
  · rintro ⟨h1, h2, rfl⟩
    exact field_ok h1 h2

theorem bitField_layout {data : List Byte} {a b : List Bool} {n v : Nat}
    (h : bitsOf data = a ++ (storeBe n v ++ b)) (hv : v < 2 ^ n) : bitField data a.length n = v := by
  unfold bitField
  rw [h, List.drop_left]
  have := List.take_left (l₁ := storeBe n v) (l₂ := b)
  rw [storeBe_length] at this
  rw [this, loadBe_storeBe, Nat.mod_eq_of_lt hv]

namespace DsmKroot

/-- The debug assertion of `key_size` holds. -/
theorem keySizeTable_mod {v s : Nat} (h : keySizeTable v = some s) : s % 8 = 0 := by
  unfold keySizeTable at h
  split at h <;> simp at h <;> omega

theorem keySizeTable_eq (v : Nat) : keySizeTable v = (icdKeyBytes v).map (fun n => 8 * n) := by
  by_cases h : v < 9
  · have : ∀ v, v < 9 → keySizeTable v = (icdKeyBytes v).map (fun n => 8 * n) := by decide
    exact this v h
  · unfold icdKeyBytes keySizeTable
    rw [List.getElem?_eq_none (by simp; omega)]
    split <;> first | rfl | (exfalso; omega)

theorem tagSizeTable_eq (v : Nat) : tagSizeTable v = icdTagBits v := by
  by_cases h : v < 10
  · have : ∀ v, v < 10 → tagSizeTable v = icdTagBits v := by decide
    exact this v h
  · unfold icdTagBits tagSizeTable
    rw [if_pos (by omega), List.getElem?_eq_none (by simp; omega)]
    split <;> first | rfl | (exfalso; omega)

theorem icdKeyBytes_mem {v n : Nat} (h : icdKeyBytes v = some n) :
    n ∈ [12, 13, 14, 15, 16, 20, 24, 28, 32] := List.mem_of_getElem? h

theorem icdKeyBytes_le {v n : Nat} (h : icdKeyBytes v = some n) : 12 ≤ n ∧ n ≤ 32 := by
  have := icdKeyBytes_mem h
  simp at this; omega

theorem icdTagBits_mem {v n : Nat} (h : icdTagBits v = some n) : n ∈ [20, 24, 28, 32, 40] := by
  unfold icdTagBits at h
  split at h
  · exact List.mem_of_getElem? h
  · cases h

variable {d : DsmKroot}

theorem keySize_eq_ok {r : Option Nat} : d.keySize = .ok r ↔
    3 ≤ d.data.length ∧ r = (icdKeyBytes (bitField d.data 16 4)).map (fun n => 8 * n) := by
  unfold keySize
  rw [Res.bind_eq_ok]
  simp only [field_eq_ok, Res.pure_eq, Res.ok.injEq, keySizeTable_eq]
  constructor
  · rintro ⟨a, ⟨_, h1, rfl⟩, rfl⟩; exact ⟨by omega, rfl⟩
  · rintro ⟨h1, rfl⟩; exact ⟨_, ⟨by omega, by omega, rfl⟩, rfl⟩

/-- `kroot` returns exactly when the key size is not reserved and the message is long enough. -/
theorem kroot_eq_ok {r : List Byte} : d.kroot = .ok r ↔
    ∃ n, icdKeyBytes (bitField d.data 16 4) = some n ∧ 13 + n ≤ d.data.length ∧ r = byteField d.data 13 n := by
  unfold kroot
  rw [Res.bind_eq_ok]
  constructor
  · rintro ⟨a, h1, h2⟩
    obtain ⟨hl, rfl⟩ := keySize_eq_ok.1 h1
    obtain ⟨s, h3, h4⟩ := Res.bind_eq_ok.1 h2
    rw [Res.unwrap_eq_ok, Option.map_eq_some_iff] at h3
    obtain ⟨n, h5, rfl⟩ := h3
    rw [slice_eq_ok] at h4
    refine ⟨n, h5, by omega, ?_⟩
    rw [h4.2.2, byteField]
    congr 1; omega
  · rintro ⟨n, h1, h2, rfl⟩
    have := icdKeyBytes_le h1
    refine ⟨_, keySize_eq_ok.2 ⟨by omega, rfl⟩, ?_⟩
    rw [h1]
    simp only [Option.map_some, Res.unwrap_some, Res.ok_bind]
    rw [slice_eq_ok]
    refine ⟨by omega, by omega, ?_⟩
    rw [byteField]
    congr 1; omega

/-- Number of padding bytes that complete 13-byte blocks. -/
theorem pad_iff {n s L : Nat} (h : 13 + n ≤ L) :
    L - 13 - n = s + (13 - (n + s) % 13) % 13 ↔ 13 + n + s ≤ L ∧ L < 13 + n + s + 13 ∧ L % 13 = 0 := by
  omega

/-- `ecdsa_function` recognises exactly the minimal whole-block messages. -/
theorem ecdsaFunction_eq_ok {f : EcdsaFunction} : d.ecdsaFunction = .ok f ↔
    ∃ n, icdKeyBytes (bitField d.data 16 4) = some n ∧ 13 + n + icdSigBytes f ≤ d.data.length ∧
      d.data.length < 13 + n + icdSigBytes f + 13 ∧ d.data.length % 13 = 0 := by
  unfold ecdsaFunction
  constructor
  · intro h
    obtain ⟨k, h1, h2⟩ := Res.bind_eq_ok.1 h
    obtain ⟨n, h3, h4, rfl⟩ := kroot_eq_ok.1 h1
    have hkl : (byteField d.data 13 n).length = n := by simp [byteField]; omega
    simp only [hkl] at h2
    unfold usub at h2
    rw [if_pos (by omega)] at h2
    simp only [Res.ok_bind] at h2
    rw [if_pos (by omega)] at h2
    simp only [Res.ok_bind] at h2
    refine ⟨n, h3, ?_⟩
    split at h2
    · rename_i h5
      simp only [Res.pure_eq, Res.ok.injEq] at h2
      subst h2
      have := (pad_iff h4).1 h5
      simpa [icdSigBytes] using this
    · split at h2
      · rename_i h5
        simp only [Res.pure_eq, Res.ok.injEq] at h2
        subst h2
        have := (pad_iff h4).1 h5
        simpa [icdSigBytes] using this
      · cases h2
  · rintro ⟨n, h1, h2, h3, h4⟩
    have h5 : 13 + n ≤ d.data.length := by omega
    rw [kroot_eq_ok.2 ⟨n, h1, h5, rfl⟩]
    have hkl : (byteField d.data 13 n).length = n := by simp [byteField]; omega
    simp only [Res.ok_bind, hkl]
    unfold usub
    rw [if_pos (by omega)]
    simp only [Res.ok_bind]
    rw [if_pos (by omega)]
    simp only [Res.ok_bind]
    cases f with
    | P256Sha256 =>
      simp only [icdSigBytes] at h2 h3
      rw [if_pos ((pad_iff h5).2 ⟨h2, h3, h4⟩)]; rfl
    | P521Sha512 =>
      simp only [icdSigBytes] at h2 h3
      rw [if_neg (by rw [pad_iff h5]; omega), if_pos ((pad_iff h5).2 ⟨h2, h3, h4⟩)]; rfl

theorem digitalSignature_of {f : EcdsaFunction} {n : Nat} (hf : d.ecdsaFunction = .ok f)
    (hn : icdKeyBytes (bitField d.data 16 4) = some n) :
    d.digitalSignature = .ok (byteField d.data (13 + n) (icdSigBytes f)) := by
  obtain ⟨n', h1, h2, h3, h4⟩ := ecdsaFunction_eq_ok.1 hf
  rw [hn] at h1; cases h1
  unfold digitalSignature
  rw [hf]
  simp only [Res.ok_bind]
  rw [kroot_eq_ok.2 ⟨n, hn, by omega, rfl⟩]
  have hkl : (byteField d.data 13 n).length = n := by simp [byteField]; omega
  simp only [Res.ok_bind, hkl]
  cases f <;>
  · simp only [icdSigBytes] at h2 ⊢
    rw [slice_ok (by omega) (by omega), byteField]
    simp only [Res.ok.injEq]
    congr 1; omega

theorem padding_of {f : EcdsaFunction} {n : Nat} (hf : d.ecdsaFunction = .ok f)
    (hn : icdKeyBytes (bitField d.data 16 4) = some n) :
    d.padding = .ok (d.data.drop (13 + n + icdSigBytes f)) := by
  obtain ⟨n', h1, h2, h3, h4⟩ := ecdsaFunction_eq_ok.1 hf
  rw [hn] at h1; cases h1
  unfold padding
  rw [kroot_eq_ok.2 ⟨n, hn, by omega, rfl⟩, digitalSignature_of hf hn]
  have hkl : (byteField d.data 13 n).length = n := by simp [byteField]; omega
  have hsl : (byteField d.data (13 + n) (icdSigBytes f)).length = icdSigBytes f := by simp [byteField]; omega
  simp only [Res.ok_bind, hkl, hsl]
  rw [slice_ok (by omega) (by omega), List.take_of_length_le (by simp)]

theorem signatureMessage_of {h : NmaHeader} {n : Nat} (hl : 13 + n ≤ d.data.length)
    (hn : icdKeyBytes (bitField d.data 16 4) = some n) :
    d.signatureMessage h = .ok (signedMessage h d.data n) := by
  unfold signatureMessage
  rw [kroot_eq_ok.2 ⟨n, hn, hl, rfl⟩]
  have hkl : (byteField d.data 13 n).length = n := by simp [byteField]; omega
  simp only [Res.ok_bind, hkl]
  rw [slice_ok (by omega) (by omega)]
  simp only [Res.ok_bind, Res.pure_eq, signedMessage, byteField]
  congr 3; omega

end DsmKroot

/-- `Chain::from_dsm_kroot` succeeds on a long enough message exactly when no field is reserved. -/
theorem Chain.fromDsmKroot_ok {d : DsmKroot} {c : Chain} (h : Chain.fromDsmKroot d = .ok (.ok c)) :
    c.id = bitField d.data 8 2 ∧
    ((c.hashFunction = .Sha256 ∧ bitField d.data 12 2 = 0) ∨ (c.hashFunction = .Sha3_256 ∧ bitField d.data 12 2 = 2)) ∧
    ((c.macFunction = .HmacSha256 ∧ bitField d.data 14 2 = 0) ∨ (c.macFunction = .CmacAes ∧ bitField d.data 14 2 = 1)) ∧
    icdKeyBytes (bitField d.data 16 4) = some c.keySizeBytes ∧
    icdTagBits (bitField d.data 20 4) = some c.tagSizeBits ∧
    c.maclt = bitField d.data 24 8 ∧ c.alpha = bitField d.data 56 48 ∧ 13 ≤ d.data.length := by
  have go2 : ∀ hf mf, Chain.fromDsmKroot.go2 d hf mf = .ok (.ok c) →
      c.hashFunction = hf ∧ c.macFunction = mf ∧ c.id = bitField d.data 8 2 ∧
      icdKeyBytes (bitField d.data 16 4) = some c.keySizeBytes ∧
      icdTagBits (bitField d.data 20 4) = some c.tagSizeBits ∧
      c.maclt = bitField d.data 24 8 ∧ c.alpha = bitField d.data 56 48 ∧ 13 ≤ d.data.length := by
    intro hf mf h
    unfold Chain.fromDsmKroot.go2 at h
    obtain ⟨ks, h1, h⟩ := Res.bind_eq_ok.1 h
    obtain ⟨_, rfl⟩ := DsmKroot.keySize_eq_ok.1 h1
    cases hk : icdKeyBytes (bitField d.data 16 4) with
    | none => rw [hk] at h; simp at h
    | some n =>
      rw [hk] at h
      simp only [Option.map_some] at h
      obtain ⟨_, _, h⟩ := Res.bind_eq_ok.1 h
      obtain ⟨ts, h2, h⟩ := Res.bind_eq_ok.1 h
      unfold DsmKroot.tagSize at h2
      obtain ⟨v, h3, h4⟩ := Res.bind_eq_ok.1 h2
      obtain ⟨_, _, rfl⟩ := field_eq_ok.1 h3
      simp only [Res.pure_eq, Res.ok.injEq, DsmKroot.tagSizeTable_eq] at h4
      cases ts with
      | none => simp at h
      | some ts =>
        dsimp only at h
        obtain ⟨id, h5, h⟩ := Res.bind_eq_ok.1 h
        obtain ⟨_, _, rfl⟩ := field_eq_ok.1 h5
        obtain ⟨ml, h6, h⟩ := Res.bind_eq_ok.1 h
        obtain ⟨_, _, rfl⟩ := field_eq_ok.1 h6
        obtain ⟨al, h7, h⟩ := Res.bind_eq_ok.1 h
        obtain ⟨_, hlen, rfl⟩ := field_eq_ok.1 h7
        obtain ⟨c', h8, h⟩ := Res.bind_eq_ok.1 h
        simp only [Res.pure_eq, Res.ok.injEq, Except.ok.injEq] at h
        subst h
        unfold Chain.build at h8
        split at h8
        · cases h8
          refine ⟨rfl, rfl, rfl, ?_, h4, rfl, rfl, by omega⟩
          simp
        · cases h8
  have go1 : ∀ hf, Chain.fromDsmKroot.go d hf = .ok (.ok c) → ∃ mf,
      ((mf = .HmacSha256 ∧ bitField d.data 14 2 = 0) ∨ (mf = .CmacAes ∧ bitField d.data 14 2 = 1)) ∧
      Chain.fromDsmKroot.go2 d hf mf = .ok (.ok c) := by
    intro hf h
    unfold Chain.fromDsmKroot.go at h
    obtain ⟨m, h1, h⟩ := Res.bind_eq_ok.1 h
    unfold DsmKroot.macFunction at h1
    obtain ⟨v, h2, h3⟩ := Res.bind_eq_ok.1 h1
    obtain ⟨_, _, rfl⟩ := field_eq_ok.1 h2
    split at h3
    · rename_i hv
      simp only [Res.pure_eq, Res.ok.injEq] at h3
      subst h3
      exact ⟨_, .inl ⟨rfl, hv⟩, h⟩
    · rename_i hv
      simp only [Res.pure_eq, Res.ok.injEq] at h3
      subst h3
      exact ⟨_, .inr ⟨rfl, hv⟩, h⟩
    · simp only [Res.pure_eq, Res.ok.injEq] at h3
      subst h3
      simp at h
  unfold Chain.fromDsmKroot at h
  obtain ⟨m, h1, h⟩ := Res.bind_eq_ok.1 h
  unfold DsmKroot.hashFunction at h1
  obtain ⟨v, h2, h3⟩ := Res.bind_eq_ok.1 h1
  obtain ⟨_, _, rfl⟩ := field_eq_ok.1 h2
  have fin : ∃ hf, Chain.fromDsmKroot.go d hf = .ok (.ok c) ∧
      ((hf = .Sha256 ∧ bitField d.data 12 2 = 0) ∨ (hf = .Sha3_256 ∧ bitField d.data 12 2 = 2)) := by
    split at h3
    · rename_i hv
      simp only [Res.pure_eq, Res.ok.injEq] at h3
      subst h3
      exact ⟨_, h, .inl ⟨rfl, hv⟩⟩
    · rename_i hv
      simp only [Res.pure_eq, Res.ok.injEq] at h3
      subst h3
      exact ⟨_, h, .inr ⟨rfl, hv⟩⟩
    · simp only [Res.pure_eq, Res.ok.injEq] at h3
      subst h3
      simp at h
  obtain ⟨hf, hg, hh⟩ := fin
  obtain ⟨mf, hm, hg⟩ := go1 hf hg
  obtain ⟨e1, e2, e3, e4, e5, e6, e7, e8⟩ := go2 hf mf hg
  exact ⟨e3, by rw [e1]; exact hh, by rw [e2]; exact hm, e4, e5, e6, e7, e8⟩

/-- The range checks of `Chain.build` never fail. -/
theorem Chain.build_ok {d : DsmKroot} (hf : HashFunction) (mf : MacFunction) {n ts : Nat}
    (hn : icdKeyBytes (bitField d.data 16 4) = some n) (ht : icdTagBits (bitField d.data 20 4) = some ts) :
    ∃ c, Chain.build (bitField d.data 8 2) hf mf n ts (bitField d.data 24 8) (bitField d.data 56 48) = .ok c ∧
      c.id = bitField d.data 8 2 ∧ c.hashFunction = hf ∧ c.macFunction = mf ∧ c.keySizeBytes = n ∧
      c.tagSizeBits = ts ∧ c.maclt = bitField d.data 24 8 ∧ c.alpha = bitField d.data 56 48 := by
  unfold Chain.build
  rw [dif_pos ⟨by have := bitField_lt d.data 8 2; omega, DsmKroot.icdKeyBytes_mem hn, DsmKroot.icdTagBits_mem ht,
    by have := bitField_lt d.data 24 8; omega, bitField_lt d.data 56 48⟩]
  exact ⟨_, rfl, rfl, rfl, rfl, rfl, rfl, rfl, rfl⟩

/-- `Chain::from_dsm_kroot` on a message with at least the fixed part: an error exactly for reserved
fields, never a panic. -/
theorem Chain.fromDsmKroot_returns {d : DsmKroot} (hl : 13 ≤ d.data.length) :
    ∃ r, Chain.fromDsmKroot d = .ok r ∧ ((∃ c, r = .ok c) ↔
      (bitField d.data 12 2 = 0 ∨ bitField d.data 12 2 = 2) ∧ (bitField d.data 14 2 = 0 ∨ bitField d.data 14 2 = 1) ∧
      (icdKeyBytes (bitField d.data 16 4)).isSome ∧ (icdTagBits (bitField d.data 20 4)).isSome) := by
  have go2 : ∀ hf mf, ∃ r, Chain.fromDsmKroot.go2 d hf mf = .ok r ∧ ((∃ c, r = .ok c) ↔
      (icdKeyBytes (bitField d.data 16 4)).isSome ∧ (icdTagBits (bitField d.data 20 4)).isSome) := by
    intro hf mf
    unfold Chain.fromDsmKroot.go2
    rw [DsmKroot.keySize_eq_ok.2 ⟨by omega, rfl⟩]
    simp only [Res.ok_bind]
    cases hk : icdKeyBytes (bitField d.data 16 4) with
    | none => exact ⟨_, rfl, by simp⟩
    | some n =>
      simp only [Option.map_some]
      rw [show (8 * n % 8 == 0) = true by simp]
      simp only [Res.assert_true, Res.ok_bind]
      have : d.tagSize = .ok (icdTagBits (bitField d.data 20 4)) := by
        unfold DsmKroot.tagSize
        rw [field_ok (by omega) (by omega)]
        simp [DsmKroot.tagSizeTable_eq]
      rw [this]
      simp only [Res.ok_bind]
      cases ht : icdTagBits (bitField d.data 20 4) with
      | none => exact ⟨_, rfl, by simp⟩
      | some ts =>
        dsimp only
        obtain ⟨c, hc, _⟩ := Chain.build_ok hf mf hk ht
        unfold DsmKroot.krootChainId DsmKroot.macLookupTable DsmKroot.alpha
        rw [field_ok (by omega) (by omega), field_ok (by omega) (by omega), field_ok (by omega) (by omega)]
        simp only [Res.ok_bind]
        rw [Nat.mul_comm, Nat.mul_div_cancel _ (by omega), hc]
        exact ⟨_, rfl, by simp⟩
  have go1 : ∀ hf, ∃ r, Chain.fromDsmKroot.go d hf = .ok r ∧ ((∃ c, r = .ok c) ↔
      (bitField d.data 14 2 = 0 ∨ bitField d.data 14 2 = 1) ∧
      (icdKeyBytes (bitField d.data 16 4)).isSome ∧ (icdTagBits (bitField d.data 20 4)).isSome) := by
    intro hf
    unfold Chain.fromDsmKroot.go DsmKroot.macFunction
    rw [field_ok (by omega) (by omega)]
    simp only [Res.ok_bind]
    split
    · rename_i hv
      obtain ⟨r, h1, h2⟩ := go2 hf .HmacSha256
      exact ⟨r, h1, by rw [h2]; simp [show bitField d.data 14 2 = 0 from hv]⟩
    · rename_i hv
      obtain ⟨r, h1, h2⟩ := go2 hf .CmacAes
      exact ⟨r, h1, by rw [h2]; simp [show bitField d.data 14 2 = 1 from hv]⟩
    · rename_i h0 h1
      refine ⟨_, rfl, ?_⟩
      simp only [reduceCtorEq, exists_false, false_iff]
      rintro ⟨h | h, _⟩
      · exact h0 h
      · exact h1 h
  unfold Chain.fromDsmKroot DsmKroot.hashFunction
  rw [field_ok (by omega) (by omega)]
  simp only [Res.ok_bind]
  split
  · rename_i hv
    obtain ⟨r, h1, h2⟩ := go1 .Sha256
    exact ⟨r, h1, by rw [h2]; simp [show bitField d.data 12 2 = 0 from hv]⟩
  · rename_i hv
    obtain ⟨r, h1, h2⟩ := go1 .Sha3_256
    exact ⟨r, h1, by rw [h2]; simp [show bitField d.data 12 2 = 2 from hv]⟩
  · rename_i h0 h1
    refine ⟨_, rfl, ?_⟩
    simp only [reduceCtorEq, exists_false, false_iff]
    rintro ⟨h | h, _⟩
    · exact h0 h
    · exact h1 h

end Verif
