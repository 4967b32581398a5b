import Verif.Lemmas.TeslaChain

/-! # C18, C19 (message part), C22, C23, C24: tags and TESLA keys -/

namespace Verif

variable {C : Crypto}

/-! ## C18 -/

/-- **C18** `validate_tag0` verifies the MAC of exactly `PRNA ‖ GST ‖ 1 ‖ NMAS ‖ data ‖ padding`. -/
theorem C18_validate_tag0_exact (k : Key) (h : k.MacUsable) (tag : List Bool) (gst : Gst) (prna : Svn)
    (st : NmaStatus) (data : List Bool) (ht : tag.length ≤ 128) (hd : data.length ≤ 550) :
    ∃ b, k.validateTag0 C tag gst prna st data = .ok b ∧
      (b = true ↔ (macBits C k (packBytes (storeBe 8 prna.val ++ storeBe 12 gst.wn ++ storeBe 20 gst.tow
        ++ storeBe 8 1 ++ storeBe 2 (nmasCode st) ++ data))).take tag.length = tag) := by
  refine ⟨_, Key.validateTag0_eq h ht hd 0 0 0, ?_⟩
  simp [TagSpec.Verifies, tagMessage, tagBits]

/-- **C18** `validate_tag` verifies the MAC of exactly
`PRND ‖ PRNA ‖ GST ‖ CTR ‖ NMAS ‖ data ‖ padding`. -/
theorem C18_validate_tag_exact (k : Key) (h : k.MacUsable) (tag : List Bool) (gst : Gst) (prnd : Byte)
    (prna : Svn) (ctr : Byte) (st : NmaStatus) (data : List Bool) (ht : tag.length ≤ 128)
    (hd : data.length ≤ 550) (hc : ctr ≠ 1#8) :
    ∃ b, k.validateTag C tag gst prnd prna ctr st data = .ok b ∧
      (b = true ↔ (macBits C k (packBytes (storeBe 8 prnd.toNat ++ storeBe 8 prna.val ++ storeBe 12 gst.wn
        ++ storeBe 20 gst.tow ++ storeBe 8 ctr.toNat ++ storeBe 2 (nmasCode st) ++ data))).take tag.length
          = tag) := by
  have e1 : BitVec.ofNat 8 prnd.toNat = prnd := by simp
  have e2 : BitVec.ofNat 8 ctr.toNat = ctr := by simp
  have hc' : ctr.toNat ≠ 1 := by
    intro hh; apply hc; rw [← e2, hh]
  have := Key.validateTag_eq (C := C) h (tag := tag) (gst := gst) (prna := prna) (st := st) (data := data)
    ht hd hc' prnd.toNat 0 0
  rw [e1, e2] at this
  refine ⟨_, this, ?_⟩
  simp [TagSpec.Verifies, tagMessage, tagBits, hc']

/-- **C18** the MACed bytes determine the kind of the tag (first tag or not, 549-bit CED or 141-bit
timing parameters) and all of PRND, PRNA, GST (week modulo 4096), CTR, NMA status and the data. -/
theorem C18_message_determines_fields
    (c₁ c₂ p₁ p₂ : Nat) (hc₁ : c₁ < 256) (hc₂ : c₂ < 256) (hp₁ : p₁ < 256) (hp₂ : p₂ < 256)
    (a₁ a₂ : Svn) (g₁ g₂ : Gst) (s₁ s₂ : NmaStatus) (d₁ d₂ : List Bool)
    (hd₁ : d₁.length = 549 ∨ d₁.length = 141) (hd₂ : d₂.length = 549 ∨ d₂.length = 141)
    (h : tagMessage c₁ p₁ a₁ g₁ s₁ d₁ = tagMessage c₂ p₂ a₂ g₂ s₂ d₂) :
    c₁ = c₂ ∧ (c₁ ≠ 1 → p₁ = p₂) ∧ a₁ = a₂ ∧ g₁.wn % 4096 = g₂.wn % 4096 ∧ g₁.tow = g₂.tow
      ∧ s₁ = s₂ ∧ d₁ = d₂ := by
  have hlen := congrArg List.length h
  unfold tagMessage at hlen
  rw [packBytes_length, packBytes_length, tagBits_length, tagBits_length] at hlen
  have hk : (c₁ = 1 ↔ c₂ = 1) ∧ d₁.length = d₂.length := by
    split at hlen <;> split at hlen <;> rcases hd₁ with hd₁ | hd₁ <;> rcases hd₂ with hd₂ | hd₂ <;>
      rw [hd₁, hd₂] at hlen <;> omega
  have hb : tagBits c₁ p₁ a₁ g₁ s₁ d₁ = tagBits c₂ p₂ a₂ g₂ s₂ d₂ := by
    apply packBytes_inj _ h
    rw [tagBits_length, tagBits_length, hk.2]
    simp only [hk.1]
  unfold tagBits at hb
  obtain ⟨hb, hdd⟩ := List.append_inj' hb hk.2
  obtain ⟨hb, hss⟩ := List.append_inj' hb (by simp)
  obtain ⟨hb, hcc⟩ := List.append_inj' hb (by simp)
  obtain ⟨hb, htt⟩ := List.append_inj' hb (by simp)
  obtain ⟨hb, hww⟩ := List.append_inj' hb (by simp)
  obtain ⟨hb, haa⟩ := List.append_inj' hb (by simp)
  have hcc := storeBe_inj (n := 8) (by omega) (by omega) hcc
  refine ⟨hcc, ?_, ?_, ?_, ?_, ?_, hdd⟩
  · intro h1
    rw [if_neg h1, if_neg (by omega)] at hb
    exact storeBe_inj (n := 8) (by omega) (by omega) hb
  · apply Svn.ext
    have := a₁.h36; have := a₂.h36
    exact storeBe_inj (n := 8) (by omega) (by omega) haa
  · have := congrArg loadBe hww
    simpa [loadBe_storeBe] using this
  · have := g₁.htow; have := g₂.htow
    exact storeBe_inj (n := 20) (by omega) (by omega) htt
  · have h4 : ∀ s, nmasCode s < 4 := by intro s; cases s <;> decide
    have := storeBe_inj (n := 2) (h4 s₁) (h4 s₂) hss
    cases s₁ <;> cases s₂ <;> first | rfl | (simp [nmasCode] at this)

/-- **C18** if one tag is accepted for two different data (or satellites, times, positions,
statuses), two different MACed messages with the same truncated MAC are exhibited. -/
theorem C18_tag_binding (k : Key) (t₁ t₂ : TagSpec) (ht : t₁.tag = t₂.tag)
    (hc₁ : t₁.ctr < 256) (hc₂ : t₂.ctr < 256) (hp₁ : t₁.prnd < 256) (hp₂ : t₂.prnd < 256)
    (a₁ a₂ : Svn) (g₁ g₂ : Gst) (s₁ s₂ : NmaStatus) (d₁ d₂ : List Bool)
    (hd₁ : d₁.length = 549 ∨ d₁.length = 141) (hd₂ : d₂.length = 549 ∨ d₂.length = 141)
    (h₁ : t₁.Verifies C k a₁ g₁ s₁ d₁) (h₂ : t₂.Verifies C k a₂ g₂ s₂ d₂)
    (hne : ¬ (t₁.ctr = t₂.ctr ∧ (t₁.ctr ≠ 1 → t₁.prnd = t₂.prnd) ∧ a₁ = a₂ ∧ g₁.wn % 4096 = g₂.wn % 4096
      ∧ g₁.tow = g₂.tow ∧ s₁ = s₂ ∧ d₁ = d₂)) :
    ∃ m₁ m₂, m₁ ≠ m₂ ∧
      (macBits C k m₁).take t₁.tag.length = (macBits C k m₂).take t₁.tag.length := by
  refine ⟨_, _, fun he => hne (C18_message_determines_fields _ _ _ _ hc₁ hc₂ hp₁ hp₂ _ _ _ _ _ _ _ _
    hd₁ hd₂ he), ?_⟩
  rw [TagSpec.Verifies] at h₁ h₂
  rw [h₁, ht, h₂]

/-- Non-vacuity of C18: a concrete message (first tag, E02, week 1177, tow 0x123 rounded, test) has
the expected bytes. -/
example : (tagMessage 1 0 ⟨2, by decide, by decide⟩ ⟨1177, 30, by decide, by decide⟩ .Test
    (List.replicate 549 true)).take 8 = [0x02#8, 0x49#8, 0x90#8, 0x00#8, 0x1e#8, 0x01#8, 0x7f#8, 0xff#8] := by
  decide +kernel

/-! ## C19, message part -/

/-- **C19** validating a dummy tag is validating all-zero data of the same length. -/
theorem C19_dummy_is_zero_data (k : Key) (tag : List Bool) (gst : Gst) (prnd : Byte) (prna : Svn)
    (ctr : Byte) (st : NmaStatus) (len : Nat) (h : len ≤ 550) :
    k.validateTagDummy C tag gst prnd prna ctr st len
      = k.validateTag C tag gst prnd prna ctr st (List.replicate len false) ∧
    k.validateTag0Dummy C tag gst prna st len
      = k.validateTag0 C tag gst prna st (List.replicate len false) :=
  ⟨Key.validateTagDummy_eq k tag gst prnd prna ctr st h, Key.validateTag0Dummy_eq k tag gst prna st h⟩

/-! ## C22 -/

/-- **C22** derivation composes. -/
theorem C22_derive_add (k : Key) (m n : Nat) :
    k.derive C (m + n) = (k.derive C m >>= fun k' => k'.derive C n) := Key.derive_add k m n

/-- **C22** the derived key is the one of the specification: same chain, exactly `n` subframes
earlier, bytes obtained by `n` applications of the one-way function. -/
theorem C22_derive_spec (k k' : Key) (n : Nat) (h : k.derive C n = .ok k') :
    k'.chain = k.chain ∧ k'.gst.abs = k.gst.abs - 30 * n ∧
      Derives C k.chain n (k.gst, k.bytes) (k'.gst, k'.bytes) :=
  ⟨(Key.derive_gst h).1, (Key.derive_gst h).2, Key.derive_derives h⟩

/-- **C22** derivation fails (panics) exactly when it would go back before the GST epoch. -/
theorem C22_derive_returns_iff (k : Key) (n : Nat) :
    (k.derive C n).Returns ↔ 30 * (n : Int) ≤ k.gst.abs := by
  constructor
  · rintro ⟨k', h⟩
    have h1 := (Key.derive_gst h).2
    have h2 := k'.gst.abs_representable
    simp only [Representable] at h2; omega
  · intro h
    obtain ⟨k', h'⟩ := Key.derive_returns (C := C) h
    exact ⟨k', h'⟩

/-! ## C23 -/

/-- The verdict of `validate_key` according to the specification. -/
inductive KeyVerdict (C : Crypto) (self other : Key) : Except ValidationError Key → Prop
  | differentChain (h : self.chain ≠ other.chain) : KeyVerdict C self other (.error .DifferentChain)
  | doesNotFollow (h : self.chain = other.chain) (h' : other.gst.abs ≤ self.gst.abs) :
      KeyVerdict C self other (.error .DoesNotFollow)
  | tooMany (h : self.chain = other.chain) (h' : self.gst.abs + 30 * 3000 < other.gst.abs) :
      KeyVerdict C self other (.error .TooManyDerivations)
  | wrong (h : self.chain = other.chain) (n : Nat) (hn : 1 ≤ n ∧ n ≤ 3000)
      (hg : other.gst.abs = self.gst.abs + 30 * n)
      (hd : ¬ Derives C self.chain n (other.gst, other.bytes) (self.gst, self.bytes)) :
      KeyVerdict C self other (.error .WrongOneWayFunction)
  | ok (h : self.chain = other.chain) (n : Nat) (hn : 1 ≤ n ∧ n ≤ 3000)
      (hg : other.gst.abs = self.gst.abs + 30 * n)
      (hd : Derives C self.chain n (other.gst, other.bytes) (self.gst, self.bytes)) :
      KeyVerdict C self other (.ok other)

/-- **C23** on keys of subframes `validate_key` never panics, and its verdict is exactly the one of
the specification. -/
theorem C23_validate_key_exact (self other : Key) (hs : self.gst.Aligned) (ho : other.gst.Aligned) :
    ∃ r, self.validateKey C other = .ok r ∧ KeyVerdict C self other r := by
  unfold Key.validateKey
  by_cases hc : self.chain = other.chain
  · simp only [hc, ne_eq, not_true_eq_false, if_false]
    by_cases hlt : self.gst.abs < other.gst.abs
    · have hcmp := (Gst.cmp_lt).2 hlt
      simp only [hcmp, not_true_eq_false, if_false]
      obtain ⟨d, hd1, hd2⟩ : ∃ d, other.gst.subframesDifference self.gst = .ok d ∧
          30 * d = other.gst.abs - self.gst.abs :=
        ⟨_, Gst.subframesDifference_aligned ho hs, by unfold Gst.Aligned at hs ho; omega⟩
      simp only [hd1, Res.ok_bind]
      have hd1' : d ≥ 1 := by omega
      simp only [hd1', decide_true, Res.assert_true, Res.ok_bind]
      by_cases h3 : d > 3000
      · simp only [h3, if_true, Res.pure_eq]
        exact ⟨_, rfl, .tooMany hc (by omega)⟩
      · simp only [h3, if_false]
        have hsr := self.gst.abs_representable
        simp only [Representable] at hsr
        obtain ⟨k', hk'⟩ := Key.derive_returns (C := C) (k := other) (n := d.toNat) (by omega)
        have hg := Key.derive_gst hk'
        have hgst : k'.gst = self.gst := Gst.abs_inj (by omega)
        simp only [hk', Res.ok_bind, hgst, beq_self_eq_true, Res.assert_true]
        have hder := Key.derive_derives hk'
        have hkb : k'.data.val.take other.chain.keySizeBytes = k'.bytes := by
          rw [Key.bytes, hg.1]
        have hsb : self.data.val.take other.chain.keySizeBytes = self.bytes := by
          rw [Key.bytes, hc]
        rw [hkb, hsb]
        by_cases heq : k'.bytes = self.bytes
        · rw [if_pos heq]
          refine ⟨_, rfl, .ok hc d.toNat (by omega) (by omega) ?_⟩
          rw [hc, ← heq, ← hgst]; exact hder
        · rw [if_neg heq]
          refine ⟨_, rfl, .wrong hc d.toNat (by omega) (by omega) ?_⟩
          intro hcon
          rw [hc] at hcon
          have := hder.det hcon
          simp only [Prod.mk.injEq] at this
          exact heq this.2
    · have hcmp : Gst.cmp self.gst other.gst ≠ .lt := fun h => hlt (Gst.cmp_lt.1 h)
      simp only [hcmp, not_false_eq_true, if_true, Res.pure_eq]
      exact ⟨_, rfl, .doesNotFollow hc (by omega)⟩
  · simp only [ne_eq, hc, not_false_eq_true, if_true, Res.pure_eq]
    exact ⟨_, rfl, .differentChain hc⟩

/-- **C23** acceptance, as an equivalence. -/
theorem C23_accepts_iff (self other k : Key) (hs : self.gst.Aligned) (ho : other.gst.Aligned) :
    self.validateKey C other = .ok (.ok k) ↔ k = other ∧ self.chain = other.chain ∧
      ∃ n : Nat, 1 ≤ n ∧ n ≤ 3000 ∧ other.gst.abs = self.gst.abs + 30 * n ∧
        Derives C self.chain n (other.gst, other.bytes) (self.gst, self.bytes) := by
  obtain ⟨r, h1, h2⟩ := C23_validate_key_exact (C := C) self other hs ho
  rw [h1]
  constructor
  · intro h
    simp only [Res.ok.injEq] at h
    subst h
    cases h2 with
    | ok h n hn hg hd => exact ⟨rfl, h, n, hn.1, hn.2, hg, hd⟩
  · rintro ⟨rfl, hc, n, hn1, hn2, hg, hd⟩
    cases h2 with
    | differentChain h => exact absurd hc h
    | doesNotFollow h h' => omega
    | tooMany h h' => omega
    | wrong h n' hn' hg' hd' =>
      have : n' = n := by omega
      subst this; exact absurd hd hd'
    | ok => rfl

/-- **C23** acceptance is transitive along a chain (as far as the limit of 3000 subframes allows). -/
theorem C23_transitive (a b c : Key) (ha : a.gst.Aligned) (hb : b.gst.Aligned) (hc : c.gst.Aligned)
    (hab : a.validateKey C b = .ok (.ok b)) (hbc : b.validateKey C c = .ok (.ok c))
    (hle : c.gst.abs ≤ a.gst.abs + 30 * 3000) : a.validateKey C c = .ok (.ok c) := by
  rw [C23_accepts_iff _ _ _ ha hb] at hab
  rw [C23_accepts_iff _ _ _ hb hc] at hbc
  rw [C23_accepts_iff _ _ _ ha hc]
  obtain ⟨_, h1, n, h2, h3, h4, h5⟩ := hab
  obtain ⟨_, k1, m, k2, k3, k4, k5⟩ := hbc
  refine ⟨rfl, h1.trans k1, m + n, by omega, by omega, by omega, ?_⟩
  rw [h1]
  rw [h1] at h5
  exact k5.trans h5

/-! ## C24 -/

/-- **C24** if a trusted key accepts two keys of the same instant with different bytes, then two
different inputs of the one-way function with the same (truncated) output are exhibited: they occur at
the same step of the two derivations. -/
theorem C24_key_binding (self k₁ k₂ : Key) (hs : self.gst.Aligned) (h1a : k₁.gst.Aligned)
    (h2a : k₂.gst.Aligned) (h₁ : self.validateKey C k₁ = .ok (.ok k₁))
    (h₂ : self.validateKey C k₂ = .ok (.ok k₂)) (hg : k₁.gst = k₂.gst) (hne : k₁.bytes ≠ k₂.bytes) :
    ∃ n : Nat, k₁.gst.abs = self.gst.abs + 30 * n ∧ n ≤ 3000 ∧
      DerivationsCollide C self.chain n k₁.gst k₁.bytes k₂.bytes := by
  rw [C23_accepts_iff _ _ _ hs h1a] at h₁
  rw [C23_accepts_iff _ _ _ hs h2a] at h₂
  obtain ⟨_, hc1, n, _, _, hg1, hd1⟩ := h₁
  obtain ⟨_, hc2, m, _, _, hg2, hd2⟩ := h₂
  rw [← hg] at hg2 hd2
  have : n = m := by omega
  subst this
  refine ⟨n, by omega, by omega, ?_⟩
  exact hd1.collision hd2 (by rw [Key.bytes_length, Key.bytes_length, ← hc1, ← hc2]) hne

end Verif
