import Verif.Lemmas.Maclt
import Verif.Spec.MackLayout

/-! # C20, C21, C50: MACK messages -/

namespace Verif

variable {C : Crypto}

/-! ## C20 -/

/-- **C20** `validate_macseq` accepts exactly when the MACSEQ field is the first 12 bits of the MAC of
PRNA, GST and the tag-infos of the flexible slots of the row of the MAC look-up table for the half
minute, in increasing order.  (The row has no flexible slot beyond the tags of the MACK; otherwise see
`C20_flex_slot_beyond_panics`.) -/
theorem C20_macseq_accepts_iff (k : Key) (hu : k.MacUsable) (msg : MackMessage) (prna : Svn) (g : Gst)
    (slots : List Slot) (hs : icdSlots k.chain.maclt (minuteHalf g) = some slots)
    (hf : ∀ j ∈ flexSlots slots, j < (480 - 8 * k.chain.keySizeBytes) / (k.chain.tagSizeBits + 16)) :
    ∃ r, k.validateMacseq C (Mack.new msg (8 * k.chain.keySizeBytes) k.chain.tagSizeBits) prna g = .ok r ∧
      (r = .ok () ↔
        (macBits C k (packBytes (storeBe 8 prna.val ++ storeBe 12 g.wn ++ storeBe 20 g.tow
            ++ (flexSlots slots).flatMap (tagInfoBits msg k.chain.tagSizeBits)))).take 12
          = ((bitsOf msg.val).drop k.chain.tagSizeBits).take 12) := by
  have := Key.validateMacseq_ok (C := C) hu msg k.chain prna g hs hf
  rw [mackOf, Chain.keySizeBits, Nat.mul_comm] at this
  exact this

/-- **C20** a table id that the ICD does not define is an error, not a panic and not an acceptance. -/
theorem C20_unknown_table (k : Key) (hu : k.MacUsable) (m : Mack) (prna : Svn) (g : Gst)
    (hs : icdMaclt k.chain.maclt = none) :
    k.validateMacseq C m prna g = .ok (.error (.MacLTError .InvalidMaclt)) := by
  obtain ⟨o, ho, _⟩ := Key.mac_ok (C := C) hu []
  unfold Key.validateMacseq
  rw [ho]
  simp only [Res.ok_bind]
  rw [halfMinute_eq, Maclt.getFlxIndices_eq (minuteHalf_cases g)]
  simp [icdSlots, hs]

/-- **C20** a signed chain whose look-up table row has a flexible slot beyond the tags that fit its
sizes makes `validate_macseq` panic (the table id and the sizes come from the signed KROOT). -/
theorem C20_flex_slot_beyond_panics (k : Key) (msg : MackMessage) (prna : Svn) (g : Gst)
    (slots : List Slot) (hs : icdSlots k.chain.maclt (minuteHalf g) = some slots) (j : Nat)
    (hj : j ∈ flexSlots slots) (hb : k.chain.numTags ≤ j) :
    (k.validateMacseq C (mackOf msg k.chain) prna g).Panics := by
  obtain ⟨w, hw⟩ := Key.flexInfos_panics msg k.chain hj (by omega)
  unfold Key.validateMacseq
  cases k.mac C [] with
  | panic w => exact ⟨w, rfl⟩
  | ok o =>
    simp only [Res.ok_bind]
    rw [halfMinute_eq, Maclt.getFlxIndices_eq (minuteHalf_cases g), hs]
    simp only [Res.ok_bind]
    rw [hw]
    exact ⟨w, rfl⟩

theorem flatMap_inj {α β : Type} {f f' : α → List β} {n : Nat} {l : List α}
    (hf : ∀ a ∈ l, (f a).length = n) (hf' : ∀ a ∈ l, (f' a).length = n)
    (h : l.flatMap f = l.flatMap f') : ∀ a ∈ l, f a = f' a := by
  induction l with
  | nil => simp
  | cons b l ih =>
    simp only [List.flatMap_cons] at h
    have := List.append_inj h (by rw [hf b (by simp), hf' b (by simp)])
    intro a ha
    rcases List.mem_cons.1 ha with rfl | ha
    · exact this.1
    · exact ih (fun a ha => hf a (by simp [ha])) (fun a ha => hf' a (by simp [ha])) this.2 a ha

theorem tagInfoBits_length (msg : MackMessage) (c : Chain) {j : Nat} (hj : j < c.numTags) :
    (tagInfoBits msg c.tagSizeBits j).length = 16 := by
  have h1 := c.numTags_mul_le
  have h2 : (j + 1) * (c.tagSizeBits + 16) ≤ c.numTags * (c.tagSizeBits + 16) := Nat.mul_le_mul_right _ hj
  rw [Nat.add_mul] at h2
  simp only [tagInfoBits, List.length_take, List.length_drop, Mack.bits_length]
  omega

/-- **C20** the MACed bytes determine the transmitting satellite, the time (week modulo 4096) and every
tag-info in a flexible slot. -/
theorem C20_message_determines_flexible_infos (c : Chain) (msg₁ msg₂ : MackMessage) (slots : List Slot)
    (hf : ∀ j ∈ flexSlots slots, j < c.numTags) (p₁ p₂ : Svn) (g₁ g₂ : Gst)
    (h : macseqMessage msg₁ c.tagSizeBits slots p₁ g₁ = macseqMessage msg₂ c.tagSizeBits slots p₂ g₂) :
    p₁ = p₂ ∧ g₁.wn % 4096 = g₂.wn % 4096 ∧ g₁.tow = g₂.tow ∧
      ∀ j ∈ flexSlots slots, tagInfoBits msg₁ c.tagSizeBits j = tagInfoBits msg₂ c.tagSizeBits j := by
  have hl : ∀ msg : MackMessage, ((flexSlots slots).flatMap (tagInfoBits msg c.tagSizeBits)).length
      = 16 * (flexSlots slots).length := by
    intro msg
    have : ∀ l : List Nat, (∀ j ∈ l, j < c.numTags) →
        (l.flatMap (tagInfoBits msg c.tagSizeBits)).length = 16 * l.length := by
      intro l hl
      induction l with
      | nil => rfl
      | cons a l ih =>
        rw [List.flatMap_cons, List.length_append, tagInfoBits_length msg c (hl a (by simp)),
          ih (fun j hj => hl j (by simp [hj])), List.length_cons]
        omega
    exact this _ hf
  unfold macseqMessage at h
  have hb := packBytes_inj (by simp [hl]) h
  obtain ⟨hb, hi⟩ := List.append_inj' hb (by rw [hl, hl])
  obtain ⟨hb, ht⟩ := List.append_inj' hb (by simp)
  obtain ⟨hp, hw⟩ := List.append_inj' hb (by simp)
  refine ⟨?_, ?_, ?_, ?_⟩
  · apply Svn.ext
    have := p₁.h36; have := p₂.h36
    exact storeBe_inj (n := 8) (by omega) (by omega) hp
  · have := congrArg loadBe hw
    simpa [loadBe_storeBe] using this
  · have := g₁.htow; have := g₂.htow
    exact storeBe_inj (n := 20) (by omega) (by omega) ht
  · exact flatMap_inj (fun j hj => tagInfoBits_length msg₁ c (hf j hj))
      (fun j hj => tagInfoBits_length msg₂ c (hf j hj)) hi

/-! ## C21 -/

/-- **C21** `get_maclt_entry` is ICD Annex C: for every id, half minute and tag number the slot of the
table, or an error if there is none; never a panic. -/
theorem C21_get_maclt_entry_exact (id half n : Nat) (hh : half = 0 ∨ half = 1) (hn : 1 ≤ n) :
    (icdSlots id half = none → Maclt.getEntry id half n = .ok (.error .InvalidMaclt)) ∧
    ∀ slots, icdSlots id half = some slots →
      (slots.length ≤ n → Maclt.getEntry id half n = .ok (.error .InvalidTagNumber)) ∧
      ∀ s, slots[n]? = some s → Maclt.getEntry id half n = .ok (.ok (match s with
        | .S00 => .Fixed .InavCed .SelfAuth
        | .E00 => .Fixed .InavCed .CrossAuth
        | .S04 => .Fixed .InavTiming .SelfAuth
        | .S12 => .Fixed .SlowMac .SelfAuth
        | .E12 => .Fixed .SlowMac .CrossAuth
        | .FLX => .Flex)) := by
  rw [Maclt.getEntry_eq hh hn]
  unfold Maclt.entrySpec
  refine ⟨fun h => by rw [h], ?_⟩
  intro slots h
  refine ⟨fun hl => ?_, fun s hs => ?_⟩
  · rw [h]; dsimp only; rw [List.getElem?_eq_none hl]
  · rw [h]; dsimp only; rw [hs]; cases s <;> rfl

/-- **C21** `get_flx_indices` lists, in increasing order, exactly the tag numbers for which
`get_maclt_entry` returns `Flex`, and fails exactly for the ids for which that does. -/
theorem C21_flx_indices_exact (id half : Nat) (hh : half = 0 ∨ half = 1) :
    (∃ idxs, Maclt.getFlxIndices id half = .ok (.ok idxs) ∧ idxs.Pairwise (· < ·) ∧
      ∀ j, j ∈ idxs ↔ 1 ≤ j ∧ Maclt.getEntry id half j = .ok (.ok .Flex)) ∨
    (Maclt.getFlxIndices id half = .ok (.error .InvalidMaclt) ∧
      ∀ j, 1 ≤ j → Maclt.getEntry id half j = .ok (.error .InvalidMaclt)) := by
  rw [Maclt.getFlxIndices_eq hh]
  cases h : icdSlots id half with
  | none =>
    right
    refine ⟨rfl, fun j hj => ?_⟩
    rw [Maclt.getEntry_eq hh hj, Maclt.entrySpec, h]
  | some slots =>
    left
    refine ⟨_, rfl, flexSlots_sorted slots, fun j => ?_⟩
    rw [flexSlots_mem]
    constructor
    · intro hj
      have h1 : 1 ≤ j := by
        rcases Nat.eq_zero_or_pos j with rfl | h1
        · rw [Maclt.slots_head h] at hj; simp at hj
        · exact h1
      refine ⟨h1, ?_⟩
      rw [Maclt.getEntry_eq hh h1, Maclt.entrySpec, h]
      dsimp only
      rw [hj]; rfl
    · rintro ⟨h1, h2⟩
      rw [Maclt.getEntry_eq hh h1, Maclt.entrySpec, h] at h2
      dsimp only at h2
      cases hs : slots[j]? with
      | none => rw [hs] at h2; simp at h2
      | some s =>
        rw [hs] at h2
        cases s <;> simp [Slot.code] at h2 ⊢

/-- **C21** ADKD 4 slots are self-authentication slots: the assertion of `get_maclt_entry` never
fires. -/
theorem C21_timing_slots_are_self (id half n : Nat) (o : AuthObject)
    (h : Maclt.getEntry id half n = .ok (.ok (.Fixed .InavTiming o))) : o = .SelfAuth := by
  have hh : half = 0 ∨ half = 1 := by
    unfold Maclt.getEntry at h
    obtain ⟨u, h1, _⟩ := Res.bind_eq_ok.1 h
    simpa using Res.assert_eq_ok.1 h1
  have hn : 1 ≤ n := by
    unfold Maclt.getEntry at h
    obtain ⟨u, h1, h2⟩ := Res.bind_eq_ok.1 h
    obtain ⟨u, h3, _⟩ := Res.bind_eq_ok.1 h2
    simpa using Res.assert_eq_ok.1 h3
  rw [Maclt.getEntry_eq hh hn, Maclt.entrySpec] at h
  split at h
  · simp at h
  · split at h
    · simp at h
    · rename_i s _
      cases s <;> simp [Slot.code] at h
      exact h.symm

/-- **C21** `Mack::validate` accepts exactly the MACKs whose MACSEQ is right and whose every tag after
the first lies in a slot of the table row and is allowed by it: in a fixed slot it has the ADKD of the
slot and a PRND in 1..=36, equal to the transmitting satellite in a self-authentication slot. -/
theorem C21_mack_validate_exact (k : Key) (msg : MackMessage) (prna : Svn) (g : Gst) :
    (∃ m, (Mack.new msg k.chain.keySizeBits k.chain.tagSizeBits).validate C k prna g = .ok (.ok m)) ↔
      k.MacUsable ∧ ∃ slots, icdSlots k.chain.maclt (minuteHalf g) = some slots ∧
        (∀ j ∈ flexSlots slots, j < k.chain.numTags) ∧
        MacseqOk C k msg k.chain.tagSizeBits slots prna g ∧
        ∀ j, 1 ≤ j → j < k.chain.numTags → ∃ s, slots[j]? = some s ∧
          s.Allows prna (mackTag (bitsOf msg.val) k.chain.tagSizeBits prna j) :=
  Mack.validate_iff msg k k.chain prna g

/-- **C21** (consequence) in an accepted MACK a fixed slot of the table holds a tag with the ADKD of
the slot, a satellite number, and the transmitting satellite if the slot is for self-authentication. -/
theorem C21_accepted_conforms (k : Key) (msg m : Mack) (raw : MackMessage) (prna : Svn) (g : Gst)
    (hm : msg = Mack.new raw k.chain.keySizeBits k.chain.tagSizeBits)
    (h : msg.validate C k prna g = .ok (.ok m)) (j : Nat) (hj : 1 ≤ j) (t : TagAndInfo)
    (ht : msg.tagAndInfo j = .ok t) (adkd : Adkd) (o : AuthObject)
    (hs : Maclt.getEntry k.chain.maclt (minuteHalf g) j = .ok (.ok (.Fixed adkd o))) :
    t.adkd = adkd ∧ ∃ p, t.prnd = .GalileoSvid p ∧ 1 ≤ p ∧ p ≤ 36 ∧ (o = .SelfAuth → p = prna.val) := by
  subst hm
  obtain ⟨_, slots, h1, _, _, h4⟩ := (C21_mack_validate_exact k raw prna g).1 ⟨m, h⟩
  have hjn : j < k.chain.numTags := by
    apply Decidable.byContradiction
    intro hc
    obtain ⟨w, hw⟩ := Mack.tagAndInfo_panics raw k.chain (j := j) (by omega)
    unfold mackOf at hw
    rw [hw] at ht; cases ht
  have ht' := Mack.tagAndInfo_ok raw k.chain (by omega) hjn
  unfold mackOf at ht'
  rw [ht'] at ht
  cases ht
  obtain ⟨s, hs1, hs2⟩ := h4 j hj hjn
  rw [Maclt.getEntry_eq (minuteHalf_cases g) hj, Maclt.entrySpec, h1] at hs
  dsimp only at hs
  rw [hs1] at hs
  simp only [Res.ok.injEq, Except.ok.injEq] at hs
  obtain ⟨_, hp, ha, _⟩ := Mack.tagBlock_fields raw k.chain prna (by omega) hjn
  rw [hp, ha]
  generalize mackTag (bitsOf raw.val) k.chain.tagSizeBits prna j = tt at *
  have fin : ∀ n, s.adkd = some n → Mack.adkdOf n = adkd → (s.isSelf = true ↔ o = .SelfAuth) →
      Mack.adkdOf tt.adkd = adkd ∧ ∃ p, Mack.prndOf tt.prnd = .GalileoSvid p ∧ 1 ≤ p ∧ p ≤ 36 ∧
        (o = .SelfAuth → p = prna.val) := by
    intro n h1 h2 h3
    have := hs2 n h1
    exact ⟨by rw [this.1, h2], tt.prnd, Mack.prndOf_svid.2 ⟨rfl, this.2.1⟩, this.2.1.1, this.2.1.2,
      fun h => this.2.2 (h3.2 h)⟩
  cases s with
  | S00 => cases hs; exact fin 0 rfl rfl (by decide)
  | E00 => cases hs; exact fin 0 rfl rfl (by decide)
  | S04 => cases hs; exact fin 4 rfl rfl (by decide)
  | S12 => cases hs; exact fin 12 rfl rfl (by decide)
  | E12 => cases hs; exact fin 12 rfl rfl (by decide)
  | FLX => cases hs

/-! ## C50 -/

theorem flatMap_drop_take {α β : Type} {f : α → List β} {n : Nat} {l : List α}
    (hf : ∀ a ∈ l, (f a).length = n) {i : Nat} {a : α} (hi : l[i]? = some a) (rest : List β) :
    ((l.flatMap f ++ rest).drop (i * n)).take n = f a := by
  induction l generalizing i with
  | nil => simp at hi
  | cons b l ih =>
    cases i with
    | zero =>
      simp only [List.getElem?_cons_zero, Option.some.injEq] at hi
      subst hi
      rw [Nat.zero_mul, List.drop_zero, List.flatMap_cons, List.append_assoc,
        ← hf b (by simp), List.take_left]
    | succ i =>
      simp only [List.getElem?_cons_succ] at hi
      rw [List.flatMap_cons, Nat.succ_mul, Nat.add_comm, ← List.drop_drop, List.append_assoc]
      have hb := hf b (by simp)
      conv => lhs; arg 2; arg 2; rw [← hb, List.drop_left]
      exact ih (fun a ha => hf a (by simp [ha])) hi

theorem TagFields.bits_length (t : TagFields) : t.bits.length = t.tag.length + 16 := by
  simp [TagFields.bits]

/-- **C50** decoding a MACK laid out as in the ICD, with the sizes of the chain, gives back every
field; no accessor panics. -/
theorem C50_mack_fields_decoded (c : Chain) (f : MackFields) (hf : f.Fits c) (msg : MackMessage)
    (hm : bitsOf msg.val = f.bits) :
    let m := Mack.new msg c.keySizeBits c.tagSizeBits
    m.tag0 = .ok f.tag0 ∧ m.macseq = .ok f.macseq ∧ m.cop = .ok f.cop ∧
    m.numTags = .ok (f.tags.length + 1) ∧ m.key = .ok f.key ∧
    ∀ (j : Nat) (t : TagFields), f.tags[j]? = some t → ∃ x, m.tagAndInfo (j + 1) = .ok x ∧
      x.tag = t.tag ∧ PrndMeans t.prnd x.prnd ∧ AdkdMeans t.adkd x.adkd ∧ x.cop = t.cop ∧
      x.tagInfo = storeBe 8 t.prnd ++ storeBe 4 t.adkd ++ storeBe 4 t.cop := by
  obtain ⟨h0, h1, h2, h3, h4, h5⟩ := hf
  let prna : Svn := ⟨1, by omega, by omega⟩
  have e0 := Mack.tag0_ok msg c prna
  have e1 := Mack.macseq_ok msg c
  have e2 := Mack.cop_ok msg c prna
  have e3 := Mack.numTags_ok msg c
  have e4 := Mack.key_ok msg c
  have htl : ∀ t ∈ f.tags, t.bits.length = c.tagSizeBits + 16 := by
    intro t ht; rw [t.bits_length, (h4 t ht).1]
  have hfl : (f.tags.flatMap TagFields.bits).length = f.tags.length * (c.tagSizeBits + 16) := by
    have : ∀ l : List TagFields, (∀ t ∈ l, t.bits.length = c.tagSizeBits + 16) →
        (l.flatMap TagFields.bits).length = l.length * (c.tagSizeBits + 16) := by
      intro l hl
      induction l with
      | nil => simp
      | cons a l ih =>
        rw [List.flatMap_cons, List.length_append, hl a (by simp), ih (fun t ht => hl t (by simp [ht])),
          List.length_cons, Nat.succ_mul, Nat.add_comm]
    exact this _ htl
  have hnum : c.numTags = f.tags.length + 1 := h3.symm
  unfold MackFields.bits at hm
  intro m
  change m.tag0 = _ at e0
  change m.macseq = _ at e1
  change m.cop = _ at e2
  change m.numTags = _ at e3
  change m.key = _ at e4
  refine ⟨?_, ?_, ?_, by rw [e3, hnum], ?_, ?_⟩
  · rw [e0]
    simp only [mackTag, if_true, Nat.zero_mul, List.drop_zero, hm, List.append_assoc]
    rw [← h0, List.take_left]
  · rw [e1, hm]
    simp only [List.append_assoc]
    rw [← h0, List.drop_left, List.take_append_of_le_length (by simp), List.take_of_length_le (by simp),
      loadBe_storeBe, Nat.mod_eq_of_lt h1]
  · rw [e2]
    simp only [mackTag, if_true, Nat.zero_mul, List.drop_zero, hm, List.append_assoc]
    rw [← h0, ← List.drop_drop, List.drop_left, List.drop_append_of_le_length (by simp),
      List.drop_of_length_le (by simp), List.nil_append, List.take_append_of_le_length (by simp),
      List.take_of_length_le (by simp), loadBe_storeBe, Nat.mod_eq_of_lt h2]
  · rw [e4, hm]
    have hlen : (f.tag0 ++ storeBe 12 f.macseq ++ storeBe 4 f.cop ++ f.tags.flatMap TagFields.bits).length
        = c.numTags * (c.tagSizeBits + 16) := by
      rw [List.length_append, hfl, hnum, Nat.succ_mul]
      simp only [List.length_append, storeBe_length, h0]
      omega
    rw [← hlen, ← h5]
    generalize f.tag0 ++ storeBe 12 f.macseq ++ storeBe 4 f.cop ++ f.tags.flatMap TagFields.bits = pre
    rw [List.append_assoc, List.drop_left, List.take_left]
  · intro j t hj
    have hjl : j < f.tags.length := by
      apply Decidable.byContradiction
      intro hc
      rw [List.getElem?_eq_none (by omega)] at hj; cases hj
    have ht := h4 t (List.mem_of_getElem? hj)
    have hblock : Mack.tagBlock msg c (j + 1) = t.bits := by
      unfold Mack.tagBlock
      rw [hm]
      have hpre : (f.tag0 ++ storeBe 12 f.macseq ++ storeBe 4 f.cop).length = c.tagSizeBits + 16 := by
        simp only [List.length_append, storeBe_length, h0]
      rw [Nat.succ_mul, Nat.add_comm (j * _), ← List.drop_drop]
      rw [List.append_assoc, List.append_assoc]
      conv => lhs; arg 2; arg 2; rw [← hpre, List.drop_left]
      exact flatMap_drop_take htl hj _
    refine ⟨_, Mack.tagAndInfo_ok msg c (by omega) (by omega), ?_⟩
    rw [hblock]
    have hl : t.bits.length = c.tagSizeBits + 16 := htl t (List.mem_of_getElem? hj)
    have d0 : t.bits.drop (t.bits.length - 16) = storeBe 8 t.prnd ++ storeBe 4 t.adkd ++ storeBe 4 t.cop := by
      rw [hl, Nat.add_sub_cancel, ← ht.1]
      simp only [TagFields.bits, List.append_assoc, List.drop_left]
    have d8 : t.bits.drop (t.bits.length - 8) = storeBe 4 t.adkd ++ storeBe 4 t.cop := by
      have : t.bits.length - 8 = (t.bits.length - 16) + 8 := by omega
      rw [this, ← List.drop_drop, d0, List.append_assoc]
      have := List.drop_left (l₁ := storeBe 8 t.prnd) (l₂ := storeBe 4 t.adkd ++ storeBe 4 t.cop)
      rwa [storeBe_length] at this
    have d4 : t.bits.drop (t.bits.length - 4) = storeBe 4 t.cop := by
      have : t.bits.length - 4 = (t.bits.length - 8) + 4 := by omega
      rw [this, ← List.drop_drop, d8]
      have := List.drop_left (l₁ := storeBe 4 t.adkd) (l₂ := storeBe 4 t.cop)
      rwa [storeBe_length] at this
    refine ⟨?_, ?_, ?_, ?_, ?_⟩
    · simp only [TagAndInfo.tag]
      rw [hl, Nat.add_sub_cancel, ← ht.1]
      simp only [TagFields.bits, List.append_assoc, List.take_left]
    · simp only [TagAndInfo.prnd]
      rw [d0, List.append_assoc, List.take_append_of_le_length (by simp), List.take_of_length_le (by simp),
        loadBe_storeBe, Nat.mod_eq_of_lt ht.2.1]
      split
      · rename_i h; exact ⟨rfl, h⟩
      · split
        · rename_i h; exact h
        · rename_i h h'; exact ⟨h, h'⟩
    · simp only [TagAndInfo.adkd]
      rw [d8, List.take_append_of_le_length (by simp), List.take_of_length_le (by simp),
        loadBe_storeBe, Nat.mod_eq_of_lt ht.2.2.1]
      split
      · assumption
      · assumption
      · assumption
      · rename_i a b c; exact ⟨a, b, c⟩
    · simp only [TagAndInfo.cop]
      rw [d4, loadBe_storeBe, Nat.mod_eq_of_lt ht.2.2.2]
    · simp only [TagAndInfo.tagInfo]
      rw [d0]

/-- **C50** for every chain and every 60-byte message the accessors return; `tag_and_info` returns
exactly for the tag numbers from 1 to the number of tags minus one. -/
theorem C50_accessors_never_panic (c : Chain) (msg : MackMessage) :
    let m := Mack.new msg c.keySizeBits c.tagSizeBits
    m.tag0.Returns ∧ m.macseq.Returns ∧ m.cop.Returns ∧ m.key.Returns ∧ m.numTags.Returns ∧
    ∀ n, (m.tagAndInfo n).Returns ↔ 1 ≤ n ∧ n < (480 - 8 * c.keySizeBytes) / (c.tagSizeBits + 16) := by
  let prna : Svn := ⟨1, by omega, by omega⟩
  refine ⟨⟨_, Mack.tag0_ok msg c prna⟩, ⟨_, Mack.macseq_ok msg c⟩, ⟨_, Mack.cop_ok msg c prna⟩,
    ⟨_, Mack.key_ok msg c⟩, ⟨_, Mack.numTags_ok msg c⟩, fun n => ?_⟩
  constructor
  · intro hr
    apply Decidable.byContradiction
    intro hc
    obtain ⟨w, hw⟩ := Mack.tagAndInfo_panics msg c (j := n) hc
    obtain ⟨a, ha⟩ := hr
    rw [show (Mack.new msg c.keySizeBits c.tagSizeBits).tagAndInfo n = _ from hw] at ha
    cases ha
  · intro h
    exact ⟨_, Mack.tagAndInfo_ok msg c h.1 h.2⟩

end Verif
