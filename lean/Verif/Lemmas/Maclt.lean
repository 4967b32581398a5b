import Verif.Spec.MacltSpec
import Verif.Lemmas.Mack

/-! # Lemmas on the MAC look-up table and MACK validation -/

namespace Verif

/-- The code's representation of a slot. -/
def Slot.code : Slot → MacLTSlot
  | .S00 => .Fixed .InavCed .SelfAuth
  | .E00 => .Fixed .InavCed .CrossAuth
  | .S04 => .Fixed .InavTiming .SelfAuth
  | .S12 => .Fixed .SlowMac .SelfAuth
  | .E12 => .Fixed .SlowMac .CrossAuth
  | .FLX => .Flex

namespace Maclt

/-- The ids of the table. -/
def ids : List Nat := [27, 28, 31, 33, 34, 35, 36, 37, 38, 39, 40, 41]

theorem table_ids : table.map (·.id) = ids := by decide

theorem icd_none {id : Nat} (h : id ∉ ids) : icdMaclt id = none := by
  unfold icdMaclt
  simp only [ids, List.mem_cons, List.not_mem_nil, or_false, not_or] at h
  split <;> first | rfl | (exfalso; omega)

theorem find_none {id : Nat} (h : id ∉ ids) : table.find? (fun e => e.id == id) = none := by
  rw [List.find?_eq_none]
  intro e he hc
  apply h
  rw [← table_ids]
  simp only [beq_iff_eq] at hc
  rw [← hc]
  exact List.mem_map_of_mem he

/-- The rows agree with the ICD, for the ids of the table and the two halves. -/
theorem find_some : ∀ id ∈ ids, ∃ e, table.find? (fun e => e.id == id) = some e ∧ ∃ r, icdMaclt id = some r ∧
    e.nt = r.1.length ∧ e.nt = r.2.length ∧ 4 ≤ e.nt ∧ e.nt ≤ 10 ∧
    (e.seq0.take (e.nt - 1)) = r.1.tail.map Slot.code ∧ (e.seq1.take (e.nt - 1)) = r.2.tail.map Slot.code := by
  intro id hid
  simp only [ids, List.mem_cons, List.not_mem_nil, or_false] at hid
  rcases hid with rfl | rfl | rfl | rfl | rfl | rfl | rfl | rfl | rfl | rfl | rfl | rfl <;>
    exact ⟨_, rfl, _, rfl, rfl, rfl, by decide, by decide, rfl, rfl⟩

theorem find_half {id half : Nat} {slots : List Slot} (h : icdSlots id half = some slots) :
    ∃ e, table.find? (fun e => e.id == id) = some e ∧ e.nt = slots.length ∧ 4 ≤ e.nt ∧ e.nt ≤ 10 ∧
      ((e.seq half).take (e.nt - 1)) = slots.tail.map Slot.code := by
  by_cases hid : id ∈ ids
  · obtain ⟨e, h1, r, h2, h3, h4, h5, h6, h7, h8⟩ := find_some id hid
    refine ⟨e, h1, ?_⟩
    simp only [icdSlots, h2, Option.map_some, Option.some.injEq] at h
    subst h
    unfold Entry.seq
    split
    · exact ⟨h3, h5, h6, h7⟩
    · exact ⟨h4, h5, h6, h8⟩
  · simp [icdSlots, icd_none hid] at h

theorem icdSlots_none {id half : Nat} (h : icdSlots id half = none) :
    table.find? (fun e => e.id == id) = none := by
  apply find_none
  intro hid
  obtain ⟨e, h1, r, h2, _⟩ := find_some id hid
  simp [icdSlots, h2] at h

theorem icdSlots_len {id half : Nat} {slots : List Slot} (h : icdSlots id half = some slots) :
    4 ≤ slots.length ∧ slots.length ≤ 10 := by
  obtain ⟨e, _, h1, h2, h3, _⟩ := find_half h; omega

/-- Result of `get_maclt_entry`. -/
def entrySpec (id half n : Nat) : Except MacLTError MacLTSlot :=
  match icdSlots id half with
  | none => .error .InvalidMaclt
  | some slots =>
    match slots[n]? with
    | none => .error .InvalidTagNumber
    | some s => .ok s.code

theorem getEntry_eq {id half n : Nat} (hh : half = 0 ∨ half = 1) (hn : 1 ≤ n) :
    getEntry id half n = .ok (entrySpec id half n) := by
  unfold getEntry entrySpec
  simp only [hh, decide_true, Res.assert_true, Res.ok_bind, ge_iff_le, hn]
  cases h : icdSlots id half with
  | none => rw [icdSlots_none h]; rfl
  | some slots =>
    obtain ⟨e, h1, h2, h3, h4, h5⟩ := find_half h
    rw [h1]
    dsimp only
    by_cases hle : e.nt ≤ n
    · rw [if_pos hle]
      have : slots[n]? = none := by rw [List.getElem?_eq_none_iff]; omega
      rw [this]; rfl
    · rw [if_neg hle]
      obtain ⟨s, hs⟩ : ∃ s, slots[n]? = some s := ⟨slots[n], List.getElem?_eq_getElem (by omega)⟩
      have hi : (e.seq half)[n - 1]? = some s.code := by
        have := congrArg (fun l => l[n - 1]?) h5
        simp only [List.getElem?_take, List.getElem?_map, List.getElem?_tail] at this
        rw [if_pos (by omega), Nat.sub_add_cancel hn, hs] at this
        exact this
      rw [hs]
      have : index (e.seq half) (n - 1) = .ok s.code := index_eq_ok.2 hi
      rw [this]
      cases s <;> rfl

theorem flexPositions_eq (l : List Slot) (j : Nat) :
    flexPositions (l.map Slot.code) j
      = ((List.range l.length).filter (fun i => l[i]? = some .FLX)).map (fun i => i + j + 1) := by
  induction l generalizing j with
  | nil => rfl
  | cons s l ih =>
    rw [List.map_cons, flexPositions, ih, List.length_cons, List.range_succ_eq_map, List.filter_cons,
      List.filter_map]
    have hf : ((fun i => decide ((s :: l)[i]? = some Slot.FLX)) ∘ Nat.succ)
        = (fun i => decide (l[i]? = some Slot.FLX)) := by
      funext i; simp
    rw [hf]
    have hc : (s.code = FLX) ↔ ((s :: l)[0]? = some Slot.FLX) := by
      cases s <;> simp [Slot.code, FLX]
    by_cases h : s.code = FLX
    · rw [if_pos h, if_pos (by simpa using hc.1 h)]
      simp only [List.map_cons, List.map_map, Nat.zero_add, List.cons.injEq, true_and]
      apply List.map_congr_left
      intro i _
      simp; omega
    · rw [if_neg h, if_neg (by simpa using fun hh => h (hc.2 hh))]
      simp only [List.map_map]
      apply List.map_congr_left
      intro i _
      simp; omega

theorem slots_head {id half : Nat} {slots : List Slot} (h : icdSlots id half = some slots) :
    slots = .S00 :: slots.tail := by
  by_cases hid : id ∈ ids
  · simp only [ids, List.mem_cons, List.not_mem_nil, or_false] at hid
    rcases hid with rfl | rfl | rfl | rfl | rfl | rfl | rfl | rfl | rfl | rfl | rfl | rfl <;>
    · simp only [icdSlots, icdMaclt, Option.map_some, Option.some.injEq] at h
      subst h
      split <;> rfl
  · simp [icdSlots, icd_none hid] at h

theorem getFlxIndices_eq {id half : Nat} (hh : half = 0 ∨ half = 1) :
    getFlxIndices id half = .ok (match icdSlots id half with
      | none => .error .InvalidMaclt
      | some slots => .ok (flexSlots slots)) := by
  unfold getFlxIndices
  simp only [hh, decide_true, Res.assert_true, Res.ok_bind]
  cases h : icdSlots id half with
  | none => rw [icdSlots_none h]; rfl
  | some slots =>
    obtain ⟨e, h1, h2, h3, h4, h5⟩ := find_half h
    rw [h1]
    dsimp only
    rw [h5, flexPositions_eq]
    have hs := slots_head h
    have : flexSlots slots = ((List.range slots.tail.length).filter (fun i => slots.tail[i]? = some .FLX)).map (fun i => i + 0 + 1) := by
      unfold flexSlots
      rw [hs]
      rw [List.length_cons, List.range_succ_eq_map, List.filter_cons, if_neg (by simp), List.filter_map]
      rfl
    rw [this]; rfl

end Maclt

theorem flexSlots_mem {slots : List Slot} {j : Nat} : j ∈ flexSlots slots ↔ slots[j]? = some .FLX := by
  simp only [flexSlots, List.mem_filter, List.mem_range, decide_eq_true_eq]
  constructor
  · exact fun h => h.2
  · intro h
    refine ⟨?_, h⟩
    apply Decidable.byContradiction
    intro hc
    rw [List.getElem?_eq_none (by omega)] at h
    cases h

theorem flexSlots_sorted (slots : List Slot) : (flexSlots slots).Pairwise (· < ·) :=
  List.Pairwise.filter _ List.pairwise_lt_range

theorem halfMinute_eq (g : Gst) : Chain.halfMinute g = minuteHalf g := rfl

theorem minuteHalf_cases (g : Gst) : minuteHalf g = 0 ∨ minuteHalf g = 1 := by
  unfold minuteHalf; omega

namespace Key
variable {C : Crypto}

theorem flexInfos_ok (msg : MackMessage) (c : Chain) {js : List Nat} (h : ∀ j ∈ js, 0 < j ∧ j < c.numTags) :
    ∃ out, flexInfos (mackOf msg c) js = .ok out ∧ bitsOf out = js.flatMap (tagInfoBits msg c.tagSizeBits) := by
  induction js with
  | nil => exact ⟨[], rfl, rfl⟩
  | cons j js ih =>
    obtain ⟨out, h1, h2⟩ := ih (fun i hi => h i (List.mem_cons_of_mem _ hi))
    obtain ⟨hj0, hj⟩ := h j (by simp)
    have hf := (Mack.tagBlock_fields msg c (⟨1, by omega, by omega⟩ : Svn) hj0 hj).2.2.2.2.1
    refine ⟨_, by rw [flexInfos, Mack.tagAndInfo_ok msg c hj0 hj, h1], ?_⟩
    rw [bitsOf_append, h2, hf]
    have hl : (tagInfoBits msg c.tagSizeBits j).length = 16 := by
      have h1 := c.numTags_mul_le
      have h2 : (j + 1) * (c.tagSizeBits + 16) ≤ c.numTags * (c.tagSizeBits + 16) := Nat.mul_le_mul_right _ hj
      rw [Nat.add_mul] at h2
      simp only [tagInfoBits, List.length_take, List.length_drop, Mack.bits_length]
      omega
    rw [bitsOf_packBytes_aligned (by unfold tagInfoBits at hl; rw [hl])]
    rfl

theorem flexInfos_panics (msg : MackMessage) (c : Chain) {js : List Nat} {j : Nat} (hm : j ∈ js)
    (h : ¬ (0 < j ∧ j < c.numTags)) : (flexInfos (mackOf msg c) js).Panics := by
  induction js with
  | nil => simp at hm
  | cons i js ih =>
    rw [flexInfos]
    rcases List.mem_cons.1 hm with rfl | hm
    · obtain ⟨w, hw⟩ := Mack.tagAndInfo_panics msg c h
      rw [hw]; exact ⟨_, rfl⟩
    · obtain ⟨w, hw⟩ := ih hm
      rw [hw]
      cases (mackOf msg c).tagAndInfo i <;> exact ⟨_, rfl⟩

theorem macseqMessage_eq (msg : MackMessage) (ts : Nat) (slots : List Slot) (prna : Svn) (g : Gst)
    {infos : List Byte} (h : bitsOf infos = (flexSlots slots).flatMap (tagInfoBits msg ts)) :
    prna.toByte :: storeGst g ++ infos = macseqMessage msg ts slots prna g := by
  apply bitsOf_inj
  unfold macseqMessage
  have hlen : ((flexSlots slots).flatMap (tagInfoBits msg ts)).length % 8 = 0 := by
    rw [← h, bitsOf_length]; omega
  rw [bitsOf_packBytes_aligned, List.cons_append, bitsOf_cons, bitsOf_append, storeGst_bits, h, Svn.toByte, byteBits_ofNat]
  · simp only [List.append_assoc]
  · simp only [List.length_append, storeBe_length]; omega

/-- `validate_macseq` when no flexible slot lies beyond the tags of the MACK. -/
theorem validateMacseq_ok {k : Key} (hu : k.MacUsable) (msg : MackMessage) (c : Chain) (prna : Svn) (g : Gst)
    {slots : List Slot} (hs : icdSlots k.chain.maclt (minuteHalf g) = some slots)
    (hf : ∀ j ∈ flexSlots slots, j < c.numTags) :
    ∃ r, k.validateMacseq C (mackOf msg c) prna g = .ok r ∧
      (r = .ok () ↔ MacseqOk C k msg c.tagSizeBits slots prna g) := by
  obtain ⟨o, ho, _⟩ := mac_ok (C := C) hu []
  have hf' : ∀ j ∈ flexSlots slots, 0 < j ∧ j < c.numTags := by
    intro j hj
    refine ⟨?_, hf j hj⟩
    rcases Nat.eq_zero_or_pos j with rfl | h
    · rw [flexSlots_mem, Maclt.slots_head hs] at hj; simp at hj
    · exact h
  obtain ⟨infos, hi1, hi2⟩ := flexInfos_ok msg c hf'
  obtain ⟨out, hm1, hm2, hm3⟩ := mac_ok (C := C) hu (macseqMessage msg c.tagSizeBits slots prna g)
  unfold validateMacseq
  rw [ho]
  simp only [Res.ok_bind]
  rw [halfMinute_eq, Maclt.getFlxIndices_eq (minuteHalf_cases g), hs]
  simp only [Res.ok_bind]
  rw [hi1]
  simp only [Res.ok_bind]
  rw [macseqMessage_eq msg c.tagSizeBits slots prna g hi2, hm1]
  simp only [Res.ok_bind]
  rw [Mack.macseq_ok]
  simp only [Res.ok_bind, Res.pure_eq]
  have hst : storeBe 12 (loadBe (((bitsOf msg.val).drop c.tagSizeBits).take 12)) = macseqField msg c.tagSizeBits := by
    have hl : (((bitsOf msg.val).drop c.tagSizeBits).take 12).length = 12 := by
      have := c.tagSize_le
      simp only [List.length_take, List.length_drop, Mack.bits_length]; omega
    have := storeBe_loadBe (((bitsOf msg.val).drop c.tagSizeBits).take 12)
    rw [hl] at this
    exact this
  rw [hst, hm3 12 (by omega)]
  unfold MacseqOk
  split
  · rename_i h; exact ⟨_, rfl, by simp [h]⟩
  · rename_i h; exact ⟨_, rfl, by simp [h]⟩

end Key

namespace Mack
variable {C : Crypto}

theorem adkdOf_inj {n : Nat} : (adkdOf n = .InavCed ↔ n = 0) ∧ (adkdOf n = .InavTiming ↔ n = 4) ∧
    (adkdOf n = .SlowMac ↔ n = 12) := by
  unfold adkdOf
  split
  · simp
  · simp
  · simp
  · rename_i h1 h2 h3
    simp only [reduceCtorEq, false_iff]
    exact ⟨h1, h2, h3⟩

theorem prndOf_svid {n p : Nat} : prndOf n = .GalileoSvid p ↔ p = n ∧ 1 ≤ n ∧ n ≤ 36 := by
  unfold prndOf
  split
  · simp; omega
  · split <;> simp <;> omega

/-- `validate_adkd` accepts exactly the tags that the slot allows. -/
theorem validateAdkd_ok (msg : MackMessage) (c c' : Chain) (prna : Svn) (g : Gst) {slots : List Slot}
    (hs : icdSlots c.maclt (minuteHalf g) = some slots) {j : Nat} (hj0 : 0 < j) (hj : j < c'.numTags) :
    ∃ r, c.validateAdkd j ⟨tagBlock msg c' j⟩ prna g = .ok r ∧
      (r = .ok () ↔ ∃ s, slots[j]? = some s ∧ s.Allows prna (mackTag (bitsOf msg.val) c'.tagSizeBits prna j)) := by
  obtain ⟨_, hp, ha, _⟩ := tagBlock_fields msg c' prna hj0 hj
  generalize mackTag (bitsOf msg.val) c'.tagSizeBits prna j = t at *
  unfold Chain.validateAdkd
  rw [halfMinute_eq, Maclt.getEntry_eq (minuteHalf_cases g) hj0]
  simp only [Res.ok_bind, Maclt.entrySpec, hs]
  cases hsj : slots[j]? with
  | none => exact ⟨_, rfl, by simp⟩
  | some s =>
    dsimp only
    have key : ∀ (a : Adkd) (n : Nat) (o : AuthObject), (adkdOf t.adkd = a ↔ t.adkd = n) → s.code = .Fixed a o →
        s.adkd = some n → (s.isSelf = true ↔ o = .SelfAuth) →
        ∃ r, (match (Except.ok s.code : Except MacLTError MacLTSlot) with
          | .error e => pure (.error (.MacLTError e))
          | .ok (.Fixed adkd object) =>
            if (⟨tagBlock msg c' j⟩ : TagAndInfo).adkd ≠ adkd then pure (.error .WrongAdkd)
            else
              match (⟨tagBlock msg c' j⟩ : TagAndInfo).prnd with
              | .GalileoSvid prnd =>
                if object = .SelfAuth ∧ prnd ≠ prna.val then pure (.error .WrongPrnd)
                else if 1 ≤ prnd ∧ prnd ≤ NUM_SVNS then pure (.ok ())
                else pure (.error .WrongPrnd)
              | _ => pure (.error .WrongPrnd)
          | .ok .Flex => pure (.ok ()) : Res (Except AdkdCheckError Unit)) = .ok r ∧
        (r = .ok () ↔ ∃ s', some s = some s' ∧ s'.Allows prna t) := by
      intro a n o hn hc hsa hself
      rw [hc]
      dsimp only
      have hall : (∃ s', some s = some s' ∧ s'.Allows prna t) ↔
          (t.adkd = n ∧ (1 ≤ t.prnd ∧ t.prnd ≤ 36) ∧ (o = .SelfAuth → t.prnd = prna.val)) := by
        constructor
        · rintro ⟨s', h1, h2⟩
          cases h1
          have := h2 n hsa
          exact ⟨this.1, this.2.1, fun h => this.2.2 (hself.2 h)⟩
        · rintro ⟨h1, h2, h3⟩
          refine ⟨s, rfl, ?_⟩
          intro a ha
          rw [hsa] at ha; cases ha
          exact ⟨h1, h2, fun h => h3 (hself.1 h)⟩
      rw [hall, ha, hp]
      split
      · rename_i h1
        exact ⟨_, rfl, by simp only [reduceCtorEq, false_iff]; intro h; exact h1 (hn.2 h.1)⟩
      · rename_i h1
        have h1 := hn.1 (by simpa using h1)
        cases hpp : prndOf t.prnd with
        | GalileoSvid p =>
          obtain ⟨rfl, h2, h3⟩ := prndOf_svid.1 hpp
          dsimp only
          split
          · rename_i h4
            exact ⟨_, rfl, by simp only [reduceCtorEq, false_iff]; intro h; exact h4.2 (h.2.2 h4.1)⟩
          · rename_i h4
            rw [if_pos ⟨h2, h3⟩]
            exact ⟨_, rfl, by simp only [true_iff]; exact ⟨h1, ⟨h2, h3⟩, fun h => Decidable.byContradiction fun h5 => h4 ⟨h, h5⟩⟩⟩
        | GalileoConstellation =>
          refine ⟨_, rfl, ?_⟩
          simp only [reduceCtorEq, false_iff]; intro h
          rw [prndOf_svid.2 ⟨rfl, h.2.1⟩] at hpp; cases hpp
        | Reserved =>
          refine ⟨_, rfl, ?_⟩
          simp only [reduceCtorEq, false_iff]; intro h
          rw [prndOf_svid.2 ⟨rfl, h.2.1⟩] at hpp; cases hpp
    obtain ⟨i0, i4, i12⟩ := adkdOf_inj (n := t.adkd)
    cases s with
    | S00 => exact key .InavCed 0 .SelfAuth i0 rfl rfl (by decide)
    | E00 => exact key .InavCed 0 .CrossAuth i0 rfl rfl (by decide)
    | S04 => exact key .InavTiming 4 .SelfAuth i4 rfl rfl (by decide)
    | S12 => exact key .SlowMac 12 .SelfAuth i12 rfl rfl (by decide)
    | E12 => exact key .SlowMac 12 .CrossAuth i12 rfl rfl (by decide)
    | FLX =>
      refine ⟨_, rfl, ?_⟩
      simp only [true_iff]
      exact ⟨_, rfl, by intro a ha; cases ha⟩

theorem validateTags_ok (msg : MackMessage) (c c' : Chain) (prna : Svn) (g : Gst) {slots : List Slot}
    (hs : icdSlots c.maclt (minuteHalf g) = some slots) {js : List Nat} (h : ∀ j ∈ js, 0 < j ∧ j < c'.numTags) :
    ∃ r, validateTags c (mackOf msg c') prna g js = .ok r ∧
      (r = .ok () ↔ ∀ j ∈ js, ∃ s, slots[j]? = some s ∧ s.Allows prna (mackTag (bitsOf msg.val) c'.tagSizeBits prna j)) := by
  induction js with
  | nil => exact ⟨_, rfl, by simp⟩
  | cons j js ih =>
    obtain ⟨r', h1, h2⟩ := ih (fun i hi => h i (List.mem_cons_of_mem _ hi))
    obtain ⟨hj0, hj⟩ := h j (by simp)
    obtain ⟨r, h3, h4⟩ := validateAdkd_ok msg c c' prna g hs hj0 hj
    rw [validateTags, tagAndInfo_ok msg c' hj0 hj]
    dsimp only
    rw [h3]
    cases r with
    | error e =>
      refine ⟨_, rfl, ?_⟩
      simp only [reduceCtorEq, false_iff] at h4 ⊢
      intro hc
      exact h4 (hc j (by simp))
    | ok u =>
      refine ⟨r', h1, ?_⟩
      rw [h2]
      simp only [List.mem_cons, forall_eq_or_imp]
      exact ⟨fun hh => ⟨h4.1 rfl, hh⟩, fun hh => hh.2⟩

/-- `Mack::validate` accepts exactly the MACKs with the right MACSEQ whose tags are allowed by the MAC
look-up table.  `c'` is the chain that gives the sizes. -/
theorem validate_iff (msg : MackMessage) (k : Key) (c' : Chain) (prna : Svn) (g : Gst) :
    (∃ m, (mackOf msg c').validate C k prna g = .ok (.ok m)) ↔
      k.MacUsable ∧ ∃ slots, icdSlots k.chain.maclt (minuteHalf g) = some slots ∧
        (∀ j ∈ flexSlots slots, j < c'.numTags) ∧ MacseqOk C k msg c'.tagSizeBits slots prna g ∧
        ∀ j, 1 ≤ j → j < c'.numTags → ∃ s, slots[j]? = some s ∧
          s.Allows prna (mackTag (bitsOf msg.val) c'.tagSizeBits prna j) := by
  have hrange : ∀ j ∈ List.range' 1 (c'.numTags - 1), 0 < j ∧ j < c'.numTags := by
    intro j hj
    rw [List.mem_range'_1] at hj; omega
  constructor
  · rintro ⟨m, h⟩
    unfold validate at h
    obtain ⟨r, h1, h2⟩ := Res.bind_eq_ok.1 h
    cases r with
    | error e => simp at h2
    | ok u =>
      have hu : k.MacUsable := by
        unfold Key.validateMacseq at h1
        obtain ⟨out, h1, _⟩ := Res.bind_eq_ok.1 h1
        exact Key.mac_returns_iff.1 ⟨out, h1⟩
      refine ⟨hu, ?_⟩
      cases hs : icdSlots k.chain.maclt (minuteHalf g) with
      | none =>
        unfold Key.validateMacseq at h1
        obtain ⟨out, _, h1⟩ := Res.bind_eq_ok.1 h1
        rw [halfMinute_eq, Maclt.getFlxIndices_eq (minuteHalf_cases g), hs] at h1
        simp at h1
      | some slots =>
        have hf : ∀ j ∈ flexSlots slots, j < c'.numTags := by
          intro j hj
          apply Decidable.byContradiction
          intro hc
          obtain ⟨w, hw⟩ := Key.flexInfos_panics msg c' hj (by omega)
          unfold Key.validateMacseq at h1
          obtain ⟨out, _, h1⟩ := Res.bind_eq_ok.1 h1
          rw [halfMinute_eq, Maclt.getFlxIndices_eq (minuteHalf_cases g), hs] at h1
          simp only [Res.ok_bind] at h1
          rw [hw] at h1
          simp at h1
        obtain ⟨r1, e1, e2⟩ := Key.validateMacseq_ok (C := C) hu msg c' prna g hs hf
        rw [h1] at e1
        cases e1
        dsimp only at h2
        obtain ⟨n, h3, h4⟩ := Res.bind_eq_ok.1 h2
        obtain ⟨r2, h5, h6⟩ := Res.bind_eq_ok.1 h4
        rw [numTags_ok] at h3
        cases h3
        obtain ⟨r3, e3, e4⟩ := validateTags_ok msg k.chain c' prna g hs hrange
        rw [h5] at e3
        cases e3
        cases r2 with
        | error e => simp at h6
        | ok u =>
          refine ⟨slots, rfl, hf, e2.1 rfl, ?_⟩
          intro j hj1 hj2
          exact e4.1 rfl j (List.mem_range'_1.2 (by omega))
  · rintro ⟨hu, slots, hs, hf, hm, ha⟩
    obtain ⟨r1, e1, e2⟩ := Key.validateMacseq_ok (C := C) hu msg c' prna g hs hf
    have := e2.2 hm
    subst this
    obtain ⟨r3, e3, e4⟩ := validateTags_ok msg k.chain c' prna g hs hrange
    have := e4.2 (fun j hj => ha j (by have := hrange j hj; omega) (hrange j hj).2)
    subst this
    refine ⟨mackOf msg c', ?_⟩
    unfold validate
    rw [e1]
    simp only [Res.ok_bind]
    rw [numTags_ok]
    simp only [Res.ok_bind]
    rw [e3]
    rfl

end Mack
end Verif
