import Verif.Spec.DsmSpec
import Verif.Prelude.BitsLemmas
import Verif.Lemmas.Subframe

/-! # Lemmas on `CollectDsm` -/

namespace Verif

theorem DsmHeader.dsmId_lt (h : DsmHeader) : h.dsmId < 16 := by
  have := loadBe_lt ((byteBits h.data).take 4)
  simpa [DsmHeader.dsmId] using this

theorem DsmHeader.dsmBlockId_lt (h : DsmHeader) : h.dsmBlockId < 16 := by
  have := loadBe_lt (((byteBits h.data).drop 4).take 4)
  simpa [DsmHeader.dsmBlockId] using this

theorem firstBlock_snoc (r : List DsmCall) (p : DsmCall) (i : Nat) :
    firstBlock (r ++ [p]) i =
      match firstBlock r i with
      | some b => some b
      | none => if p.header.dsmBlockId = i then some p.block else none := by
  simp only [firstBlock, List.find?_append]
  cases h : r.find? (fun p => p.header.dsmBlockId == i) with
  | some x => simp
  | none =>
    simp only [Option.none_or, Option.map_none, List.find?_singleton]
    by_cases hc : p.header.dsmBlockId = i
    · simp [hc]
    · simp [hc]

theorem CompleteWith.snoc {id : Nat} {r : List DsmCall} {n : Nat} (h : CompleteWith id r n)
    (p : DsmCall) : CompleteWith id (r ++ [p]) n := by
  obtain ⟨b0, h1, h2, h3⟩ := h
  refine ⟨b0, by rw [firstBlock_snoc, h1], h2, ?_⟩
  intro i hi
  have := h3 i hi
  rw [firstBlock_snoc]
  cases hf : firstBlock r i with
  | none => rw [hf] at this; cases this
  | some b => rfl

theorem Complete.snoc {id : Nat} {r : List DsmCall} (h : Complete id r) (p : DsmCall) :
    Complete id (r ++ [p]) := let ⟨n, h⟩ := h; ⟨n, h.snoc p⟩

theorem CompleteWith.unique {id : Nat} {r : List DsmCall} {n m : Nat} (h : CompleteWith id r n)
    (h' : CompleteWith id r m) : n = m := by
  obtain ⟨b, h1, h2, _⟩ := h
  obtain ⟨b', h1', h2', _⟩ := h'
  rw [h1] at h1'; cases h1'; rw [h2] at h2'; cases h2'; rfl

theorem announced_le {id : Nat} {b : DsmBlock} {n : Nat} (h : announcedBlocks id b = some n) :
    n ≤ 16 ∧ 7 ≤ n := by
  unfold announcedBlocks at h
  dsimp only at h
  split at h <;> split at h <;> simp only [Option.some.injEq, reduceCtorEq] at h <;> omega

namespace CollectDsm

theorem numberOfBlocks_eq (h : DsmHeader) (b : DsmBlock) :
    numberOfBlocks h.dsmType ((b.val.headD 0).toNat / 16) = announcedBlocks h.dsmId b := by
  unfold announcedBlocks DsmHeader.dsmType
  dsimp only
  have hb : (b.val.headD 0).toNat / 16 < 16 := by
    have := (b.val.headD 0).isLt; omega
  generalize (b.val.headD 0).toNat / 16 = n at hb
  by_cases hid : h.dsmId ≥ 12
  · rw [if_pos hid, if_pos hid]
    clear hid
    revert n; decide
  · rw [if_neg hid, if_neg hid]
    clear hid
    revert n; decide

/-- Invariant after a history whose current run of calls with the same id is `r`. -/
structure Inv (c : CollectDsm) (id : Nat) (r : List DsmCall) : Prop where
  ldsm : c.dsm.length = 208
  lbv : c.blockValid.length = 16
  hid : c.dsmId = id
  type : c.dsmType = some (if id ≥ 12 then DsmType.Pkr else .Kroot)
  done : c.done = true ↔ Complete id r
  valid : c.done = false → ∀ i, i < 16 → c.blockValid[i]? = some (firstBlock r i).isSome
  data : c.done = false → ∀ i b, firstBlock r i = some b → (c.dsm.drop (13 * i)).take 13 = b.val

/-- Lengths only: the invariant that also holds before the first call. -/
structure Wf (c : CollectDsm) : Prop where
  ldsm : c.dsm.length = 208
  lbv : c.blockValid.length = 16

theorem wf_new : Wf new := ⟨List.length_replicate, List.length_replicate⟩

theorem firstBlock_nil (i : Nat) : firstBlock [] i = none := rfl

theorem not_complete_nil (id : Nat) : ¬ Complete id [] := by
  rintro ⟨n, b, h, _⟩; simp [firstBlock_nil] at h

theorem firstBlock_lt {r : List DsmCall} {i : Nat} {b : DsmBlock} (h : firstBlock r i = some b) :
    i < 16 := by
  simp only [firstBlock, Option.map_eq_some_iff] at h
  obtain ⟨p, hp, _⟩ := h
  have := List.find?_some hp
  simp only [beq_iff_eq] at this
  rw [← this]; exact p.header.dsmBlockId_lt

/-- State with which a call proceeds after the (possible) reset. -/
def start (c : CollectDsm) (h : DsmHeader) : CollectDsm :=
  if h.dsmId ≠ c.dsmId ∨ c.dsmType.isNone then
    { c.reset with dsmId := h.dsmId, dsmType := some h.dsmType }
  else c

theorem start_reset {c : CollectDsm} (hw : Wf c) (h : DsmHeader)
    (hc : h.dsmId ≠ c.dsmId ∨ c.dsmType.isNone) : Inv (c.start h) h.dsmId [] := by
  unfold start
  rw [if_pos hc]
  refine ⟨hw.ldsm, by simp [reset], rfl, ?_, ?_, ?_, ?_⟩
  · simp [DsmHeader.dsmType]
  · simp [reset, not_complete_nil]
  · intro _ i hi
    simp only [reset, List.getElem?_replicate, hi, if_true, firstBlock_nil, Option.isSome_none]
  · intro _ i b hb; simp [firstBlock_nil] at hb

theorem drop_take_writeSlice {l src r : List Byte} {i : Nat} (h : writeSlice l i src = .ok r) :
    (r.drop i).take src.length = src := by
  rw [writeSlice_eq_ok] at h
  obtain ⟨h1, rfl⟩ := h
  rw [List.append_assoc, List.drop_append_of_le_length (by simp; omega)]
  rw [List.drop_of_length_le (by simp; omega)]
  simp

theorem drop_take_writeSlice_ne {l src r : List Byte} {i j n : Nat} (h : writeSlice l i src = .ok r)
    (hd : j + n ≤ i ∨ i + src.length ≤ j) : (r.drop j).take n = (l.drop j).take n := by
  rw [writeSlice_eq_ok] at h
  obtain ⟨h1, rfl⟩ := h
  rcases hd with hd | hd
  · rw [List.append_assoc, List.drop_append_of_le_length (by simp; omega),
      List.take_append_of_le_length (by simp; omega), List.drop_take, List.take_take]
    congr 1; omega
  · rw [List.drop_append, List.drop_of_length_le (by simp; omega), List.nil_append, List.drop_drop]
    congr 2
    simp only [List.length_append, List.length_take]; omega

/-- Effect of `feed` on the invariant, and its result. -/
theorem feed_inv {c : CollectDsm} {r : List DsmCall} (p : DsmCall)
    (hi : Inv (c.start p.header) p.header.dsmId r) :
    ∃ c' out, c.feed p.header p.block = .ok (c', out) ∧ Inv c' p.header.dsmId (r ++ [p]) ∧
      (out.isSome = true ↔ Complete p.header.dsmId (r ++ [p]) ∧ ¬ Complete p.header.dsmId r) ∧
      ∀ dsm, out = some dsm → dsm.id = p.header.dsmId ∧ dsm.dsmType = p.header.dsmType ∧
        ∃ n, CompleteWith p.header.dsmId (r ++ [p]) n ∧ dsm.data.length = 13 * n ∧
          ∀ i, i < n → ∃ b, firstBlock (r ++ [p]) i = some b ∧
            (dsm.data.drop (13 * i)).take 13 = b.val := by
  generalize hc1 : c.start p.header = c1 at hi
  have hfeed : c.feed p.header p.block = (do
      let t ← Res.unwrap c1.dsmType "self.dsm_type.unwrap()"
      if c1.done then pure (c1, none)
      else do
        let c ← c1.storeBlock p.header.dsmBlockId p.block
        match ← c.doneAndSize t with
        | some size =>
          let data ← slice c.dsm 0 size
          pure ({ c with done := true }, some ⟨c.dsmId, t, data⟩)
        | none => pure (c, none)) := by
    rw [← hc1]; rfl
  rw [hfeed]
  have htype : c1.dsmType = some p.header.dsmType := by rw [hi.type]; rfl
  simp only [htype, Res.unwrap_some, Res.ok_bind]
  cases hdone : c1.done with
  | true =>
    simp only [if_true, Res.pure_eq]
    have hcomp := hi.done.1 hdone
    refine ⟨c1, none, rfl, ?_, ?_, ?_⟩
    · refine ⟨hi.ldsm, hi.lbv, hi.hid, hi.type, ?_, ?_, ?_⟩
      · simp [hdone, hcomp.snoc p]
      · intro h; rw [hdone] at h; cases h
      · intro h; rw [hdone] at h; cases h
    · simp [hcomp]
    · intro dsm h; cases h
  | false =>
    simp only [Bool.false_eq_true, if_false]
    have hnc : ¬ Complete p.header.dsmId r := fun h => by
      have := hi.done.2 h; rw [hdone] at this; cases this
    have hv := hi.valid hdone
    have hd := hi.data hdone
    have hb16 : p.header.dsmBlockId < 16 := p.header.dsmBlockId_lt
    have hblen : p.block.val.length = 13 := p.block.2
    -- store_block
    have hstore : ∃ c2, c1.storeBlock p.header.dsmBlockId p.block = .ok c2 ∧
        c2.dsm.length = 208 ∧ c2.blockValid.length = 16 ∧ c2.dsmId = c1.dsmId ∧
        c2.dsmType = c1.dsmType ∧ c2.done = false ∧
        (∀ i, i < 16 → c2.blockValid[i]? = some (firstBlock (r ++ [p]) i).isSome) ∧
        ∀ i b, firstBlock (r ++ [p]) i = some b → (c2.dsm.drop (13 * i)).take 13 = b.val := by
      unfold storeBlock
      dsimp only
      rw [slice_ok (by omega) (by rw [hi.ldsm]; omega)]
      have hvi := hv p.header.dsmBlockId hb16
      rw [← index_eq_ok] at hvi
      simp only [hvi, Res.ok_bind]
      cases hf : firstBlock r p.header.dsmBlockId with
      | some b0 =>
        simp only [Option.isSome_some, if_true, Res.pure_eq]
        have hsame : ∀ i, firstBlock (r ++ [p]) i = firstBlock r i := by
          intro i
          rw [firstBlock_snoc]
          cases hfi : firstBlock r i with
          | some b => rfl
          | none =>
            simp only
            rw [if_neg]
            rintro rfl
            rw [hf] at hfi; cases hfi
        refine ⟨c1, rfl, hi.ldsm, hi.lbv, rfl, rfl, hdone, ?_, ?_⟩
        · intro i hi'; rw [hsame]; exact hv i hi'
        · intro i b h; rw [hsame] at h; exact hd i b h
      | none =>
        simp only [Option.isSome_none, Bool.false_eq_true, if_false]
        obtain ⟨dsm', hw⟩ : ∃ l, writeSlice c1.dsm (p.header.dsmBlockId * 13) p.block.val = .ok l :=
          ⟨_, writeSlice_ok (by rw [hblen, hi.ldsm]; omega)⟩
        simp only [hw, Res.ok_bind, setIndex_ok (show _ < c1.blockValid.length by rw [hi.lbv]; exact hb16), Res.pure_eq]
        refine ⟨_, rfl, ?_, ?_, rfl, rfl, hdone, ?_, ?_⟩
        · rw [writeSlice_length hw, hi.ldsm]
        · simp [hi.lbv]
        · intro i hi'
          rw [firstBlock_snoc]
          by_cases hib : p.header.dsmBlockId = i
          · subst hib
            rw [hf]; simp [hi.lbv, hb16]
          · simp only [List.getElem?_set_ne hib, hv i hi', hib, if_false]
            cases firstBlock r i <;> rfl
        · intro i b h
          rw [firstBlock_snoc] at h
          by_cases hib : p.header.dsmBlockId = i
          · subst hib
            rw [hf] at h; simp at h
            subst h
            have := drop_take_writeSlice hw
            rw [hblen] at this
            rw [Nat.mul_comm]; exact this
          · simp only [hib, if_false] at h
            cases hfi : firstBlock r i with
            | none => rw [hfi] at h; cases h
            | some b' =>
              rw [hfi] at h; simp at h; subst h
              rw [drop_take_writeSlice_ne hw]
              · exact hd i b' hfi
              · rw [hblen]; omega
    obtain ⟨c2, hs1, hs2, hs3, hs4, hs5, hs6, hs7, hs8⟩ := hstore
    simp only [hs1, Res.ok_bind]
    -- done_and_size
    have h0 := hs7 0 (by omega)
    rw [← index_eq_ok] at h0
    have hds : c2.doneAndSize p.header.dsmType = .ok (
        match firstBlock (r ++ [p]) 0 with
        | none => none
        | some b0 =>
          match announcedBlocks p.header.dsmId b0 with
          | none => none
          | some n => if ∀ i, i < n → (firstBlock (r ++ [p]) i).isSome then some (n * 13) else none) := by
      unfold doneAndSize
      simp only [h0, Res.ok_bind]
      cases hf0 : firstBlock (r ++ [p]) 0 with
      | none => simp
      | some b0 =>
        simp only [Option.isSome_some, Bool.not_true, Bool.false_eq_true, if_false]
        have hb0 := hs8 0 b0 hf0
        have hidx : index c2.dsm 0 = .ok (b0.val.headD 0) := by
          rw [index_eq_ok]
          rw [← hb0]
          cases hcd : c2.dsm with
          | nil => rw [hcd] at hs2; simp at hs2
          | cons x xs => simp
        simp only [hidx, Res.ok_bind, numberOfBlocks_eq]
        cases han : announcedBlocks p.header.dsmId b0 with
        | none => simp
        | some n =>
          obtain ⟨hn16, _⟩ := announced_le han
          simp only
          rw [slice_ok (by omega) (by rw [hs3]; omega)]
          simp only [Res.ok_bind, List.drop_zero, Nat.sub_zero]
          have hmiss : ((c2.blockValid.take n).filter (fun x => !x)).length = 0 ↔
              ∀ i, i < n → (firstBlock (r ++ [p]) i).isSome := by
            rw [List.length_eq_zero_iff, List.filter_eq_nil_iff]
            constructor
            · intro h i hin
              have hvi := hs7 i (by omega)
              have hm : (firstBlock (r ++ [p]) i).isSome ∈ c2.blockValid.take n := by
                apply List.mem_of_getElem? (i := i)
                rw [List.getElem?_take_of_lt hin]; exact hvi
              have := h _ hm
              simpa [Option.isSome_iff_ne_none] using this
            · intro h x hx
              obtain ⟨i, hi1⟩ := List.mem_iff_getElem?.1 hx
              have hin : i < n := by
                have := (List.getElem?_eq_some_iff.1 hi1).1
                simp only [List.length_take] at this; omega
              rw [List.getElem?_take_of_lt hin, hs7 i (by omega)] at hi1
              simp only [Option.some.injEq] at hi1
              rw [← hi1, h i hin]; simp
          by_cases hall : ∀ i, i < n → (firstBlock (r ++ [p]) i).isSome
          · rw [if_pos hall, if_pos (hmiss.2 hall)]; rfl
          · rw [if_neg hall, if_neg (fun h => hall (hmiss.1 h))]; rfl
    rw [hds]
    simp only [Res.ok_bind]
    by_cases hcomp : Complete p.header.dsmId (r ++ [p])
    · obtain ⟨n, b0, hf0, han, hall⟩ := hcomp
      simp only [hf0, han]
      rw [if_pos hall]
      obtain ⟨hn16, _⟩ := announced_le han
      simp only
      rw [slice_ok (by omega) (by rw [hs2]; omega)]
      simp only [Res.ok_bind, Res.pure_eq, List.drop_zero, Nat.sub_zero]
      have hcw : CompleteWith p.header.dsmId (r ++ [p]) n := ⟨b0, hf0, han, hall⟩
      refine ⟨_, _, rfl, ?_, ?_, ?_⟩
      · refine ⟨hs2, hs3, by rw [← hi.hid, ← hs4], by rw [← hi.type, ← hs5], ?_, ?_, ?_⟩
        · exact ⟨fun _ => ⟨n, hcw⟩, fun _ => rfl⟩
        · intro h; cases h
        · intro h; cases h
      · exact ⟨fun _ => ⟨⟨n, hcw⟩, hnc⟩, fun _ => rfl⟩
      · intro dsm hdsm
        cases hdsm
        refine ⟨by rw [← hi.hid, ← hs4], rfl, n, hcw, ?_, ?_⟩
        · simp only [List.length_take, hs2]; omega
        · intro i hin
          obtain ⟨b, hb⟩ := Option.isSome_iff_exists.1 (hall i hin)
          refine ⟨b, hb, ?_⟩
          rw [← hs8 i b hb, List.drop_take, List.take_take]
          congr 1; omega
    · have hnone : (match firstBlock (r ++ [p]) 0 with
          | none => none
          | some b0 =>
            match announcedBlocks p.header.dsmId b0 with
            | none => none
            | some n => if ∀ i, i < n → (firstBlock (r ++ [p]) i).isSome then some (n * 13) else none) = none := by
        cases hf0 : firstBlock (r ++ [p]) 0 with
        | none => rfl
        | some b0 =>
          simp only
          cases han : announcedBlocks p.header.dsmId b0 with
          | none => rfl
          | some n =>
            simp only
            rw [if_neg]
            intro hall
            exact hcomp ⟨n, b0, hf0, han, hall⟩
      rw [hnone]
      refine ⟨c2, none, rfl, ?_, ?_, ?_⟩
      · refine ⟨hs2, hs3, by rw [← hi.hid, ← hs4], by rw [← hi.type, ← hs5], ?_, fun _ => hs7, fun _ => hs8⟩
        simp [hs6, hcomp]
      · simp [hcomp]
      · intro dsm h; cases h

/-- Invariant over histories: array lengths, and the current run. -/
theorem feedBlocks_inv (hist : List DsmCall) :
    ∃ c outs, feedBlocks .new hist = .ok (c, outs) ∧ Wf c ∧
      (∀ p, hist.getLast? = some p → Inv c p.header.dsmId (sinceId hist p.header.dsmId)) ∧
      (hist = [] → c.dsmType = none) := by
  induction hist using CollectSubframe.snoc_induction with
  | h0 => exact ⟨new, [], rfl, wf_new, by simp, fun _ => rfl⟩
  | h1 hist p ih =>
    obtain ⟨c, outs, h1, h2, h3, h4⟩ := ih
    have happ : ∀ (c0 : CollectDsm) (l : List DsmCall) (c : CollectDsm) (outs : List (Option Dsm)),
        feedBlocks c0 l = .ok (c, outs) → ∀ c' out, c.feed p.header p.block = .ok (c', out) →
        feedBlocks c0 (l ++ [p]) = .ok (c', outs ++ [out]) := by
      intro c0 l
      induction l generalizing c0 with
      | nil =>
        intro c outs h c' out hf
        simp only [feedBlocks] at h
        cases h
        simp only [List.nil_append, feedBlocks, hf]
      | cons q l ih =>
        intro c outs h c' out hf
        simp only [feedBlocks] at h
        split at h
        · cases h
        · rename_i c1 o1 hq
          split at h
          · cases h
          · rename_i c2 os hq2
            cases h
            have := ih _ _ _ hq2 c' out hf
            simp only [List.cons_append, feedBlocks, hq, this]
    have hstart : Inv (c.start p.header) p.header.dsmId (sinceId hist p.header.dsmId) := by
      rcases List.eq_nil_or_concat hist with rfl | ⟨l, q, rfl⟩
      · have := start_reset h2 p.header (Or.inr (by rw [h4 rfl]; rfl))
        exact this
      · rw [List.concat_eq_append] at *
        have hq := h3 q (by simp)
        by_cases hid : p.header.dsmId = q.header.dsmId
        · have : c.start p.header = c := by
            unfold start
            rw [if_neg]
            rw [hq.hid, hq.type, hid]; simp
          rw [this, hid]; exact hq
        · have h5 := start_reset h2 p.header (Or.inl (by rw [hq.hid]; exact hid))
          have : sinceId (l ++ [q]) p.header.dsmId = [] := by
            simp only [sinceId, List.reverse_append, List.reverse_singleton, List.singleton_append]
            rw [List.takeWhile_cons_of_neg (by simpa using fun h => hid h.symm)]; rfl
          rw [this]; exact h5
    obtain ⟨c', out, h5, h6, _⟩ := feed_inv p hstart
    refine ⟨c', _, happ _ _ _ _ h1 c' out h5, ⟨h6.ldsm, h6.lbv⟩, ?_, by simp⟩
    intro q hq
    simp at hq; subst hq
    have : sinceId (hist ++ [p]) p.header.dsmId = sinceId hist p.header.dsmId ++ [p] := by
      simp [sinceId]
    rw [this]; exact h6

theorem start_inv {hist : List DsmCall} {c : CollectDsm} {outs : List (Option Dsm)}
    (hrun : feedBlocks .new hist = .ok (c, outs)) (h : DsmHeader) :
    Inv (c.start h) h.dsmId (sinceId hist h.dsmId) := by
  obtain ⟨c', outs', h1, h2, h3, h4⟩ := feedBlocks_inv hist
  rw [hrun] at h1; cases h1
  rcases List.eq_nil_or_concat hist with rfl | ⟨l, q, rfl⟩
  · exact start_reset h2 h (Or.inr (by rw [h4 rfl]; rfl))
  · rw [List.concat_eq_append] at *
    have hq := h3 q (by simp)
    by_cases hid : h.dsmId = q.header.dsmId
    · have : c.start h = c := by
        unfold start
        rw [if_neg]
        rw [hq.hid, hq.type, hid]; simp
      rw [this, hid]; exact hq
    · have h5 := start_reset h2 h (Or.inl (by rw [hq.hid]; exact hid))
      have : sinceId (l ++ [q]) h.dsmId = [] := by
        simp only [sinceId, List.reverse_append, List.reverse_singleton, List.singleton_append]
        rw [List.takeWhile_cons_of_neg (by simpa using fun h => hid h.symm)]; rfl
      rw [this]; exact h5

end CollectDsm
end Verif
