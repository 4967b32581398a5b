import Verif.Model.Logging
import Verif.Model.History
import Verif.Lemmas.Panic

/-! # C69: the log

Logging has no effect on what the black box does, and formatting what it receives never panics. -/

namespace Verif

variable {C : Crypto} {S : Storage}

/-! ## `Debug` of the messages -/

/-- When the `Debug` output of a DSM-PKR can be made: the message reaches the new public key; if the type tells the size of the key, the key is there; and if
the number of blocks is not reserved, there are so many and they reach to the end of the key. -/
def PkrReadable (data : List Byte) : Prop :=
  130 ≤ data.length ∧ ∀ s, icdPkrKeyBytes (bitField data 1032 4) (bitField data 0 4) = some s →
    130 + s ≤ data.length ∧ (7 ≤ bitField data 0 4 → bitField data 0 4 ≤ 10 →
      130 + s ≤ (bitField data 0 4 + 6) * 13 ∧ (bitField data 0 4 + 6) * 13 ≤ data.length)

theorem DsmPkr.newPublicKey_eq (d : DsmPkr) (h : 130 ≤ d.data.length) : d.newPublicKey =
    match icdPkrKeyBytes (bitField d.data 1032 4) (bitField d.data 0 4) with
    | some s => some <$> slice d.data 130 (130 + s)
    | none => pure none := by
  unfold newPublicKey
  rw [keySize_ok h, Res.ok_bind]
  generalize icdPkrKeyBytes (bitField d.data 1032 4) (bitField d.data 0 4) = a
  cases a <;> rfl

theorem DsmPkr.padding_eq (d : DsmPkr) (h : 130 ≤ d.data.length) : d.padding =
    match icdPkrKeyBytes (bitField d.data 1032 4) (bitField d.data 0 4),
      (if 7 ≤ bitField d.data 0 4 ∧ bitField d.data 0 4 ≤ 10 then some (bitField d.data 0 4 + 6) else none) with
    | some ks, some nb => some <$> slice d.data (130 + ks) (nb * 104 / 8)
    | _, _ => pure none := by
  unfold padding
  rw [keySize_ok h, Res.ok_bind, numberOfBlocks_ok (by omega), Res.ok_bind]
  generalize icdPkrKeyBytes (bitField d.data 1032 4) (bitField d.data 0 4) = a
  generalize (if 7 ≤ bitField d.data 0 4 ∧ bitField d.data 0 4 ≤ 10 then some (bitField d.data 0 4 + 6) else none) = b
  cases a <;> cases b <;> rfl

theorem Res.map_returns {α β : Type} {f : α → β} {x : Res α} : (f <$> x).Returns ↔ x.Returns := by
  cases x with
  | ok a => exact ⟨fun _ => ⟨_, rfl⟩, fun _ => ⟨_, rfl⟩⟩
  | panic m =>
    constructor
    · rintro ⟨a, h⟩; cases h
    · rintro ⟨a, h⟩; cases h

theorem slice_returns {α : Type} {l : List α} {i j : Nat} : (slice l i j).Returns ↔ i ≤ j ∧ j ≤ l.length := by
  constructor
  · rintro ⟨r, h⟩
    have := slice_eq_ok.1 h
    exact ⟨this.1, this.2.1⟩
  · rintro ⟨h1, h2⟩
    exact ⟨_, slice_ok h1 h2⟩

/-- **C69.**  The `Debug` output of a DSM-PKR of any length. -/
theorem C69_pkr_debug (d : DsmPkr) : d.debug.Returns ↔ PkrReadable d.data := by
  constructor
  · rintro ⟨r, h⟩
    unfold DsmPkr.debug at h
    obtain ⟨_, _, h⟩ := Res.bind_eq_ok.1 h
    obtain ⟨_, _, h⟩ := Res.bind_eq_ok.1 h
    obtain ⟨_, _, h⟩ := Res.bind_eq_ok.1 h
    obtain ⟨_, _, h⟩ := Res.bind_eq_ok.1 h
    obtain ⟨_, _, h⟩ := Res.bind_eq_ok.1 h
    obtain ⟨_, _, h⟩ := Res.bind_eq_ok.1 h
    obtain ⟨_, ht, h⟩ := Res.bind_eq_ok.1 h
    obtain ⟨_, _, h⟩ := Res.bind_eq_ok.1 h
    obtain ⟨k, hk, h⟩ := Res.bind_eq_ok.1 h
    obtain ⟨p, hp, _⟩ := Res.bind_eq_ok.1 h
    have hl := DsmPkr.newPublicKeyType_len ht
    refine ⟨hl, fun s hs => ?_⟩
    rw [DsmPkr.newPublicKey_eq d hl, hs] at hk
    have h1 := slice_returns.1 (Res.map_returns.1 ⟨_, hk⟩)
    refine ⟨h1.2, fun h7 h10 => ?_⟩
    rw [DsmPkr.padding_eq d hl, hs, if_pos ⟨h7, h10⟩] at hp
    have h2 := slice_returns.1 (Res.map_returns.1 ⟨_, hp⟩)
    omega
  · rintro ⟨hl, h⟩
    unfold DsmPkr.debug
    rw [DsmPkr.numberOfBlocks_ok (by omega), Res.ok_bind, DsmPkr.messageId_ok (by omega), Res.ok_bind,
      DsmPkr.intermediateTreeNode_ok (by omega) (by decide), Res.ok_bind, DsmPkr.intermediateTreeNode_ok (by omega) (by decide), Res.ok_bind,
      DsmPkr.intermediateTreeNode_ok (by omega) (by decide), Res.ok_bind, DsmPkr.intermediateTreeNode_ok (by omega) (by decide), Res.ok_bind,
      DsmPkr.newPublicKeyType_ok (by omega), Res.ok_bind, DsmPkr.newPublicKeyId_ok (by omega), Res.ok_bind]
    have hk : d.newPublicKey.Returns := by
      rw [DsmPkr.newPublicKey_eq d hl]
      cases hs : icdPkrKeyBytes (bitField d.data 1032 4) (bitField d.data 0 4) with
      | none => exact ⟨_, rfl⟩
      | some s => exact Res.map_returns.2 (slice_returns.2 ⟨by omega, (h s hs).1⟩)
    have hp : d.padding.Returns := by
      rw [DsmPkr.padding_eq d hl]
      cases hs : icdPkrKeyBytes (bitField d.data 1032 4) (bitField d.data 0 4) with
      | none => exact ⟨_, rfl⟩
      | some s =>
        by_cases hn : 7 ≤ bitField d.data 0 4 ∧ bitField d.data 0 4 ≤ 10
        · rw [if_pos hn]
          have := (h s hs).2 hn.1 hn.2
          exact Res.map_returns.2 (slice_returns.2 ⟨by omega, by omega⟩)
        · rw [if_neg hn]; exact ⟨_, rfl⟩
    obtain ⟨k, hk⟩ := hk
    obtain ⟨p, hp⟩ := hp
    rw [hk, Res.ok_bind, hp, Res.ok_bind]
    exact ⟨_, rfl⟩

/-- **C69.**  The `Debug` output of a DSM-KROOT of any length: it panics on the messages whose length does not fit the key size that they say, although
nothing else is wrong with them. -/
theorem C69_kroot_debug (d : DsmKroot) : d.debug.Returns ↔ ∃ n f, icdKeyBytes (bitField d.data 16 4) = some n ∧
    13 + n + icdSigBytes f ≤ d.data.length ∧ d.data.length < 13 + n + icdSigBytes f + 13 ∧ d.data.length % 13 = 0 := by
  constructor
  · rintro ⟨r, h⟩
    unfold DsmKroot.debug at h
    obtain ⟨_, _, h⟩ := Res.bind_eq_ok.1 h
    obtain ⟨_, _, h⟩ := Res.bind_eq_ok.1 h
    obtain ⟨_, _, h⟩ := Res.bind_eq_ok.1 h
    obtain ⟨_, _, h⟩ := Res.bind_eq_ok.1 h
    obtain ⟨_, _, h⟩ := Res.bind_eq_ok.1 h
    obtain ⟨_, _, h⟩ := Res.bind_eq_ok.1 h
    obtain ⟨_, _, h⟩ := Res.bind_eq_ok.1 h
    obtain ⟨_, _, h⟩ := Res.bind_eq_ok.1 h
    obtain ⟨_, _, h⟩ := Res.bind_eq_ok.1 h
    obtain ⟨_, _, h⟩ := Res.bind_eq_ok.1 h
    obtain ⟨_, _, h⟩ := Res.bind_eq_ok.1 h
    obtain ⟨_, _, h⟩ := Res.bind_eq_ok.1 h
    obtain ⟨_, hs, h⟩ := Res.bind_eq_ok.1 h
    unfold DsmKroot.digitalSignature at hs
    obtain ⟨f, hf, _⟩ := Res.bind_eq_ok.1 hs
    obtain ⟨n, h1⟩ := DsmKroot.ecdsaFunction_eq_ok.1 hf
    exact ⟨n, f, h1⟩
  · rintro ⟨n, f, hn, h1, h2, h3⟩
    have hf := DsmKroot.ecdsaFunction_eq_ok.2 ⟨n, hn, h1, h2, h3⟩
    have hk := DsmKroot.kroot_eq_ok.2 ⟨n, hn, by omega, rfl⟩
    have hs := DsmKroot.digitalSignature_of hf hn
    have hp := DsmKroot.padding_of hf hn
    have hh : d.hashFunction.Returns := by
      unfold DsmKroot.hashFunction
      rw [field_ok (by omega) (by omega), Res.ok_bind]
      split <;> exact ⟨_, rfl⟩
    have hm : d.macFunction.Returns := by
      unfold DsmKroot.macFunction
      rw [field_ok (by omega) (by omega), Res.ok_bind]
      split <;> exact ⟨_, rfl⟩
    obtain ⟨_, hh⟩ := hh
    obtain ⟨_, hm⟩ := hm
    unfold DsmKroot.debug DsmKroot.numberOfBlocks DsmKroot.publicKeyId DsmKroot.krootChainId DsmKroot.keySize
      DsmKroot.tagSize DsmKroot.macLookupTable DsmKroot.krootWn DsmKroot.krootTowh DsmKroot.alpha
    simp only [field_ok (data := d.data) (i := 0) (j := 4) (by omega) (by omega), field_ok (data := d.data) (i := 4) (j := 8) (by omega) (by omega),
      field_ok (data := d.data) (i := 8) (j := 10) (by omega) (by omega), hh, hm, field_ok (data := d.data) (i := 16) (j := 20) (by omega) (by omega),
      field_ok (data := d.data) (i := 20) (j := 24) (by omega) (by omega), field_ok (data := d.data) (i := 24) (j := 32) (by omega) (by omega),
      field_ok (data := d.data) (i := 36) (j := 48) (by omega) (by omega), field_ok (data := d.data) (i := 48) (j := 56) (by omega) (by omega),
      field_ok (data := d.data) (i := 56) (j := 104) (by omega) (by omega), Res.ok_bind, Res.pure_eq, hk, hs, hp]
    exact ⟨_, rfl⟩

/-- **C69.**  The `Debug` output of a MACK message can always be made. -/
theorem C69_mack_debug (msg : MackMessage) (c : Chain) : (Mack.new msg c.keySizeBits c.tagSizeBits).debug.Returns := by
  show (mackOf msg c).debug.Returns
  unfold Mack.debug
  rw [Mack.tag0_ok msg c default, Res.ok_bind, Mack.macseq_ok, Res.ok_bind, Mack.numTags_ok, Res.ok_bind]
  obtain ⟨l, hl, _⟩ := loopM_returns (f := fun acc j => do
      let t ← (mackOf msg c).tagAndInfo j
      pure (acc ++ [("tag", t.shown)])) (fun _ : List (String × Shown) => True) (as := List.range' 1 (c.numTags - 1)) (s := []) trivial (by
    intro j hj s _
    simp only [List.mem_range'_1] at hj
    rw [Mack.tagAndInfo_ok msg c (by omega) (by omega)]
    exact ⟨_, rfl, trivial⟩)
  rw [hl, Res.ok_bind, Mack.key_ok, Res.ok_bind]
  exact ⟨_, rfl⟩

/-- The `Display` output of a satellite is `E` and its number with two digits. -/
theorem C69_svn_display (s : Svn) : ∃ a b : Char, s.display = ['E', a, b] ∧ a.isDigit ∧ b.isDigit ∧ s.val = 10 * (a.toNat - 48) + (b.toNat - 48) := by
  have h : ∀ n, 1 ≤ n → n ≤ 36 → ∃ a b : Char, 'E' :: (Nat.toDigits 10 (n / 10) ++ Nat.toDigits 10 (n % 10)) = ['E', a, b] ∧ a.isDigit ∧ b.isDigit ∧
      n = 10 * (a.toNat - 48) + (b.toNat - 48) := by
    intro n h1 h2
    have e : ∀ m, m < 10 → ∃ c : Char, Nat.toDigits 10 m = [c] ∧ c.isDigit ∧ c.toNat - 48 = m := by
      intro m hm
      match m, hm with
      | 0, _ | 1, _ | 2, _ | 3, _ | 4, _ | 5, _ | 6, _ | 7, _ | 8, _ | 9, _ => exact ⟨_, rfl, by decide, by decide⟩
    obtain ⟨a, ha1, ha2, ha3⟩ := e (n / 10) (by omega)
    obtain ⟨b, hb1, hb2, hb3⟩ := e (n % 10) (by omega)
    exact ⟨a, b, by rw [ha1, hb1]; rfl, ha2, hb2, by omega⟩
  exact h s.val s.h1 s.h36

/-! ## The log has no effect -/

theorem NavItem.logWord_ok {x : NavItem} {svn : Svn} (h : x.svn = some svn) : x.logWord = .ok () := by
  unfold NavItem.logWord
  rw [h]
  rfl

theorem NavItem.logAge_ok {x : NavItem} {svn : Svn} (h : x.svn = some svn) : x.logAge = .ok () := by
  unfold NavItem.logAge
  rw [h]
  rfl

theorem NavItem.feedCedLogged_eq (x : NavItem) (word : InavWord) (svn : Svn) : x.feedCedLogged word svn = .ok (x.feedCed word svn) := by
  have ha := x.assign_svn svn
  have hy : (x.feedCed word svn).svn = some svn := by
    unfold NavItem.feedCed
    dsimp only
    split <;> simp only [NavItem.copyWord_svn, ha]
  unfold NavItem.feedCedLogged
  dsimp only
  rw [NavItem.logWord_ok ha]
  simp only [Res.ok_bind, ite_self]
  show (do (x.feedCed word svn).logAge; pure (x.feedCed word svn)) = _
  rw [NavItem.logAge_ok hy]
  rfl

theorem NavItem.feedTimingLogged_eq (x : NavItem) (word : InavWord) (svn : Svn) (band : InavBand) :
    x.feedTimingLogged word svn band = .ok (x.feedTiming word svn band) := by
  have ha := x.assign_svn svn
  unfold NavItem.feedTimingLogged NavItem.feedTiming
  dsimp only
  rw [NavItem.logWord_ok ha]
  simp only [Res.ok_bind, Res.pure_eq]
  split
  · rename_i heq
    rw [NavItem.logAge_ok (by rw [NavItem.copyWord_svn, ha]), heq]; rfl
  · rename_i heq
    rw [NavItem.logAge_ok (by rw [NavItem.copyWord_svn, ha]), heq]; rfl
  · rename_i h1 h2
    rw [NavItem.logAge_ok ha]
    split
    · rename_i heq; exact (h1 heq rfl).elim
    · rename_i heq; exact (h2 heq rfl).elim
    · rfl

namespace CollectNavMessage

theorem updateSelectedLogged_eq (arr : List NavItem) (wp : Nat) (svn : Svn) {f : NavItem → Res NavItem} {g : NavItem → NavItem} (h : ∀ x, f x = .ok (g x)) :
    updateSelectedLogged S arr wp svn f = updateSelected S arr wp svn g := by
  unfold updateSelectedLogged updateSelected
  simp only [h, Res.ok_bind]

theorem ageSlot_then_slot {arr arr' : List NavItem} {i : Nat} (h : ageSlot S arr i = .ok arr') : ∃ s, slot S arr' i = .ok s := by
  unfold ageSlot at h
  obtain ⟨s, hs, h⟩ := Res.bind_eq_ok.1 h
  have hl := writeSlice_length h
  unfold slot at hs ⊢
  have h1 := slice_returns.1 ⟨_, hs⟩
  exact slice_returns.2 ⟨h1.1, by omega⟩

theorem adjustWritePointerLogged_eq (n : CollectNavMessage) (gst : Gst) : adjustWritePointerLogged S n gst = adjustWritePointer S n gst := by
  unfold adjustWritePointerLogged adjustWritePointer
  congr 1
  funext g
  congr 1
  cases g with
  | none => rfl
  | some g =>
    dsimp only
    split
    · congr 1
      funext ced
      congr 1
      funext timing
      cases h1 : ageSlot S ced ((n.writePointer + 1) % S.navDepth) with
      | panic m => rfl
      | ok ced' =>
        rw [Res.ok_bind, Res.ok_bind]
        cases h2 : ageSlot S timing ((n.writePointer + 1) % S.navDepth) with
        | panic m => rfl
        | ok timing' =>
          obtain ⟨s1, hs1⟩ := ageSlot_then_slot h1
          obtain ⟨s2, hs2⟩ := ageSlot_then_slot h2
          rw [Res.ok_bind, Res.ok_bind, hs1, Res.ok_bind, hs2, Res.ok_bind]
    · rfl

theorem feedLogged_eq (n : CollectNavMessage) (word : InavWord) (svn : Svn) (gst : Gst) (band : InavBand) :
    n.feedLogged S word svn gst band = n.feed S word svn gst band := by
  unfold feedLogged feed
  simp only [adjustWritePointerLogged_eq, updateSelectedLogged_eq _ _ _ (fun x => NavItem.feedCedLogged_eq x word svn),
    updateSelectedLogged_eq _ _ _ (fun x => NavItem.feedTimingLogged_eq x word svn band)]

end CollectNavMessage

theorem CollectDsm.numberOfBlocks_pkr {v n : Nat} (h : numberOfBlocks .Pkr v = some n) : 7 ≤ v ∧ v ≤ 10 ∧ n = v + 6 := by
  unfold numberOfBlocks at h
  dsimp only at h
  split at h
  all_goals first
    | (simp only [Option.some.injEq] at h; omega)
    | cases h

theorem CollectDsm.numberOfBlocks_pos {t : DsmType} {v n : Nat} (h : numberOfBlocks t v = some n) : 0 < n := by
  cases t with
  | Pkr => have := numberOfBlocks_pkr h; omega
  | Kroot =>
    unfold numberOfBlocks at h
    dsimp only at h
    split at h
    all_goals first
      | (simp only [Option.some.injEq] at h; omega)
      | cases h

/-- A complete DSM has as many blocks as its first byte says. -/
theorem CollectDsm.feed_size {c c' : CollectDsm} {h : DsmHeader} {b : DsmBlock} {x : Dsm} (hx : c.feed h b = .ok (c', some x)) :
    ∃ n, numberOfBlocks x.dsmType (bitField x.data 0 4) = some n ∧ x.data.length = n * 13 := by
  unfold CollectDsm.feed at hx
  dsimp only at hx
  generalize (if h.dsmId ≠ c.dsmId ∨ c.dsmType.isNone = true then
      ({ c.reset with dsmId := h.dsmId, dsmType := some h.dsmType } : CollectDsm) else c) = c1 at hx
  obtain ⟨t, ht, hx⟩ := Res.bind_eq_ok.1 hx
  split at hx
  · cases hx
  · obtain ⟨c2, _, hx⟩ := Res.bind_eq_ok.1 hx
    obtain ⟨r, hr, hx⟩ := Res.bind_eq_ok.1 hx
    cases r with
    | none => cases hx
    | some size =>
      obtain ⟨data, hd, hx⟩ := Res.bind_eq_ok.1 hx
      simp only [Res.pure_eq, Res.ok.injEq, Prod.mk.injEq, Option.some.injEq] at hx
      obtain ⟨_, rfl⟩ := hx
      unfold doneAndSize at hr
      obtain ⟨v0, _, hr⟩ := Res.bind_eq_ok.1 hr
      split at hr
      · cases hr
      · obtain ⟨b0, hb, hr⟩ := Res.bind_eq_ok.1 hr
        dsimp only at hr
        cases hn : numberOfBlocks t (b0.toNat / 16) with
        | none => rw [hn] at hr; cases hr
        | some n =>
          rw [hn] at hr
          obtain ⟨bv, _, hr⟩ := Res.bind_eq_ok.1 hr
          split at hr
          · simp only [Res.pure_eq, Res.ok.injEq, Option.some.injEq] at hr
            subst hr
            obtain ⟨_, h2, h3⟩ := slice_eq_ok.1 hd
            have hl : data.length = n * 13 := by rw [h3]; simp; omega
            have hpos : 0 < n := numberOfBlocks_pos hn
            refine ⟨n, ?_, hl⟩
            have hne : data ≠ [] := by intro h0; rw [h0] at hl; simp at hl; omega
            rw [bitField_head hne]
            have : data.headD 0 = b0 := by
              unfold index at hb
              cases hq : c2.dsm with
              | nil => rw [hq] at h2; simp at h2; omega
              | cons q qs =>
                rw [hq] at hb h3
                simp at hb
                rw [h3, ← hb]
                obtain ⟨m, rfl⟩ : ∃ m, n = m + 1 := ⟨n - 1, by omega⟩
                rw [show (m + 1) * 13 - 0 = (m * 13 + 12) + 1 by omega]
                rfl
            rw [this]
            exact hn
          · cases hr

/-- The messages with a DSM-PKR in the log: reserved type, or accepted. -/
theorem pkr_readable {data : List Byte} {n : Nat} (hn : CollectDsm.numberOfBlocks .Pkr (bitField data 0 4) = some n) (hl : data.length = n * 13)
    (h : ∀ s, icdPkrKeyBytes (bitField data 1032 4) (bitField data 0 4) = some s → 130 + s ≤ data.length) : PkrReadable data := by
  have hn' := CollectDsm.numberOfBlocks_pkr hn
  refine ⟨by omega, fun s hs => ⟨h s hs, fun _ _ => ?_⟩⟩
  have := h s hs
  omega

namespace OsnmaData

theorem processDsmPkrLogged_eq (d : OsnmaData C) {p : DsmPkr} {n : Nat} (hn : CollectDsm.numberOfBlocks .Pkr (bitField p.data 0 4) = some n)
    (hl : p.data.length = n * 13) : d.processDsmPkrLogged p = d.processDsmPkr p := by
  have h169 : 130 ≤ p.data.length := by
    have := CollectDsm.numberOfBlocks_pkr hn
    omega
  unfold processDsmPkrLogged processDsmPkr
  rw [DsmPkr.newPublicKeyType_ok h169, Res.ok_bind, Res.ok_bind]
  have hv : ∀ root : MerkleTreeNode, Merkle.validate C root p = .ok (.ok ()) → p.debug.Returns := by
    intro root h
    obtain ⟨s, hs, hls, _⟩ := Merkle.validate_eq_ok.1 h
    exact (C69_pkr_debug p).2 (pkr_readable hn hl fun s' hs' => by rw [hs] at hs'; cases hs'; exact hls)
  cases ht : DsmPkr.typeOf (bitField p.data 1032 4) with
  | EcdsaKey e =>
    dsimp only
    unfold processDsmPkrNpkLogged processDsmPkrNpk
    cases d.merkleTree with
    | none => rfl
    | some root =>
      dsimp only
      cases hr : Merkle.validatePkr C root p with
      | panic m => rfl
      | ok r =>
        rw [Res.ok_bind, Res.ok_bind]
        cases r with
        | error e => rfl
        | ok k =>
          have : Merkle.validate C root p = .ok (.ok ()) := by
            unfold Merkle.validatePkr at hr
            rw [DsmPkr.newPublicKeyType_ok h169, Res.ok_bind, ht] at hr
            dsimp only at hr
            obtain ⟨v, hv, hr⟩ := Res.bind_eq_ok.1 hr
            cases v with
            | error e => cases hr
            | ok u => exact hv
          obtain ⟨x, hx⟩ := hv root this
          dsimp only
          rw [hx, Res.ok_bind]
  | OsnmaAlertMessage =>
    dsimp only
    unfold processDsmPkrAlertLogged processDsmPkrAlert
    cases d.merkleTree with
    | none => rfl
    | some root =>
      dsimp only
      cases hr : Merkle.validateAlertMessage C root p with
      | panic m => rfl
      | ok r =>
        rw [Res.ok_bind, Res.ok_bind]
        cases r with
        | error e => rfl
        | ok k =>
          have : Merkle.validate C root p = .ok (.ok ()) := by
            unfold Merkle.validateAlertMessage at hr
            rw [DsmPkr.newPublicKeyType_ok h169, Res.ok_bind, ht] at hr
            exact hr
          obtain ⟨x, hx⟩ := hv root this
          dsimp only
          rw [hx, Res.ok_bind]
  | Reserved =>
    have : p.debug.Returns := (C69_pkr_debug p).2 (pkr_readable hn hl fun s hs => by
      exfalso
      unfold DsmPkr.typeOf at ht
      unfold icdPkrKeyBytes at hs
      split at ht <;> simp_all)
    obtain ⟨x, hx⟩ := this
    dsimp only
    rw [hx, Res.ok_bind]

theorem validateMackLogged_eq (msg : MackMessage) (c : Chain) (key : Key) (prna : Svn) (gst : Gst) :
    validateMackLogged (C := C) (Mack.new msg c.keySizeBits c.tagSizeBits) key prna gst =
      validateMack (C := C) (Mack.new msg c.keySizeBits c.tagSizeBits) key prna gst := by
  unfold validateMackLogged validateMack
  congr 1
  funext r
  cases r with
  | ok m => rfl
  | error e =>
    obtain ⟨x, hx⟩ := C69_mack_debug msg c
    dsimp only
    rw [hx, Res.ok_bind]

theorem processFastLogged_eq (d : OsnmaData C) (key : Key) (g : Gst) (svn : Svn) : processFastLogged S d key g svn = processFast S d key g svn := by
  unfold processFastLogged processFast
  split
  · rfl
  · congr 1
    funext r
    cases r with
    | none => rfl
    | some x =>
      obtain ⟨m, st⟩ := x
      dsimp only
      rw [validateMackLogged_eq]
      congr 1

theorem processSlowLogged_eq (d : OsnmaData C) (key : Key) (sk : Option Key) (g : Gst) (svn : Svn) :
    processSlowLogged S d key sk g svn = processSlow S d key sk g svn := by
  unfold processSlowLogged processSlow
  cases sk with
  | none => rfl
  | some sk =>
    dsimp only
    congr 1
    funext r
    cases r with
    | none => rfl
    | some x =>
      obtain ⟨m, st⟩ := x
      dsimp only
      rw [validateMackLogged_eq]
      congr 1

theorem processTagsLogged_eq (d : OsnmaData C) (key : Key) : processTagsLogged S d key = processTags S d key := by
  unfold processTagsLogged processTags
  simp only [processFastLogged_eq, processSlowLogged_eq]

theorem validateKeyLogged_eq (d : OsnmaData C) (m : MackMessage) (gst : Gst) : validateKeyLogged S d m gst = validateKey S d m gst := by
  unfold validateKeyLogged validateKey
  cases d.key.currentKey with
  | none => rfl
  | some cur =>
    dsimp only
    congr 1
    funext kb
    congr 1
    funext nk
    cases Gst.cmp cur.gst nk.gst with
    | eq => rfl
    | gt => rfl
    | lt =>
      dsimp only
      congr 1
      funext r
      cases r with
      | error e => rfl
      | ok v =>
        dsimp only
        simp only [processTagsLogged_eq]

end OsnmaData

theorem OsnmaDsm.processSubframeLogged_eq (o : OsnmaDsm C) (hk : HkrootMessage) (m : MackMessage) (svn : Svn) (gst : Gst) :
    o.processSubframeLogged S hk m svn gst = o.processSubframe S hk m svn gst := by
  unfold OsnmaDsm.processSubframeLogged OsnmaDsm.processSubframe
  congr 1
  funext b0
  dsimp only
  congr 1
  funext ms
  congr 1
  funext b1
  congr 1
  funext block
  simp only [OsnmaData.validateKeyLogged_eq]
  cases hf : o.dsm.feed ⟨b1⟩ block with
  | panic m => rfl
  | ok r =>
    obtain ⟨c', out⟩ := r
    rw [Res.ok_bind, Res.ok_bind]
    dsimp only
    cases out with
    | none => rfl
    | some x =>
      obtain ⟨n, hn, hl⟩ := CollectDsm.feed_size hf
      dsimp only
      have : ∀ d : OsnmaData C, d.processDsmLogged x ⟨b0⟩ gst = d.processDsm x ⟨b0⟩ gst := by
        intro d
        unfold OsnmaData.processDsmLogged OsnmaData.processDsm
        cases ht : x.dsmType with
        | Kroot => rfl
        | Pkr =>
          rw [ht] at hn
          exact OsnmaData.processDsmPkrLogged_eq d hn hl
      rw [this]

/-- Performs one call, with the log enabled. -/
def Call.runLogged (S : Storage) (o : Osnma C) : Call → Res (Osnma C)
  | .inav w s g b => o.feedInavLogged S w s g b
  | .osnma d s g => o.feedOsnmaLogged S d s g

/-- **C69.**  Whatever the state of the black box and the call, the log has no effect: neither on the state nor on whether the call panics. -/
theorem C69_call (o : Osnma C) (c : Call) : c.runLogged S o = c.run S o := by
  cases c with
  | inav w s g b =>
    show o.feedInavLogged S w s g b = o.feedInav S w s g b
    unfold Osnma.feedInavLogged Osnma.feedInav
    rw [CollectNavMessage.feedLogged_eq]
  | osnma d s g =>
    show o.feedOsnmaLogged S d s g = o.feedOsnma S d s g
    unfold Osnma.feedOsnmaLogged Osnma.feedOsnma
    split
    · rfl
    · congr 1
      funext r
      obtain ⟨sf, out⟩ := r
      cases out with
      | none => rfl
      | some x =>
        obtain ⟨hk, m, g⟩ := x
        dsimp only
        rw [OsnmaDsm.processSubframeLogged_eq]

/-- **C69.**  The same for all histories. -/
theorem C69_history (o : Osnma C) (calls : List Call) : loopM (fun o c => c.runLogged S o) calls o = run S o calls := by
  unfold run
  simp only [C69_call]

/-! ## Examples -/

/-- A DSM-PKR of 13 blocks with a reserved type, as in the log message of line 368 of `osnma.rs`. -/
example : (DsmPkr.mk (0x70#8 :: List.replicate 168 0#8)).debug.Returns := by
  have h : (match (DsmPkr.mk (0x70#8 :: List.replicate 168 0#8)).debug with | .ok _ => true | _ => false) = true := by decide +kernel
  cases hd : (DsmPkr.mk (0x70#8 :: List.replicate 168 0#8)).debug with
  | ok l => exact ⟨l, rfl⟩
  | panic m => rw [hd] at h; cases h

/-- A P-521 key does not fit in 13 blocks: this cannot be shown (and is not accepted either, finding 6). -/
example : ¬ (DsmPkr.mk (0x70#8 :: (List.replicate 128 0#8 ++ 0x30#8 :: List.replicate 39 0#8))).debug.Returns := by
  rw [C69_pkr_debug]
  rintro ⟨_, h⟩
  have := (h 67 (by decide +kernel)).1
  revert this
  decide +kernel

/-- A DSM-KROOT of 8 blocks for a key of 12 bytes and a P-256 signature (which need 7) cannot be shown. -/
example : ¬ (DsmKroot.mk (0x21#8 :: List.replicate 103 0#8)).debug.Returns := by
  rw [C69_kroot_debug]
  rintro ⟨n, f, hn, h1, h2, _⟩
  have e : icdKeyBytes (bitField (0x21#8 :: List.replicate 103 (0#8 : Byte)) 16 4) = some 12 := by decide +kernel
  rw [show (DsmKroot.mk (0x21#8 :: List.replicate 103 0#8)).data = 0x21#8 :: List.replicate 103 0#8 from rfl, e] at hn
  cases hn
  have hl : (DsmKroot.mk (0x21#8 :: List.replicate 103 0#8)).data.length = 104 := by simp
  rw [hl] at h1 h2
  cases f <;> simp [icdSigBytes] at h1 h2

/-- One of 7 blocks can. -/
example : (DsmKroot.mk (0x11#8 :: List.replicate 90 0#8)).debug.Returns :=
  (C69_kroot_debug _).2 ⟨12, .P256Sha256, by decide +kernel, by decide +kernel, by decide +kernel, by decide +kernel⟩

example : (⟨7, by decide, by decide⟩ : Svn).display = "E07".toList := by decide +kernel

end Verif
