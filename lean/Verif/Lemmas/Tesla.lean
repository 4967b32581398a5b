import Verif.Spec.TagSpec
import Verif.Prelude.BitsLemmas
import Verif.Spec.Time
import Verif.Lemmas.Gst
import Verif.Lemmas.Svn

/-! # Lemmas on `tesla.rs`: MAC messages -/

namespace Verif
namespace Key

variable {C : Crypto}

theorem storeGst_bits (g : Gst) : bitsOf (storeGst g) = storeBe 12 g.wn ++ storeBe 20 g.tow := by
  rw [storeGst, bitsOf_packBytes_aligned]; simp

theorem storeGst_length (g : Gst) : (storeGst g).length = 4 := by
  rw [storeGst, packBytes_length]; simp

theorem statusCode_eq (st : NmaStatus) : statusCode st = nmasCode st := by cases st <;> rfl

theorem byteBits_ofNat (n : Nat) : byteBits (BitVec.ofNat 8 n) = storeBe 8 n := by
  rw [byteBits_eq_storeBe, BitVec.toNat_ofNat, storeBe_mod]

theorem bufferHeader_eq (gst : Gst) (prna : Svn) (ctr : Nat) (st : NmaStatus) :
    bufferHeader gst prna (BitVec.ofNat 8 ctr) st =
      storeBe 8 prna.val ++ storeBe 12 gst.wn ++ storeBe 20 gst.tow ++ storeBe 8 ctr
        ++ storeBe 2 (nmasCode st) := by
  unfold bufferHeader
  rw [List.cons_append, bitsOf_cons, bitsOf_append, storeGst_bits, bitsOf_cons, bitsOf_nil, List.append_nil, Svn.toByte,
    byteBits_ofNat, byteBits_ofNat, statusCode_eq]
  simp only [List.append_assoc]

theorem navdataMessage_tag0 {gst : Gst} {prna : Svn} {st : NmaStatus} {data : List Bool}
    (h : data.length ≤ 550) (prnd : Nat) :
    navdataMessage gst prna 1#8 st data = .ok (tagMessage 1 prnd prna gst st data) := by
  unfold navdataMessage tagMessage tagBits
  rw [if_pos h]
  have : (1#8 : Byte) = BitVec.ofNat 8 1 := rfl
  rw [this, bufferHeader_eq]
  simp

theorem navdataMessage_tag {gst : Gst} {prna : Svn} {ctr : Nat} {st : NmaStatus} {data : List Bool}
    (h : data.length ≤ 550) (hc : ctr ≠ 1) (prnd : Nat) :
    ∃ m, navdataMessage gst prna (BitVec.ofNat 8 ctr) st data = .ok m ∧
      BitVec.ofNat 8 prnd :: m = tagMessage ctr prnd prna gst st data := by
  refine ⟨_, by unfold navdataMessage; rw [if_pos h], ?_⟩
  unfold tagMessage tagBits
  rw [if_neg hc, bufferHeader_eq]
  simp only [List.append_assoc]
  rw [packBytes_byte_append (storeBe_length 8 prnd), ← byteBits_ofNat prnd, packByte_byteBits]

/-- The MAC succeeds exactly when the key size suits the function, and its first 128 bits are those
of `macBits`. -/
theorem mac_ok {k : Key} (h : k.MacUsable) (m : List Byte) :
    ∃ out, mac C k m = .ok out ∧ out.length = 32 ∧
      ∀ n, n ≤ 128 → (bitsOf out).take n = (macBits C k m).take n := by
  unfold mac macBits
  cases hm : k.chain.macFunction with
  | HmacSha256 => exact ⟨_, rfl, C.hmac_len _ _, fun _ _ => rfl⟩
  | CmacAes =>
    dsimp only
    rw [if_pos (h hm)]
    refine ⟨_, rfl, by simp [C.cmac_len], ?_⟩
    intro n hn
    rw [bitsOf_append, List.take_append_of_le_length (by simp [C.cmac_len]; omega)]

theorem mac_returns_iff {k : Key} {m : List Byte} : (mac C k m).Returns ↔ k.MacUsable := by
  constructor
  · rintro ⟨out, h⟩
    intro hm
    unfold mac at h
    rw [hm] at h
    dsimp only at h
    split at h
    · assumption
    · cases h
  · intro h
    obtain ⟨out, h1, _⟩ := mac_ok (C := C) h m
    exact ⟨out, h1⟩

theorem checkCommon_eq {k : Key} (h : k.MacUsable) (m : List Byte) {tag : List Bool}
    (ht : tag.length ≤ 128) :
    checkCommon C k m tag = .ok (decide ((macBits C k m).take tag.length = tag)) := by
  obtain ⟨out, h1, h2, h3⟩ := mac_ok (C := C) h m
  unfold checkCommon
  rw [h1]
  simp only [Res.ok_bind]
  rw [slice_ok (by omega) (by rw [bitsOf_length, h2]; omega)]
  simp only [Res.ok_bind, Res.pure_eq, List.drop_zero, Nat.sub_zero, h3 _ ht]
  congr 1
  rw [Bool.eq_iff_iff, beq_iff_eq, decide_eq_true_iff]

theorem checkCommon_usable {k : Key} {m : List Byte} {tag : List Bool} {b : Bool}
    (h : checkCommon C k m tag = .ok b) : k.MacUsable := by
  unfold checkCommon at h
  obtain ⟨out, h1, _⟩ := Res.bind_eq_ok.1 h
  exact mac_returns_iff.1 ⟨out, h1⟩

/-- `validate_tag0` is the verification of a first tag. -/
theorem validateTag0_eq {k : Key} (h : k.MacUsable) {tag : List Bool} {gst : Gst} {prna : Svn}
    {st : NmaStatus} {data : List Bool} (ht : tag.length ≤ 128) (hd : data.length ≤ 550)
    (prnd adkd cop : Nat) :
    validateTag0 C k tag gst prna st data =
      .ok (decide ((⟨1, tag, prnd, adkd, cop⟩ : TagSpec).Verifies C k prna gst st data)) := by
  unfold validateTag0
  rw [navdataMessage_tag0 hd prnd]
  simp only [Res.ok_bind]
  rw [checkCommon_eq h _ ht]
  rfl

/-- `validate_tag` is the verification of a tag that is not the first. -/
theorem validateTag_eq {k : Key} (h : k.MacUsable) {tag : List Bool} {gst : Gst} {prna : Svn}
    {st : NmaStatus} {data : List Bool} (ht : tag.length ≤ 128) (hd : data.length ≤ 550)
    {ctr : Nat} (hc : ctr ≠ 1) (prnd adkd cop : Nat) :
    validateTag C k tag gst (BitVec.ofNat 8 prnd) prna (BitVec.ofNat 8 ctr) st data =
      .ok (decide ((⟨ctr, tag, prnd, adkd, cop⟩ : TagSpec).Verifies C k prna gst st data)) := by
  obtain ⟨m, h1, h2⟩ := navdataMessage_tag (gst := gst) (prna := prna) (st := st) hd hc prnd
  unfold validateTag
  rw [h1]
  simp only [Res.ok_bind, h2]
  rw [checkCommon_eq h _ ht]
  rfl

theorem validateTag0_usable {k : Key} {tag : List Bool} {gst : Gst} {prna : Svn} {st : NmaStatus}
    {data : List Bool} {b : Bool} (h : validateTag0 C k tag gst prna st data = .ok b) : k.MacUsable := by
  unfold validateTag0 at h
  obtain ⟨m, _, h2⟩ := Res.bind_eq_ok.1 h
  exact checkCommon_usable h2

theorem validateTag_usable {k : Key} {tag : List Bool} {gst : Gst} {prna : Svn} {st : NmaStatus}
    {data : List Bool} {b : Bool} {prnd ctr : Byte}
    (h : validateTag C k tag gst prnd prna ctr st data = .ok b) : k.MacUsable := by
  unfold validateTag at h
  obtain ⟨m, _, h2⟩ := Res.bind_eq_ok.1 h
  exact checkCommon_usable h2

/-! ## Dummy tags -/

theorem dummyMessage_eq {gst : Gst} {prna : Svn} {ctr : Byte} {st : NmaStatus} {len : Nat}
    (h : len ≤ 550) :
    dummyMessage gst prna ctr st len = navdataMessage gst prna ctr st (List.replicate len false) := by
  unfold dummyMessage navdataMessage
  rw [if_pos (by omega), if_pos (by simpa using h)]
  congr 1
  have hl : (bufferHeader gst prna ctr st).length = 50 := by
    simp [bufferHeader, storeGst_length]
  have hpl : (packBytes (bufferHeader gst prna ctr st)).length = 7 := by
    rw [packBytes_length, hl]
  apply bitsOf_inj
  rw [bitsOf_packBytes, ← bitsOf_take, bitsOf_append, bitsOf_packBytes, hl]
  have hz : bitsOf (List.replicate 75 (0#8 : Byte)) = List.replicate 600 false := by
    have : ∀ n, bitsOf (List.replicate n (0#8 : Byte)) = List.replicate (8 * n) false := by
      intro n
      induction n with
      | zero => rfl
      | succ n ih =>
        rw [List.replicate_succ, bitsOf_cons, ih, Nat.mul_add, Nat.add_comm, ← List.replicate_append_replicate]
        rfl
    exact this 75
  rw [hz]
  simp only [List.append_assoc, List.replicate_append_replicate]
  rw [List.take_append, List.take_of_length_le (by omega), hl]
  congr 1
  rw [List.take_replicate]
  congr 1
  simp only [List.length_append, hl, List.length_replicate]
  omega

theorem validateTag0Dummy_eq (k : Key) (tag : List Bool) (gst : Gst) (prna : Svn) (st : NmaStatus)
    {len : Nat} (h : len ≤ 550) :
    validateTag0Dummy C k tag gst prna st len = validateTag0 C k tag gst prna st (List.replicate len false) := by
  unfold validateTag0Dummy validateTag0
  rw [dummyMessage_eq h]

theorem validateTagDummy_eq (k : Key) (tag : List Bool) (gst : Gst) (prnd : Byte) (prna : Svn)
    (ctr : Byte) (st : NmaStatus) {len : Nat} (h : len ≤ 550) :
    validateTagDummy C k tag gst prnd prna ctr st len
      = validateTag C k tag gst prnd prna ctr st (List.replicate len false) := by
  unfold validateTagDummy validateTag
  rw [dummyMessage_eq h]

end Key

/-! ## Injectivity of the messages -/

theorem tagBits_length (ctr prnd : Nat) (prna : Svn) (gst : Gst) (st : NmaStatus) (data : List Bool) :
    (tagBits ctr prnd prna gst st data).length = (if ctr = 1 then 50 else 58) + data.length := by
  unfold tagBits
  split <;> simp <;> omega

theorem packBytes_inj {a b : List Bool} (hl : a.length = b.length) (h : packBytes a = packBytes b) :
    a = b := by
  have := congrArg bitsOf h
  rw [bitsOf_packBytes, bitsOf_packBytes, hl] at this
  exact (List.append_inj this hl).1

end Verif
