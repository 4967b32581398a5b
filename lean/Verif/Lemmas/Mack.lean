import Verif.Lemmas.Tesla
import Verif.Lemmas.TeslaChain

/-! # Lemmas on the fields of a MACK message -/

namespace Verif

/-- Number of tags in a MACK of a chain (ICD Eq. 3). -/
def Chain.numTags (c : Chain) : Nat := (480 - 8 * c.keySizeBytes) / (c.tagSizeBits + 16)

theorem Chain.numTags_pos (c : Chain) : 4 ≤ c.numTags := by
  have h1 := c.keySize_le
  have h2 := c.tagSize_le
  unfold Chain.numTags
  rw [Nat.le_div_iff_mul_le (by omega)]
  omega

theorem Chain.numTags_le (c : Chain) : c.numTags ≤ 10 := by
  have h1 := c.keySize_pos
  have h2 := c.tagSize_pos
  unfold Chain.numTags
  have : (480 - 8 * c.keySizeBytes) / (c.tagSizeBits + 16) ≤ 384 / 36 :=
    Nat.div_le_div (by omega) (by omega) (by omega)
  omega

theorem Chain.numTags_mul_le (c : Chain) : c.numTags * (c.tagSizeBits + 16) + 8 * c.keySizeBytes ≤ 480 := by
  have h1 := c.keySize_le
  have := Nat.div_mul_le_self (480 - 8 * c.keySizeBytes) (c.tagSizeBits + 16)
  unfold Chain.numTags
  omega

/-- The MACK view used by the code for a chain. -/
def mackOf (msg : MackMessage) (c : Chain) : Mack := Mack.new msg c.keySizeBits c.tagSizeBits

namespace Mack

theorem bits_length (msg : MackMessage) : (bitsOf msg.val).length = 480 := by
  rw [bitsOf_length, msg.2]

theorem numTags_ok (msg : MackMessage) (c : Chain) : (mackOf msg c).numTags = .ok c.numTags := by
  have h1 := c.keySize_le
  unfold numTags mackOf new DsmKroot.usub
  dsimp only
  rw [if_pos (by unfold Chain.keySizeBits; omega)]
  simp only [Res.ok_bind, Res.pure_eq, Chain.keySizeBits, Chain.numTags, Nat.mul_comm]

theorem tag0_ok (msg : MackMessage) (c : Chain) (prna : Svn) :
    (mackOf msg c).tag0 = .ok (mackTag (bitsOf msg.val) c.tagSizeBits prna 0).tag := by
  have := c.tagSize_le
  unfold tag0 mackOf new
  dsimp only
  rw [slice_ok (by omega) (by rw [bits_length]; omega)]
  simp [mackTag]

theorem cop_ok (msg : MackMessage) (c : Chain) (prna : Svn) :
    (mackOf msg c).cop = .ok (mackTag (bitsOf msg.val) c.tagSizeBits prna 0).cop := by
  have := c.tagSize_le
  unfold cop mackOf new
  dsimp only
  rw [slice_ok (by omega) (by rw [bits_length]; omega)]
  simp [mackTag]

theorem macseq_ok (msg : MackMessage) (c : Chain) :
    (mackOf msg c).macseq = .ok (loadBe (((bitsOf msg.val).drop c.tagSizeBits).take 12)) := by
  have := c.tagSize_le
  unfold macseq mackOf new
  dsimp only
  rw [slice_ok (by omega) (by rw [bits_length]; omega)]
  simp

theorem key_ok (msg : MackMessage) (c : Chain) :
    (mackOf msg c).key = .ok (((bitsOf msg.val).drop (c.numTags * (c.tagSizeBits + 16))).take (8 * c.keySizeBytes)) := by
  have := c.numTags_mul_le
  unfold key
  rw [numTags_ok]
  unfold mackOf new
  simp only [Res.ok_bind]
  rw [Nat.mul_comm (c.tagSizeBits + 16), slice_ok (by omega) (by rw [bits_length]; unfold Chain.keySizeBits; omega)]
  simp [Chain.keySizeBits, Nat.mul_comm]

theorem key_length (msg : MackMessage) (c : Chain) :
    (((bitsOf msg.val).drop (c.numTags * (c.tagSizeBits + 16))).take (8 * c.keySizeBytes)).length = 8 * c.keySizeBytes := by
  have := c.numTags_mul_le
  unfold Chain.keySizeBits at this
  simp only [List.length_take, List.length_drop, bits_length]
  omega

/-- The bits of a tag and its tag-info. -/
def tagBlock (msg : MackMessage) (c : Chain) (j : Nat) : List Bool :=
  ((bitsOf msg.val).drop (j * (c.tagSizeBits + 16))).take (c.tagSizeBits + 16)

theorem tagBlock_length (msg : MackMessage) (c : Chain) {j : Nat} (hj : j < c.numTags) :
    (tagBlock msg c j).length = c.tagSizeBits + 16 := by
  have h1 := c.numTags_mul_le
  have h2 : (j + 1) * (c.tagSizeBits + 16) ≤ c.numTags * (c.tagSizeBits + 16) := Nat.mul_le_mul_right _ hj
  rw [Nat.add_mul] at h2
  simp only [tagBlock, List.length_take, List.length_drop, bits_length]
  omega

theorem tagAndInfo_ok (msg : MackMessage) (c : Chain) {j : Nat} (hj0 : 0 < j) (hj : j < c.numTags) :
    (mackOf msg c).tagAndInfo j = .ok ⟨tagBlock msg c j⟩ := by
  have h1 := c.numTags_mul_le
  have h2 : (j + 1) * (c.tagSizeBits + 16) ≤ c.numTags * (c.tagSizeBits + 16) := Nat.mul_le_mul_right _ hj
  unfold tagAndInfo
  rw [numTags_ok]
  simp only [Res.ok_bind, hj0, hj, and_self, decide_true, Res.assert_true]
  unfold mackOf new
  dsimp only
  rw [Nat.mul_comm (c.tagSizeBits + 16) j, Nat.mul_comm (c.tagSizeBits + 16) (j+1),
    slice_ok (Nat.mul_le_mul_right _ (by omega)) (by rw [bits_length]; omega)]
  simp only [Res.ok_bind, Res.pure_eq, tagBlock]
  congr 3
  rw [Nat.add_mul]; omega

theorem tagAndInfo_panics (msg : MackMessage) (c : Chain) {j : Nat} (h : ¬ (0 < j ∧ j < c.numTags)) :
    ((mackOf msg c).tagAndInfo j).Panics := by
  unfold tagAndInfo
  rw [numTags_ok]
  simp only [Res.ok_bind, h, decide_false, Res.assert_false, Res.panic_bind]
  exact ⟨_, rfl⟩

/-- Code of the ADKD field. -/
def adkdOf : Nat → Adkd
  | 0 => .InavCed
  | 4 => .InavTiming
  | 12 => .SlowMac
  | _ => .Reserved

/-- Meaning of the PRND field. -/
def prndOf (n : Nat) : Prnd :=
  if 1 ≤ n ∧ n ≤ 36 then .GalileoSvid n else if n = 255 then .GalileoConstellation else .Reserved

theorem take_drop_take {α : Type u} (l : List α) {a b n : Nat} (h : a + b ≤ n) :
    ((l.take n).drop a).take b = (l.drop a).take b := by
  rw [List.drop_take, List.take_take]; congr 1; omega

/-- The accessors of a tag give the fields of the specification. -/
theorem tagBlock_fields (msg : MackMessage) (c : Chain) (prna : Svn) {j : Nat} (hj0 : 0 < j) (hj : j < c.numTags) :
    let t := mackTag (bitsOf msg.val) c.tagSizeBits prna j
    (⟨tagBlock msg c j⟩ : TagAndInfo).tag = t.tag ∧
    (⟨tagBlock msg c j⟩ : TagAndInfo).prnd = prndOf t.prnd ∧
    (⟨tagBlock msg c j⟩ : TagAndInfo).adkd = adkdOf t.adkd ∧
    (⟨tagBlock msg c j⟩ : TagAndInfo).cop = t.cop ∧
    (⟨tagBlock msg c j⟩ : TagAndInfo).tagInfo
      = ((bitsOf msg.val).drop (j * (c.tagSizeBits + 16) + c.tagSizeBits)).take 16 ∧
    t.ctr = j + 1 ∧ t.tag.length = c.tagSizeBits := by
  have hl := tagBlock_length msg c hj
  have hne : j ≠ 0 := by omega
  have hts : (tagBlock msg c j).take c.tagSizeBits
      = ((bitsOf msg.val).drop (j * (c.tagSizeBits + 16))).take c.tagSizeBits := by
    rw [tagBlock, List.take_take]; congr 1; omega
  simp only [mackTag, hne, if_false, TagAndInfo.tag, TagAndInfo.prnd, TagAndInfo.adkd, TagAndInfo.cop,
    TagAndInfo.tagInfo, hl, Nat.add_sub_cancel]
  have e8 : c.tagSizeBits + 16 - 8 = c.tagSizeBits + 8 := by omega
  have e4 : c.tagSizeBits + 16 - 4 = c.tagSizeBits + 12 := by omega
  rw [e8, e4]
  refine ⟨hts, ?_, ?_, ?_, ?_, trivial, ?_⟩
  · rw [tagBlock, take_drop_take _ (by omega)]; rfl
  · rw [tagBlock, take_drop_take _ (by omega)]; rfl
  · rw [tagBlock, List.drop_take]; congr 2; omega
  · rw [tagBlock, List.drop_take, List.drop_drop]; congr 1; omega
  · rw [← hts, List.length_take, hl]; omega

theorem mackTag_zero_len (msg : MackMessage) (c : Chain) (prna : Svn) :
    (mackTag (bitsOf msg.val) c.tagSizeBits prna 0).tag.length = c.tagSizeBits := by
  have := c.tagSize_le
  simp only [mackTag, if_true, List.length_take, Nat.zero_mul, List.drop_zero, bits_length]
  omega

theorem mackTag_len (msg : MackMessage) (c : Chain) (prna : Svn) {j : Nat} (hj : j < c.numTags) :
    (mackTag (bitsOf msg.val) c.tagSizeBits prna j).tag.length = c.tagSizeBits := by
  rcases Nat.eq_zero_or_pos j with rfl | h
  · exact mackTag_zero_len msg c prna
  · exact (tagBlock_fields msg c prna h hj).2.2.2.2.2.2

theorem loadBe_take_lt (l : List Bool) (n : Nat) : loadBe (l.take n) < 2 ^ n := by
  refine Nat.lt_of_lt_of_le (loadBe_lt _) ?_
  exact Nat.pow_le_pow_right (by omega) (by rw [List.length_take]; omega)

theorem mackTag_prnd_lt (msg : MackMessage) (c : Chain) (prna : Svn) (j : Nat) :
    (mackTag (bitsOf msg.val) c.tagSizeBits prna j).prnd < 256 := by
  unfold mackTag
  dsimp only
  split
  · have := prna.h36; dsimp only; omega
  · dsimp only
    exact loadBe_take_lt _ 8

theorem mackTag_cop_lt (bits : List Bool) (ts : Nat) (prna : Svn) (j : Nat) :
    (mackTag bits ts prna j).cop < 16 := by
  unfold mackTag
  dsimp only
  split <;>
  · dsimp only
    exact loadBe_take_lt _ 4

end Mack
end Verif
