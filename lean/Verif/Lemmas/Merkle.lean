import Verif.Lemmas.Bitfields
import Verif.Model.Merkle

/-! # Lemmas on DSM-PKR and the Merkle tree -/

namespace Verif
variable {C : Crypto}

namespace DsmPkr
variable {d : DsmPkr}

/-- Meaning of the NPKT field as a function. -/
def typeOf : Nat → NewPublicKeyType
  | 1 => .EcdsaKey .P256Sha256
  | 3 => .EcdsaKey .P521Sha512
  | 4 => .OsnmaAlertMessage
  | _ => .Reserved

theorem newPublicKeyType_ok (h : 130 ≤ d.data.length) :
    d.newPublicKeyType = .ok (typeOf (bitField d.data 1032 4)) := by
  unfold newPublicKeyType
  rw [field_ok (by omega) (by omega)]
  simp only [Res.ok_bind, show (1036 - 1032 : Nat) = 4 from rfl]
  unfold typeOf
  split
  · rename_i h; rw [h]; rfl
  · rename_i h; rw [h]; rfl
  · rename_i h; rw [h]; rfl
  · rename_i h1 h2 h3
    split
    · exact absurd (by assumption) h1
    · exact absurd (by assumption) h2
    · exact absurd (by assumption) h3
    · rfl

theorem newPublicKeyType_len {t : NewPublicKeyType} (h : d.newPublicKeyType = .ok t) : 130 ≤ d.data.length := by
  unfold newPublicKeyType at h
  obtain ⟨v, h1, _⟩ := Res.bind_eq_ok.1 h
  have := (field_eq_ok.1 h1).2.1
  omega

theorem numberOfBlocks_ok (h : 1 ≤ d.data.length) :
    d.numberOfBlocks = .ok (if 7 ≤ bitField d.data 0 4 ∧ bitField d.data 0 4 ≤ 10 then some (bitField d.data 0 4 + 6) else none) := by
  unfold numberOfBlocks
  rw [field_ok (by omega) (by omega)]
  rfl

theorem keySize_ok (h : 130 ≤ d.data.length) :
    d.keySize = .ok (icdPkrKeyBytes (bitField d.data 1032 4) (bitField d.data 0 4)) := by
  unfold keySize
  rw [newPublicKeyType_ok h]
  simp only [Res.ok_bind]
  generalize hv : bitField d.data 1032 4 = v
  by_cases h1 : v = 1
  · subst h1; rfl
  by_cases h3 : v = 3
  · subst h3; rfl
  by_cases h4 : v = 4
  · subst h4
    simp only [typeOf]
    rw [numberOfBlocks_ok (by omega)]
    simp only [Res.ok_bind, Res.pure_eq]
    by_cases h3 : 7 ≤ bitField d.data 0 4 ∧ bitField d.data 0 4 ≤ 10
    · rw [if_pos h3]
      simp [icdPkrKeyBytes, h3]
    · rw [if_neg h3]
      simp [icdPkrKeyBytes, h3]
  · have : typeOf v = .Reserved := by
      unfold typeOf
      split <;> first | rfl | contradiction
    rw [this]
    unfold icdPkrKeyBytes
    rw [if_neg h1, if_neg h3, if_neg (fun h => h4 h.1)]; rfl

theorem keySize_len {r : Option Nat} (h : d.keySize = .ok r) : 130 ≤ d.data.length := by
  unfold keySize at h
  obtain ⟨t, h1, _⟩ := Res.bind_eq_ok.1 h
  exact newPublicKeyType_len h1

/-- The leaf of the DSM-PKR. -/
theorem merkleTreeLeaf_eq_ok {r : Option (List Byte)} : d.merkleTreeLeaf = .ok r ↔ 130 ≤ d.data.length ∧
    ((icdPkrKeyBytes (bitField d.data 1032 4) (bitField d.data 0 4) = none ∧ r = none) ∨
     ∃ s, icdPkrKeyBytes (bitField d.data 1032 4) (bitField d.data 0 4) = some s ∧ 130 + s ≤ d.data.length ∧
      r = some (byteField d.data 129 (1 + s))) := by
  unfold merkleTreeLeaf
  constructor
  · intro h
    obtain ⟨ks, h1, h2⟩ := Res.bind_eq_ok.1 h
    have hl := keySize_len h1
    rw [keySize_ok hl] at h1
    refine ⟨hl, ?_⟩
    simp only [Res.ok.injEq] at h1
    rw [h1]
    cases ks with
    | none => simp only [Res.pure_eq, Res.ok.injEq] at h2; exact .inl ⟨rfl, h2.symm⟩
    | some s =>
      right
      dsimp only at h2
      obtain ⟨b, h3, h4⟩ := Res.map_eq_ok.1 h2
      obtain ⟨h5, h6, h7⟩ := slice_eq_ok.1 h3
      refine ⟨s, rfl, by omega, ?_⟩
      rw [← h4, h7, byteField, show 130 + s - 129 = 1 + s by omega]
  · rintro ⟨hl, h⟩
    rw [keySize_ok hl]
    simp only [Res.ok_bind]
    rcases h with ⟨h1, rfl⟩ | ⟨s, h1, h2, rfl⟩
    · rw [h1]; rfl
    · rw [h1]
      dsimp only
      rw [slice_ok (by omega) (by omega)]
      rw [show 130 + s - 129 = 1 + s by omega]
      rfl

theorem intermediateTreeNode_ok (h : 129 ≤ d.data.length) {n : Nat} (hn : n < 4) :
    d.intermediateTreeNode n = .ok (byteField d.data (1 + n * 32) 32) := by
  unfold intermediateTreeNode
  simp only [hn, decide_true, Res.assert_true, Res.ok_bind]
  rw [slice_ok (by omega) (by omega), byteField, show 1 + (n + 1) * 32 - (1 + n * 32) = 32 by omega]

theorem messageId_ok (h : 1 ≤ d.data.length) : d.messageId = .ok (bitField d.data 4 4) := by
  unfold messageId
  rw [field_ok (by omega) (by omega)]

theorem newPublicKey_ok (h : 130 ≤ d.data.length) {s : Nat}
    (hs : icdPkrKeyBytes (bitField d.data 1032 4) (bitField d.data 0 4) = some s) (hl : 130 + s ≤ d.data.length) :
    d.newPublicKey = .ok (some (byteField d.data 130 s)) := by
  unfold newPublicKey
  rw [keySize_ok h, hs]
  simp only [Res.ok_bind]
  rw [slice_ok (by omega) (by omega), show 130 + s - 130 = s by omega]
  rfl

theorem newPublicKeyId_ok (h : 130 ≤ d.data.length) : d.newPublicKeyId = .ok (bitField d.data 1036 4) := by
  unfold newPublicKeyId
  rw [field_ok (by omega) (by omega)]

end DsmPkr

namespace Merkle
variable {d : DsmPkr}

/-- The loop of `validate` hashes the path given by the bits of the index. -/
theorem climb_ok (h : 129 ≤ d.data.length) (n j id : Nat) (node : List Byte) (hj : j + n ≤ 4) :
    climb C d n j id node
      = .ok (merklePathRoot C id node ((List.range' j n).map (fun i => byteField d.data (1 + i * 32) 32))) := by
  induction n generalizing j id node with
  | zero => rfl
  | succ n ih =>
    rw [climb, DsmPkr.intermediateTreeNode_ok h (by omega)]
    dsimp only
    rw [ih _ _ _ (by omega), List.range'_succ, List.map_cons, merklePathRoot]
    congr 2
    unfold calcNode
    split <;> rfl

/-- The leaf bytes of a DSM-PKR. -/
theorem validate_eq_ok {root : MerkleTreeNode} : validate C root d = .ok (.ok ()) ↔
    ∃ s, icdPkrKeyBytes (bitField d.data 1032 4) (bitField d.data 0 4) = some s ∧ 130 + s ≤ d.data.length ∧
      MerkleProof C root.val d.data (byteField d.data 129 (1 + s)) := by
  unfold validate
  constructor
  · intro h
    obtain ⟨lf, h1, h2⟩ := Res.bind_eq_ok.1 h
    obtain ⟨hl, h3⟩ := DsmPkr.merkleTreeLeaf_eq_ok.1 h1
    rcases h3 with ⟨_, rfl⟩ | ⟨s, h4, h5, rfl⟩
    · simp at h2
    · refine ⟨s, h4, h5, ?_⟩
      dsimp only at h2
      rw [DsmPkr.messageId_ok (by omega)] at h2
      simp only [Res.ok_bind] at h2
      rw [climb_ok (by omega) _ _ _ _ (by omega)] at h2
      simp only [Res.ok_bind] at h2
      split at h2
      · rename_i h6; exact h6
      · simp at h2
  · rintro ⟨s, h1, h2, h3⟩
    rw [DsmPkr.merkleTreeLeaf_eq_ok.2 ⟨by omega, .inr ⟨s, h1, h2, rfl⟩⟩]
    simp only [Res.ok_bind]
    rw [DsmPkr.messageId_ok (by omega)]
    simp only [Res.ok_bind]
    rw [climb_ok (by omega) _ _ _ _ (by omega)]
    simp only [Res.ok_bind]
    exact if_pos h3

/-- `validate_pkr` accepts exactly the keys proved against the root. -/
theorem validatePkr_eq_ok {root : MerkleTreeNode} {pk : PublicKey C} :
    validatePkr C root d = .ok (.ok pk) ↔ MerkleProvedKey C root.val d.data pk := by
  unfold validatePkr
  constructor
  · intro h
    obtain ⟨t, h1, h2⟩ := Res.bind_eq_ok.1 h
    have hl := DsmPkr.newPublicKeyType_len h1
    rw [DsmPkr.newPublicKeyType_ok hl] at h1
    cases h1
    unfold DsmPkr.typeOf at h2
    have common : ∀ s, icdPkrKeyBytes (bitField d.data 1032 4) (bitField d.data 0 4) = some s →
        (do match ← validate C root d with
            | .error e => pure (.error e)
            | .ok () => pubkeyFromPkr C d : Res (Except PkrError (PublicKey C))) = .ok (.ok pk) →
        130 + s ≤ d.data.length ∧ MerkleProof C root.val d.data (byteField d.data 129 (1 + s)) ∧
        pubkeyFromPkr C d = .ok (.ok pk) := by
      intro s hs h
      obtain ⟨r, h3, h4⟩ := Res.bind_eq_ok.1 h
      cases r with
      | error e => simp at h4
      | ok u =>
        obtain ⟨s', e1, e2, e3⟩ := validate_eq_ok.1 h3
        rw [hs] at e1; cases e1
        exact ⟨e2, e3, h4⟩
    split at h2
    · rename_i ff hf
      split at hf
      · rename_i hv
        have hs : icdPkrKeyBytes (bitField d.data 1032 4) (bitField d.data 0 4) = some 33 := by
          unfold icdPkrKeyBytes; rw [if_pos hv]
        obtain ⟨e2, e3, h4⟩ := common 33 hs h2
        unfold pubkeyFromPkr at h4
        rw [DsmPkr.newPublicKey_ok hl hs e2, DsmPkr.newPublicKeyType_ok hl, hv] at h4
        simp only [Res.ok_bind, Res.unwrap_some, DsmPkr.typeOf] at h4
        obtain ⟨k, h5, h6⟩ := Res.bind_eq_ok.1 h4
        rw [Res.unwrap_eq_ok] at h5
        rw [DsmPkr.newPublicKeyId_ok hl] at h6
        simp only [Res.ok_bind, Res.pure_eq, Res.ok.injEq, Except.ok.injEq] at h6
        subst h6
        exact ⟨rfl, .inl ⟨hv, e2, e3, k, h5, rfl⟩⟩
      · rename_i hv
        have hs : icdPkrKeyBytes (bitField d.data 1032 4) (bitField d.data 0 4) = some 67 := by
          unfold icdPkrKeyBytes; rw [if_neg (by omega), if_pos hv]
        obtain ⟨e2, e3, h4⟩ := common 67 hs h2
        unfold pubkeyFromPkr at h4
        rw [DsmPkr.newPublicKey_ok hl hs e2, DsmPkr.newPublicKeyType_ok hl, hv] at h4
        simp only [Res.ok_bind, Res.unwrap_some, DsmPkr.typeOf] at h4
        split at h4
        · rename_i hp
          obtain ⟨k, h5, h6⟩ := Res.bind_eq_ok.1 h4
          rw [Res.unwrap_eq_ok] at h5
          rw [DsmPkr.newPublicKeyId_ok hl] at h6
          simp only [Res.ok_bind, Res.pure_eq, Res.ok.injEq, Except.ok.injEq] at h6
          subst h6
          exact ⟨rfl, .inr ⟨hv, e2, e3, hp, k, h5, rfl⟩⟩
        · simp at h4
      · cases hf
      · cases hf
    · simp at h2
  · rintro ⟨hid, h⟩
    rcases h with ⟨hv, hl, hp, k, hk, hkey⟩ | ⟨hv, hl, hp, hq, k, hk, hkey⟩
    · have hs : icdPkrKeyBytes (bitField d.data 1032 4) (bitField d.data 0 4) = some 33 := by
        unfold icdPkrKeyBytes; rw [if_pos hv]
      rw [DsmPkr.newPublicKeyType_ok (by omega), hv]
      simp only [Res.ok_bind, DsmPkr.typeOf]
      rw [validate_eq_ok.2 ⟨33, hs, by omega, hp⟩]
      simp only [Res.ok_bind]
      unfold pubkeyFromPkr
      rw [DsmPkr.newPublicKey_ok (by omega) hs (by omega), DsmPkr.newPublicKeyType_ok (by omega), hv]
      simp only [Res.ok_bind, Res.unwrap_some, DsmPkr.typeOf, hk]
      rw [DsmPkr.newPublicKeyId_ok (by omega)]
      simp only [Res.ok_bind, Res.pure_eq, Res.ok.injEq, Except.ok.injEq]
      rcases pk with ⟨key, id⟩
      simp only at hid hkey
      rw [hid, hkey]
    · have hs : icdPkrKeyBytes (bitField d.data 1032 4) (bitField d.data 0 4) = some 67 := by
        unfold icdPkrKeyBytes; rw [if_neg (by omega), if_pos hv]
      rw [DsmPkr.newPublicKeyType_ok (by omega), hv]
      simp only [Res.ok_bind, DsmPkr.typeOf]
      rw [validate_eq_ok.2 ⟨67, hs, by omega, hp⟩]
      simp only [Res.ok_bind]
      unfold pubkeyFromPkr
      rw [DsmPkr.newPublicKey_ok (by omega) hs (by omega), DsmPkr.newPublicKeyType_ok (by omega), hv]
      simp only [Res.ok_bind, Res.unwrap_some, DsmPkr.typeOf, hk, hq, if_true]
      rw [DsmPkr.newPublicKeyId_ok (by omega)]
      simp only [Res.ok_bind, Res.pure_eq, Res.ok.injEq, Except.ok.injEq]
      rcases pk with ⟨key, id⟩
      simp only at hid hkey
      rw [hid, hkey]

/-- `validate_alert_message` accepts exactly the alert messages proved against the root. -/
theorem validateAlert_eq_ok {root : MerkleTreeNode} : validateAlertMessage C root d = .ok (.ok ()) ↔
    bitField d.data 1032 4 = 4 ∧ ∃ s, icdPkrKeyBytes 4 (bitField d.data 0 4) = some s ∧ 130 + s ≤ d.data.length ∧
      MerkleProof C root.val d.data (byteField d.data 129 (1 + s)) := by
  unfold validateAlertMessage
  constructor
  · intro h
    obtain ⟨t, h1, h2⟩ := Res.bind_eq_ok.1 h
    have hl := DsmPkr.newPublicKeyType_len h1
    rw [DsmPkr.newPublicKeyType_ok hl] at h1
    cases h1
    unfold DsmPkr.typeOf at h2
    split at h2
    · rename_i hf
      split at hf
      · cases hf
      · cases hf
      · rename_i hv
        obtain ⟨s, e1, e2, e3⟩ := validate_eq_ok.1 h2
        exact ⟨hv, s, by rw [hv] at e1; exact e1, e2, e3⟩
      · cases hf
    · simp at h2
  · rintro ⟨hv, s, h1, h2, h3⟩
    rw [DsmPkr.newPublicKeyType_ok (by omega), hv]
    simp only [Res.ok_bind, DsmPkr.typeOf]
    exact validate_eq_ok.2 ⟨s, by rw [hv]; exact h1, h2, h3⟩

end Merkle

/-- Two different 32-byte nodes with the same path to the same root exhibit a collision. -/
theorem merklePathRoot_collision {i : Nat} {n₁ n₂ : List Byte} {s₁ s₂ : List (List Byte)}
    (hl : n₁.length = n₂.length) (hs : s₁.map List.length = s₂.map List.length) (hne : n₁ ≠ n₂)
    (h : merklePathRoot C i n₁ s₁ = merklePathRoot C i n₂ s₂) :
    InputsCollide C (merklePathInputs C i n₁ s₁) (merklePathInputs C i n₂ s₂) := by
  induction s₁ generalizing i n₁ n₂ s₂ with
  | nil =>
    cases s₂ with
    | nil => exact absurd h hne
    | cons => simp at hs
  | cons a s₁ ih =>
    cases s₂ with
    | nil => simp at hs
    | cons b s₂ =>
      simp only [List.map_cons, List.cons.injEq] at hs
      rw [merklePathRoot, merklePathRoot] at h
      have hm : (if i % 2 = 0 then n₁ ++ a else a ++ n₁) ≠ (if i % 2 = 0 then n₂ ++ b else b ++ n₂) := by
        split
        · intro hc; exact hne (List.append_inj hc hl).1
        · intro hc; exact hne (List.append_inj hc hs.1).2
      by_cases he : C.sha256 (if i % 2 = 0 then n₁ ++ a else a ++ n₁)
          = C.sha256 (if i % 2 = 0 then n₂ ++ b else b ++ n₂)
      · exact ⟨0, _, _, rfl, rfl, hm, he⟩
      · obtain ⟨j, m₁, m₂, e1, e2, e3⟩ := ih (by rw [C.sha256_len, C.sha256_len]) hs.2 he h
        exact ⟨j + 1, m₁, m₂, e1, e2, e3⟩

/-- The path of a genuine tree leads to its root. -/
theorem merklePathRoot_genuine (leaves : Nat → List Byte) (i h n : Nat) :
    merklePathRoot C (i / 2 ^ h) (merkleNode C leaves h (i / 2 ^ h))
      ((List.range' h n).map (merkleSibling C leaves i)) = merkleNode C leaves (h + n) (i / 2 ^ (h + n)) := by
  induction n generalizing h with
  | zero => rfl
  | succ n ih =>
    rw [List.range'_succ, List.map_cons, merklePathRoot]
    have hd : i / 2 ^ h / 2 = i / 2 ^ (h + 1) := by
      rw [Nat.div_div_eq_div_mul, Nat.pow_succ]
    have hnode : C.sha256 (if i / 2 ^ h % 2 = 0 then merkleNode C leaves h (i / 2 ^ h) ++ merkleSibling C leaves i h
        else merkleSibling C leaves i h ++ merkleNode C leaves h (i / 2 ^ h))
        = merkleNode C leaves (h + 1) (i / 2 ^ (h + 1)) := by
      rw [merkleNode, ← hd]
      unfold merkleSibling siblingIndex
      generalize i / 2 ^ h = m
      split
      · rename_i hm
        have : 2 * (m / 2) = m := by omega
        rw [this]
      · rename_i hm
        have h1 : 2 * (m / 2) = m - 1 := by omega
        have h2 : m - 1 + 1 = m := by omega
        rw [h1, h2]
    rw [hnode, hd, ih (h + 1), Nat.add_right_comm, Nat.add_assoc h n 1]

end Verif
