import Verif.Lemmas.Merkle

/-! # C25, C26, C51: DSM-PKR, Merkle tree and headers -/

namespace Verif
variable {C : Crypto}

/-! ## C25 -/

theorem byteField_length {data : List Byte} {i n : Nat} (h : i + n ≤ data.length) :
    (byteField data i n).length = n := by
  simp [byteField]; omega

/-- Two different leaves proved at one position collide. -/
theorem MerkleProof.collision {root a b la lb : List Byte} (hla : 129 ≤ a.length) (hlb : 129 ≤ b.length)
    (ha : MerkleProof C root a la) (hb : MerkleProof C root b lb) (hm : bitField a 4 4 = bitField b 4 4)
    (hne : la ≠ lb) : InputsCollide C (merkleInputs C a la) (merkleInputs C b lb) := by
  unfold MerkleProof at ha hb
  by_cases he : C.sha256 la = C.sha256 lb
  · exact ⟨0, la, lb, rfl, rfl, hne, he⟩
  · rw [← hm] at hb
    obtain ⟨j, m₁, m₂, e1, e2, e3⟩ := merklePathRoot_collision (by rw [C.sha256_len, C.sha256_len])
      (by simp only [List.map_cons, List.map_nil]
          rw [byteField_length (by omega), byteField_length (by omega), byteField_length (by omega),
            byteField_length (by omega), byteField_length (by omega), byteField_length (by omega),
            byteField_length (by omega), byteField_length (by omega)]) he (ha.trans hb.symm)
    refine ⟨j + 1, m₁, m₂, e1, ?_, e3⟩
    unfold merkleInputs
    rw [← hm]; exact e2

/-- `validate_pkr` or `validate_alert_message` accepts the message. -/
def PkrAccepted (C : Crypto) (root : MerkleTreeNode) (d : DsmPkr) : Prop :=
  (∃ pk, Merkle.validatePkr C root d = .ok (.ok pk)) ∨ Merkle.validateAlertMessage C root d = .ok (.ok ())

theorem PkrAccepted.proof {root : MerkleTreeNode} {d : DsmPkr} (h : PkrAccepted C root d) :
    ∃ l, PkrLeaf d.data l ∧ 129 ≤ d.data.length ∧ MerkleProof C root.val d.data l := by
  rcases h with ⟨pk, h⟩ | h
  · obtain ⟨_, hk⟩ := Merkle.validatePkr_eq_ok.1 h
    rcases hk with ⟨hv, hl, hp, _⟩ | ⟨hv, hl, hp, _⟩
    · exact ⟨_, ⟨33, by simp [icdPkrKeyBytes, hv], hl, rfl⟩, by omega, hp⟩
    · exact ⟨_, ⟨67, by simp [icdPkrKeyBytes, hv], hl, rfl⟩, by omega, hp⟩
  · obtain ⟨hv, s, hs, hl, hp⟩ := Merkle.validateAlert_eq_ok.1 h
    exact ⟨_, ⟨s, by rw [hv]; exact hs, hl, rfl⟩, by omega, hp⟩

theorem PkrLeaf.unique {data l l' : List Byte} (h : PkrLeaf data l) (h' : PkrLeaf data l') : l = l' := by
  obtain ⟨s, hs, _, rfl⟩ := h
  obtain ⟨s', hs', _, rfl⟩ := h'
  rw [hs] at hs'
  cases hs'; rfl

/-- **C25** if two DSM-PKR with the same message ID are accepted against one root and their leaves
(type, key id and key, or filler of the alert message) differ, then at one of the five hash computations
of the two checks two different byte strings with the same SHA-256 are found. -/
theorem C25_merkle_binding (root : MerkleTreeNode) (d₁ d₂ : DsmPkr) (l₁ l₂ : List Byte)
    (h₁ : PkrAccepted C root d₁) (h₂ : PkrAccepted C root d₂)
    (hid : d₁.messageId = d₂.messageId) (hl₁ : PkrLeaf d₁.data l₁) (hl₂ : PkrLeaf d₂.data l₂) (hne : l₁ ≠ l₂) :
    InputsCollide C (merkleInputs C d₁.data l₁) (merkleInputs C d₂.data l₂) := by
  obtain ⟨m₁, e₁, n₁, p₁⟩ := h₁.proof
  obtain ⟨m₂, e₂, n₂, p₂⟩ := h₂.proof
  rw [DsmPkr.messageId_ok (by omega), DsmPkr.messageId_ok (by omega)] at hid
  rw [e₁.unique hl₁] at p₁
  rw [e₂.unique hl₂] at p₂
  exact p₁.collision n₁ n₂ p₂ (by simpa using hid) hne

/-- The leaf determines the key. -/
theorem MerkleProvedKey.of_leaf {root : List Byte} {a b : List Byte} {pk₁ pk₂ : PublicKey C} {l : List Byte}
    (h₁ : MerkleProvedKey C root a pk₁) (h₂ : MerkleProvedKey C root b pk₂)
    (ha : PkrLeaf a l) (hb : PkrLeaf b l) : pk₁ = pk₂ := by
  obtain ⟨s, hs, sl, e⟩ := ha
  obtain ⟨s', hs', sl', e'⟩ := hb
  have hss : s = s' := by
    have := congrArg List.length (e.symm.trans e')
    rw [byteField_length (by omega), byteField_length (by omega)] at this
    omega
  subst hss
  have hb' : byteField a 129 (1 + s) = byteField b 129 (1 + s) := e.symm.trans e'
  have hkey : byteField a 130 s = byteField b 130 s := by
    have := congrArg (List.drop 1) hb'
    simpa only [byteField, List.drop_take, List.drop_drop, Nat.add_sub_cancel_left] using this
  have hbit : ∀ j w, 1032 ≤ j → j + w ≤ 1040 → bitField a j w = bitField b j w := by
    intro j w h1 h2
    have h3 : ∀ x : List Byte, bitField x j w = loadBe (((bitsOf (byteField x 129 (1 + s))).drop (j - 1032)).take w) := by
      intro x
      unfold bitField byteField
      rw [← bitsOf_take, ← bitsOf_drop, List.drop_take, List.take_take, List.drop_drop]
      rw [show 8 * 129 + (j - 1032) = j by omega, show min w (8 * (1 + s) - (j - 1032)) = w by omega]
    rw [h3, h3, hb']
  have ht := hbit 1032 4 (by omega) (by omega)
  have hi := hbit 1036 4 (by omega) (by omega)
  have hpk : pk₁.key = pk₂.key := by
    rcases h₁.key with ⟨v1, _, _, k1, q1, r1⟩ | ⟨v1, _, _, _, k1, q1, r1⟩ <;>
    rcases h₂.key with ⟨v2, _, _, k2, q2, r2⟩ | ⟨v2, _, _, _, k2, q2, r2⟩
    · have : s = 33 := by simpa [icdPkrKeyBytes, v1] using hs.symm
      subst this
      rw [hkey, q2] at q1
      cases q1; rw [r1, r2]
    · omega
    · omega
    · have : s = 67 := by simpa [icdPkrKeyBytes, v1] using hs.symm
      subst this
      rw [hkey, q2] at q1
      cases q1; rw [r1, r2]
  have hid := h₁.pkid.trans (hi.trans h₂.pkid.symm)
  rcases pk₁ with ⟨a1, a2⟩
  rcases pk₂ with ⟨b1, b2⟩
  simp only at hpk hid
  rw [hpk, hid]

/-- **C25** in particular two different public keys (or ids) accepted at one position of the tree exhibit
a SHA-256 collision. -/
theorem C25_public_key_binding (root : MerkleTreeNode) (d₁ d₂ : DsmPkr) (pk₁ pk₂ : PublicKey C)
    (h₁ : Merkle.validatePkr C root d₁ = .ok (.ok pk₁)) (h₂ : Merkle.validatePkr C root d₂ = .ok (.ok pk₂))
    (hid : d₁.messageId = d₂.messageId) (hne : pk₁ ≠ pk₂) :
    ∃ l₁ l₂, PkrLeaf d₁.data l₁ ∧ PkrLeaf d₂.data l₂ ∧ l₁ ≠ l₂ ∧
      InputsCollide C (merkleInputs C d₁.data l₁) (merkleInputs C d₂.data l₂) := by
  obtain ⟨l₁, e₁, _, _⟩ := PkrAccepted.proof (.inl ⟨_, h₁⟩)
  obtain ⟨l₂, e₂, _, _⟩ := PkrAccepted.proof (.inl ⟨_, h₂⟩)
  have hl : l₁ ≠ l₂ := by
    rintro rfl
    exact hne ((Merkle.validatePkr_eq_ok.1 h₁).of_leaf (Merkle.validatePkr_eq_ok.1 h₂) e₁ e₂)
  exact ⟨l₁, l₂, e₁, e₂, hl, C25_merkle_binding root d₁ d₂ l₁ l₂ (.inl ⟨_, h₁⟩) (.inl ⟨_, h₂⟩) hid e₁ e₂ hl⟩

/-- **C25** a DSM-PKR is accepted exactly when its type is that of a public key, the path given by its
message ID and tree nodes leads from its leaf to the root, and the key is a point of its curve; the
returned key is the one in the message, with the id in the message. -/
theorem C25_accepted_iff_proved (root : MerkleTreeNode) (d : DsmPkr) (pk : PublicKey C) :
    Merkle.validatePkr C root d = .ok (.ok pk) ↔ MerkleProvedKey C root.val d.data pk :=
  Merkle.validatePkr_eq_ok

/-! ## C51 -/

namespace PkrFields

theorem bits_eq (f : PkrFields) : bitsOf f.bytes = storeBe 4 f.nb ++ storeBe 4 f.mid ++ bitsOf f.node0
    ++ bitsOf f.node1 ++ bitsOf f.node2 ++ bitsOf f.node3 ++ storeBe 4 f.npkt ++ storeBe 4 f.npkid
    ++ bitsOf f.key ++ bitsOf f.padding := by
  unfold bytes
  simp only [bitsOf_append]
  rw [bitsOf_packBytes_aligned (by simp), bitsOf_packBytes_aligned (by simp)]
  simp only [List.append_assoc]

variable {f : PkrFields}

theorem head_length (n m : Nat) : (packBytes (storeBe 4 n ++ storeBe 4 m)).length = 1 := by
  rw [packBytes_length]; simp

theorem length_eq (h : f.InRange) : f.bytes.length = 130 + f.key.length + f.padding.length := by
  unfold bytes
  simp only [List.length_append, head_length, h.node0, h.node1, h.node2, h.node3]

theorem nodes_field (h : f.InRange) : byteField f.bytes 1 32 = f.node0 ∧ byteField f.bytes 33 32 = f.node1 ∧
    byteField f.bytes 65 32 = f.node2 ∧ byteField f.bytes 97 32 = f.node3 ∧
    byteField f.bytes 129 (1 + f.key.length) = f.leaf ∧ byteField f.bytes 130 f.key.length = f.key ∧
    f.bytes.drop (130 + f.key.length) = f.padding := by
  have key : ∀ (a b c : List Byte) (i n : Nat), a.length = i → b.length = n → byteField (a ++ b ++ c) i n = b := by
    rintro a b c i n rfl rfl
    rw [byteField, List.append_assoc, List.drop_left, List.take_left]
  unfold bytes
  refine ⟨?_, ?_, ?_, ?_, ?_, ?_, ?_⟩
  · have := key (packBytes (storeBe 4 f.nb ++ storeBe 4 f.mid)) f.node0 (f.node1 ++ f.node2 ++ f.node3
      ++ packBytes (storeBe 4 f.npkt ++ storeBe 4 f.npkid) ++ f.key ++ f.padding) 1 32 (head_length _ _) h.node0
    simpa only [List.append_assoc] using this
  · have := key (packBytes (storeBe 4 f.nb ++ storeBe 4 f.mid) ++ f.node0) f.node1 (f.node2 ++ f.node3
      ++ packBytes (storeBe 4 f.npkt ++ storeBe 4 f.npkid) ++ f.key ++ f.padding) 33 32
      (by simp [head_length, h.node0]) h.node1
    simpa only [List.append_assoc] using this
  · have := key (packBytes (storeBe 4 f.nb ++ storeBe 4 f.mid) ++ f.node0 ++ f.node1) f.node2 (f.node3
      ++ packBytes (storeBe 4 f.npkt ++ storeBe 4 f.npkid) ++ f.key ++ f.padding) 65 32
      (by simp [head_length, h.node0, h.node1]) h.node2
    simpa only [List.append_assoc] using this
  · have := key (packBytes (storeBe 4 f.nb ++ storeBe 4 f.mid) ++ f.node0 ++ f.node1 ++ f.node2) f.node3
      (packBytes (storeBe 4 f.npkt ++ storeBe 4 f.npkid) ++ f.key ++ f.padding) 97 32
      (by simp [head_length, h.node0, h.node1, h.node2]) h.node3
    simpa only [List.append_assoc] using this
  · have := key (packBytes (storeBe 4 f.nb ++ storeBe 4 f.mid) ++ f.node0 ++ f.node1 ++ f.node2 ++ f.node3)
      f.leaf f.padding 129 (1 + f.key.length)
      (by simp [head_length, h.node0, h.node1, h.node2, h.node3]) (by simp [leaf, head_length])
    unfold leaf at this ⊢
    simpa only [List.append_assoc] using this
  · have := key (packBytes (storeBe 4 f.nb ++ storeBe 4 f.mid) ++ f.node0 ++ f.node1 ++ f.node2 ++ f.node3
      ++ packBytes (storeBe 4 f.npkt ++ storeBe 4 f.npkid)) f.key f.padding 130 f.key.length
      (by simp [head_length, h.node0, h.node1, h.node2, h.node3]) rfl
    simpa only [List.append_assoc] using this
  · rw [List.drop_left' (by simp [head_length, h.node0, h.node1, h.node2, h.node3]; omega)]

theorem fields (h : f.InRange) : bitField f.bytes 0 4 = f.nb ∧ bitField f.bytes 4 4 = f.mid ∧
    bitField f.bytes 1032 4 = f.npkt ∧ bitField f.bytes 1036 4 = f.npkid := by
  have hb := f.bits_eq
  refine ⟨?_, ?_, ?_, ?_⟩
  · have := bitField_layout (data := f.bytes) (a := []) (n := 4) (v := f.nb)
      (by simpa only [List.append_assoc, List.nil_append] using hb) h.nb
    simpa using this
  · have := bitField_layout (data := f.bytes) (a := storeBe 4 f.nb) (n := 4) (v := f.mid)
      (by simpa only [List.append_assoc] using hb) h.mid
    simpa using this
  · have := bitField_layout (data := f.bytes) (a := storeBe 4 f.nb ++ storeBe 4 f.mid ++ bitsOf f.node0
      ++ bitsOf f.node1 ++ bitsOf f.node2 ++ bitsOf f.node3) (n := 4) (v := f.npkt)
      (by simpa only [List.append_assoc] using hb) h.npkt
    simpa [h.node0, h.node1, h.node2, h.node3] using this
  · have := bitField_layout (data := f.bytes) (a := storeBe 4 f.nb ++ storeBe 4 f.mid ++ bitsOf f.node0
      ++ bitsOf f.node1 ++ bitsOf f.node2 ++ bitsOf f.node3 ++ storeBe 4 f.npkt) (n := 4) (v := f.npkid)
      (by simpa only [List.append_assoc] using hb) h.npkid
    simpa [h.node0, h.node1, h.node2, h.node3] using this

end PkrFields

/-- **C51** decoding a DSM-PKR laid out as in ICD Figure 5 gives back every field; reserved codes of NB
and NPKT are reported as such and give no key, leaf or padding. -/
theorem C51_pkr_fields_decoded (f : PkrFields) (hr : f.InRange) :
    let d : DsmPkr := ⟨f.bytes⟩
    d.numberOfBlocks = .ok (if 7 ≤ f.nb ∧ f.nb ≤ 10 then some (f.nb + 6) else none) ∧
    d.messageId = .ok f.mid ∧
    d.intermediateTreeNode 0 = .ok f.node0 ∧ d.intermediateTreeNode 1 = .ok f.node1 ∧
    d.intermediateTreeNode 2 = .ok f.node2 ∧ d.intermediateTreeNode 3 = .ok f.node3 ∧
    (∃ t, d.newPublicKeyType = .ok t ∧ NpktMeans f.npkt t) ∧ d.newPublicKeyId = .ok f.npkid ∧
    (icdPkrKeyBytes f.npkt f.nb = some f.key.length →
      d.newPublicKey = .ok (some f.key) ∧ d.merkleTreeLeaf = .ok (some f.leaf) ∧
      (7 ≤ f.nb → f.nb ≤ 10 → f.bytes.length = 13 * (f.nb + 6) → d.padding = .ok (some f.padding))) ∧
    (icdPkrKeyBytes f.npkt f.nb = none →
      d.newPublicKey = .ok none ∧ d.merkleTreeLeaf = .ok none ∧ d.padding = .ok none) := by
  intro d
  have hl := PkrFields.length_eq hr
  obtain ⟨e0, e1, e2, e3, e4, e5, e6⟩ := PkrFields.nodes_field hr
  obtain ⟨b0, b4, b1, b2⟩ := PkrFields.fields hr
  have hl' : 130 ≤ d.data.length := by simp only [d]; omega
  refine ⟨?_, ?_, ?_, ?_, ?_, ?_, ?_, ?_, ?_, ?_⟩
  · rw [DsmPkr.numberOfBlocks_ok (by omega), b0]
  · rw [DsmPkr.messageId_ok (by omega), b4]
  · rw [DsmPkr.intermediateTreeNode_ok (by omega) (by omega)]; exact congrArg Res.ok e0
  · rw [DsmPkr.intermediateTreeNode_ok (by omega) (by omega)]; exact congrArg Res.ok e1
  · rw [DsmPkr.intermediateTreeNode_ok (by omega) (by omega)]; exact congrArg Res.ok e2
  · rw [DsmPkr.intermediateTreeNode_ok (by omega) (by omega)]; exact congrArg Res.ok e3
  · refine ⟨_, DsmPkr.newPublicKeyType_ok hl', ?_⟩
    simp only [d, b1]
    unfold DsmPkr.typeOf
    split
    · assumption
    · assumption
    · assumption
    · rename_i h1 h2 h3; exact ⟨h1, h2, h3⟩
  · rw [DsmPkr.newPublicKeyId_ok hl', b2]
  · intro hk
    have hk' : icdPkrKeyBytes (bitField d.data 1032 4) (bitField d.data 0 4) = some f.key.length := by
      simp only [d, b1, b0]; exact hk
    refine ⟨?_, ?_, ?_⟩
    · rw [DsmPkr.newPublicKey_ok hl' hk' (by simp only [d]; omega)]
      simp only [d, e5]
    · rw [DsmPkr.merkleTreeLeaf_eq_ok.2 ⟨hl', .inr ⟨_, hk', by simp only [d]; omega, rfl⟩⟩]
      simp only [d, e4]
    · intro h7 h10 hlen
      unfold DsmPkr.padding
      rw [DsmPkr.keySize_ok hl', hk', DsmPkr.numberOfBlocks_ok (by omega)]
      simp only [Res.ok_bind, d, b0]
      rw [if_pos ⟨h7, h10⟩]
      dsimp only
      rw [slice_ok (by omega) (by omega), List.take_of_length_le (by rw [List.length_drop]; omega), e6]
      rfl
  · intro hk
    have hk' : icdPkrKeyBytes (bitField d.data 1032 4) (bitField d.data 0 4) = none := by
      simp only [d, b1, b0]; exact hk
    refine ⟨?_, ?_, ?_⟩
    · unfold DsmPkr.newPublicKey
      rw [DsmPkr.keySize_ok hl', hk']; rfl
    · rw [DsmPkr.merkleTreeLeaf_eq_ok.2 ⟨hl', .inl ⟨hk', rfl⟩⟩]
    · unfold DsmPkr.padding
      rw [DsmPkr.keySize_ok hl', hk', DsmPkr.numberOfBlocks_ok (by omega)]
      rfl

/-- **C51** `check_padding` of a complete DSM-PKR compares the padding with the truncated SHA-256 of the
root followed by the leaf. -/
theorem C51_pkr_padding_check (f : PkrFields) (hr : f.InRange) (root : MerkleTreeNode)
    (hk : icdPkrKeyBytes f.npkt f.nb = some f.key.length) (h7 : 7 ≤ f.nb) (h10 : f.nb ≤ 10)
    (hlen : f.bytes.length = 13 * (f.nb + 6)) (hp : f.padding.length ≤ 32) (b : Bool) :
    DsmPkr.checkPadding C ⟨f.bytes⟩ root = .ok b ↔
      (b = true ↔ f.padding = (C.sha256 (root.val ++ f.leaf)).take f.padding.length) := by
  have hd := C51_pkr_fields_decoded f hr
  obtain ⟨_, hleaf, hpad⟩ := hd.2.2.2.2.2.2.2.2.1 hk
  unfold DsmPkr.checkPadding
  rw [hpad h7 h10 hlen]
  simp only [Res.ok_bind]
  cases hpp : f.padding with
  | nil =>
    simp only [List.isEmpty_nil, if_true, Res.pure_eq, Res.ok.injEq, List.length_nil, List.take_zero, iff_true]
    exact eq_comm
  | cons x l =>
    rw [← hpp]
    have hne : f.padding.isEmpty = false := by rw [hpp]; rfl
    rw [hne, hleaf]
    simp only [Bool.false_eq_true, if_false, Res.ok_bind, Res.unwrap_some]
    rw [slice_ok (by omega) (by rw [C.sha256_len]; exact hp)]
    simp only [List.drop_zero, Nat.sub_zero, Res.ok_bind, Res.pure_eq, Res.ok.injEq]
    constructor
    · rintro rfl
      rw [beq_iff_eq, eq_comm]
    · intro h
      cases b with
      | true => rw [beq_iff_eq]; exact (h.1 rfl).symm
      | false =>
        rw [beq_eq_false_iff_ne]
        intro hc
        have := h.2 hc.symm
        cases this

/-- **C51** the fields of the DSM header; DSM ids from 12 on are those of DSM-PKR. -/
theorem C51_dsm_header_decoded (h : DsmHeader) (id block : Nat) (hi : id < 16) (hb : block < 16)
    (hd : byteBits h.data = storeBe 4 id ++ storeBe 4 block) :
    h.dsmId = id ∧ h.dsmBlockId = block ∧ (h.dsmType = .Pkr ↔ 12 ≤ id) ∧ (h.dsmType = .Kroot ↔ id < 12) := by
  have h1 : h.dsmId = id := by
    unfold DsmHeader.dsmId
    rw [hd, List.take_left' (by simp), loadBe_storeBe, Nat.mod_eq_of_lt hi]
  refine ⟨h1, ?_, ?_, ?_⟩
  · unfold DsmHeader.dsmBlockId
    rw [hd, List.drop_left' (by simp), List.take_of_length_le (by simp), loadBe_storeBe, Nat.mod_eq_of_lt hb]
  · unfold DsmHeader.dsmType
    rw [h1]; split <;> simp_all
  · unfold DsmHeader.dsmType
    rw [h1]; split <;> simp_all

/-- **C51** the fields of the NMA header (the last bit is reserved). -/
theorem C51_nma_header_decoded (h : NmaHeader) (nmas cid cpks : Nat) (rsvd : Bool) (h1 : nmas < 4)
    (h2 : cid < 4) (h3 : cpks < 8)
    (hd : byteBits h.data = storeBe 2 nmas ++ storeBe 2 cid ++ storeBe 3 cpks ++ [rsvd]) :
    NmasMeans nmas h.nmaStatus ∧ h.chainId = cid ∧ CpksMeans cpks h.cpks := by
  have e1 : loadBe ((byteBits h.data).take 2) = nmas := by
    rw [hd, List.append_assoc, List.append_assoc, List.take_left' (by simp), loadBe_storeBe, Nat.mod_eq_of_lt h1]
  have e2 : loadBe (((byteBits h.data).drop 2).take 2) = cid := by
    rw [hd, List.append_assoc, List.append_assoc, List.drop_left' (by simp), List.take_left' (by simp),
      loadBe_storeBe, Nat.mod_eq_of_lt h2]
  have e3 : loadBe (((byteBits h.data).drop 4).take 3) = cpks := by
    rw [hd, List.append_assoc, List.drop_left' (by simp), List.take_left' (by simp), loadBe_storeBe, Nat.mod_eq_of_lt h3]
  refine ⟨?_, e2, ?_⟩
  · unfold NmaHeader.nmaStatus
    rw [e1]
    rcases nmas with _ | _ | _ | _ | n
    · rfl
    · rfl
    · rfl
    · rfl
    · omega
  · unfold NmaHeader.cpks
    rw [e3]
    rcases cpks with _ | _ | _ | _ | _ | _ | _ | _ | n
    · rfl
    · rfl
    · rfl
    · rfl
    · rfl
    · rfl
    · rfl
    · rfl
    · omega

/-! ## C26 -/

/-- A DSM-PKR for position `i` of the tree over `leaves`, with the siblings of the path. -/
structure GenuinePkr (C : Crypto) (leaves : Nat → List Byte) (i : Nat) (f : PkrFields) : Prop where
  inRange : f.InRange
  pos : i < 16
  mid : f.mid = i
  leaf : f.leaf = leaves i
  size : icdPkrKeyBytes f.npkt f.nb = some f.key.length
  node0 : f.node0 = merkleSibling C leaves i 0
  node1 : f.node1 = merkleSibling C leaves i 1
  node2 : f.node2 = merkleSibling C leaves i 2
  node3 : f.node3 = merkleSibling C leaves i 3

theorem GenuinePkr.proof {leaves : Nat → List Byte} {i : Nat} {f : PkrFields} (h : GenuinePkr C leaves i f) :
    MerkleProof C (merkleRoot C leaves) f.bytes (byteField f.bytes 129 (1 + f.key.length)) := by
  obtain ⟨e0, e1, e2, e3, e4, e5, e6⟩ := PkrFields.nodes_field h.inRange
  obtain ⟨b0, b4, b1, b2⟩ := PkrFields.fields h.inRange
  have hp := merklePathRoot_genuine (C := C) leaves i 0 4
  unfold MerkleProof
  rw [b4, e0, e1, e2, e3, e4, h.mid, h.leaf, h.node0, h.node1, h.node2, h.node3]
  have h0 : i / 2 ^ 0 = i := by simp
  have h4 : i / 2 ^ (0 + 4) = 0 := by have := h.pos; simp; omega
  rw [h0, h4] at hp
  exact hp

/-- **C26** every leaf of the 16-leaf tree is accepted by the tree check against its root: public keys
of both curves that are points of the curve are returned with their id, and alert messages are accepted. -/
theorem C26_genuine_leaf_accepted (leaves : Nat → List Byte) (i : Nat) (f : PkrFields)
    (root : MerkleTreeNode) (hr : root.val = merkleRoot C leaves) (hf : GenuinePkr C leaves i f) :
    Merkle.validate C root ⟨f.bytes⟩ = .ok (.ok ()) ∧
    (f.npkt = 1 → ∀ k, C.p256FromSec1 f.key = some k →
      Merkle.validatePkr C root ⟨f.bytes⟩ = .ok (.ok ⟨.P256 k, f.npkid⟩)) ∧
    (f.npkt = 3 → C.p521 = true → ∀ k, C.p521FromSec1 f.key = some k →
      Merkle.validatePkr C root ⟨f.bytes⟩ = .ok (.ok ⟨.P521 k, f.npkid⟩)) ∧
    (f.npkt = 4 → Merkle.validateAlertMessage C root ⟨f.bytes⟩ = .ok (.ok ())) := by
  have hp := hf.proof
  rw [← hr] at hp
  obtain ⟨e0, e1, e2, e3, e4, e5, e6⟩ := PkrFields.nodes_field hf.inRange
  obtain ⟨b0, b4, b1, b2⟩ := PkrFields.fields hf.inRange
  have hl := PkrFields.length_eq hf.inRange
  have hs := hf.size
  refine ⟨?_, ?_, ?_, ?_⟩
  · exact Merkle.validate_eq_ok.2 ⟨f.key.length, by simp only [b1, b0]; exact hs, by simp only; omega, hp⟩
  · intro hn k hk
    have h33 : f.key.length = 33 := by rw [hn] at hs; simpa [icdPkrKeyBytes] using hs.symm
    refine Merkle.validatePkr_eq_ok.2 ⟨b2.symm, .inl ⟨by simp only [b1]; exact hn, by simp only; omega, ?_, k, ?_, rfl⟩⟩
    · rw [h33] at hp; exact hp
    · rw [← hk]; rw [h33] at e5; exact congrArg _ e5
  · intro hn hq k hk
    have h67 : f.key.length = 67 := by rw [hn] at hs; simpa [icdPkrKeyBytes] using hs.symm
    refine Merkle.validatePkr_eq_ok.2 ⟨b2.symm, .inr ⟨by simp only [b1]; exact hn, by simp only; omega, ?_, hq, k, ?_, rfl⟩⟩
    · rw [h67] at hp; exact hp
    · rw [← hk]; rw [h67] at e5; exact congrArg _ e5
  · intro hn
    refine Merkle.validateAlert_eq_ok.2 ⟨by simp only [b1]; exact hn, f.key.length, ?_, by simp only; omega, hp⟩
    rw [hn] at hs
    simp only [b0]; exact hs

/-- A case for `GenuinePkr`: position 5 of any tree whose leaf 5 holds a P-256 key. -/
example (leaves : Nat → List Byte) (hl : leaves 5 = 0x12#8 :: List.replicate 33 7#8) :
    GenuinePkr C leaves 5
      { nb := 7, mid := 5, node0 := merkleSibling C leaves 5 0, node1 := merkleSibling C leaves 5 1,
        node2 := merkleSibling C leaves 5 2, node3 := merkleSibling C leaves 5 3, npkt := 1, npkid := 2,
        key := List.replicate 33 7#8, padding := List.replicate 6 0#8 } := by
  have hs : ∀ h, (merkleSibling C leaves 5 h).length = 32 := by
    intro h; unfold merkleSibling; cases h <;> exact C.sha256_len _
  refine ⟨⟨(by decide : 7 < 16), (by decide : 5 < 16), hs 0, hs 1, hs 2, hs 3, (by decide : 1 < 16), (by decide : 2 < 16)⟩, by decide, rfl, ?_, rfl, rfl, rfl, rfl, rfl⟩
  rw [hl]
  show packBytes (storeBe 4 1 ++ storeBe 4 2) ++ List.replicate 33 7#8 = _
  decide

end Verif
