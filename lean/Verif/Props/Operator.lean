import Verif.Spec.Operator
import Verif.Props.Disclosure
import Verif.Props.Kroot
import Verif.Props.Merkle
import Verif.Props.Tesla
import Verif.Props.Validated
import Verif.Props.NavData

/-! # C91: forged data means broken cryptography

Whatever is fed to the receiver: what it accepts and reports is the operator's, or the run gives explicit evidence that somebody forged a
signature, found a hash collision, inverted the one-way function, or forged a MAC under a key that was not disclosed yet. -/

namespace Verif
variable {C : Crypto} {S : Storage} {root0 : Option MerkleTreeNode} {pk0 : Option (PublicKey C)} {slow : Bool} {op : Operator C}
  {hist : List Call} {log : List (KeyEvent C)} {o o0 : Osnma C}

/-! ## The Merkle tree -/

theorem merkleSibling_length (leaves : Nat → List Byte) (i h : Nat) : (merkleSibling C leaves i h).length = 32 := by
  unfold merkleSibling; cases h <;> exact C.sha256_len _

theorem bitField_four_lt (data : List Byte) (i : Nat) : bitField data i 4 < 16 := by
  have h := loadBe_lt (((bitsOf data).drop i).take 4)
  have h2 : (2 : Nat) ^ (((bitsOf data).drop i).take 4).length ≤ 2 ^ 4 :=
    Nat.pow_le_pow_right (by decide) (by rw [List.length_take]; omega)
  exact Nat.lt_of_lt_of_le h h2

/-- A leaf proved against the root of the operator's tree is the operator's, or there is a collision. -/
theorem leaf_or_collide {data leaf : List Byte} (hl : 129 ≤ data.length) (h : MerkleProof C (merkleRoot C op.leaves) data leaf) :
    leaf = op.leaves (bitField data 4 4) ∨ InputsCollide C (merkleInputs C data leaf) (op.leafInputs (bitField data 4 4)) := by
  have hi := bitField_four_lt data 4
  generalize hid : bitField data 4 4 = i at hi
  have hp := merklePathRoot_genuine (C := C) op.leaves i 0 4
  have h0 : i / 2 ^ 0 = i := by simp
  have h4 : i / 2 ^ (0 + 4) = 0 := by simp; omega
  rw [h0, h4] at hp
  have hp' : merklePathRoot C i (C.sha256 (op.leaves i))
      [merkleSibling C op.leaves i 0, merkleSibling C op.leaves i 1, merkleSibling C op.leaves i 2, merkleSibling C op.leaves i 3] =
      merkleRoot C op.leaves := hp
  unfold MerkleProof at h
  rw [hid] at h
  by_cases hne : leaf = op.leaves i
  · exact .inl hne
  · right
    unfold merkleInputs Operator.leafInputs
    rw [hid]
    by_cases he : C.sha256 leaf = C.sha256 (op.leaves i)
    · exact ⟨0, leaf, op.leaves i, rfl, rfl, hne, he⟩
    · obtain ⟨j, m₁, m₂, e1, e2, e3⟩ := merklePathRoot_collision (by rw [C.sha256_len, C.sha256_len])
        (by simp only [List.map_cons, List.map_nil, merkleSibling_length]
            rw [byteField_length (by omega), byteField_length (by omega), byteField_length (by omega), byteField_length (by omega)]) he
        (h.trans hp'.symm)
      exact ⟨j + 1, m₁, m₂, e1, e2, e3⟩

theorem MerkleProvedKey.leafKey {root data : List Byte} {pk : PublicKey C} (h : MerkleProvedKey C root data pk) :
    ∃ leaf, PkrLeaf data leaf ∧ 129 ≤ data.length ∧ MerkleProof C root data leaf ∧ LeafKey C leaf pk := by
  have hbit : ∀ s j w, 33 ≤ s → 1032 ≤ j → j + w ≤ 1040 → bitField data j w = bitField (byteField data 129 (1 + s)) (j - 1032) w := by
    intro s j w hs h1 h2
    rw [bitField_byteField data (i := 129) (n := 1 + s) (by omega) (by omega)]
    rfl
  have hdrop : ∀ s, (byteField data 129 (1 + s)).drop 1 = byteField data 130 s := by
    intro s
    simp only [byteField, List.drop_take, List.drop_drop, Nat.add_sub_cancel_left]
  rcases h.key with ⟨ht, hl, hp, k, hk, e⟩ | ⟨ht, hl, hp, h5, k, hk, e⟩
  · refine ⟨_, ⟨33, by simp [icdPkrKeyBytes, ht], by omega, rfl⟩, by omega, hp, ?_, .inl ⟨?_, ?_, k, ?_, e⟩⟩
    · rw [h.pkid, hbit 33 1036 4 (by omega) (by omega) (by omega)]
    · exact (hbit 33 1032 4 (by omega) (by omega) (by omega)).symm.trans ht
    · exact byteField_length (by omega)
    · rw [hdrop]; exact hk
  · refine ⟨_, ⟨67, by simp [icdPkrKeyBytes, ht], by omega, rfl⟩, by omega, hp, ?_, .inr ⟨?_, ?_, h5, k, ?_, e⟩⟩
    · rw [h.pkid, hbit 67 1036 4 (by omega) (by omega) (by omega)]
    · exact (hbit 67 1032 4 (by omega) (by omega) (by omega)).symm.trans ht
    · exact byteField_length (by omega)
    · rw [hdrop]; exact hk

/-- **C91** every public key accepted from a DSM-PKR is the operator's, or the run shows a collision of SHA-256. -/
theorem C91_public_keys (hop : op.Sound) (ht : op.Trusted root0 pk0) (h : Logs S (Osnma.new S root0 pk0 slow) hist log o)
    {data : List Byte} {pk : PublicKey C} (hm : KeyEvent.pkr data pk ∈ log) :
    (op.owns pk ∧ PkrLeaf data (op.leaves (bitField data 4 4))) ∨ op.Broken log := by
  obtain ⟨l1, l2, hl⟩ := List.append_of_mem hm
  obtain ⟨root, hr, hp⟩ := ((keyInv_run h).good _ _ _ hl).2
  obtain ⟨leaf, h1, h2, h3, h4⟩ := hp.leafKey
  rw [ht.root root hr] at h3
  by_cases hne : leaf = op.leaves (bitField data 4 4)
  · left
    rw [hne] at h1 h4
    exact ⟨hop.leaf _ (bitField_four_lt _ _) pk h4, h1⟩
  · rcases leaf_or_collide h2 h3 with e | e
    · exact absurd e hne
    · exact .inr (.tree data leaf (.inl ⟨pk, hm⟩) h1 hne e)

/-- **C91** every accepted alert message is a leaf of the operator's tree, or the run shows a collision of SHA-256. -/
theorem C91_alerts (ht : op.Trusted root0 pk0) (h : Logs S (Osnma.new S root0 pk0 slow) hist log o)
    {data : List Byte} (hm : KeyEvent.alert data ∈ log) :
    (PkrLeaf data (op.leaves (bitField data 4 4)) ∧ bitField (op.leaves (bitField data 4 4)) 0 4 = 4) ∨
      op.Broken log := by
  obtain ⟨l1, l2, hl⟩ := List.append_of_mem hm
  obtain ⟨root, leaf, hr, h4, h1, h3⟩ := ((keyInv_run h).good _ _ _ hl).2
  rw [ht.root root hr] at h3
  have h1' := h1
  obtain ⟨s, hs, hsl, he⟩ := h1
  by_cases hne : leaf = op.leaves (bitField data 4 4)
  · left
    refine ⟨by rw [← hne]; exact h1', ?_⟩
    rw [← hne, he]
    refine Eq.trans ?_ h4
    rw [bitField_byteField data (i := 129) (n := 1 + s) (by omega) (by omega)]
    rfl
  · rcases leaf_or_collide (by omega) h3 with e | e
    · exact absurd e hne
    · exact .inr (.tree data leaf (.inr hm) h1' hne e)

/-! ## DSM-KROOTs -/

/-- The signed message determines what is announced. -/
theorem signedMessage_announces {h₁ h₂ : NmaHeader} {d₁ d₂ : List Byte} {k₁ k₂ : Key} (a₁ : AnnouncedKey d₁ k₁) (a₂ : AnnouncedKey d₂ k₂)
    (l₁ : 13 + k₁.chain.keySizeBytes ≤ d₁.length) (l₂ : 13 + k₂.chain.keySizeBytes ≤ d₂.length)
    (hm : signedMessage h₁ d₁ k₁.chain.keySizeBytes = signedMessage h₂ d₂ k₂.chain.keySizeBytes) :
    h₁ = h₂ ∧ k₁.bytes = k₂.bytes ∧ k₁.chain = k₂.chain ∧ k₁.gst = k₂.gst := by
  simp only [signedMessage, List.cons.injEq] at hm
  obtain ⟨hh, hb⟩ := hm
  have hn : k₁.chain.keySizeBytes = k₂.chain.keySizeBytes := by
    have := congrArg List.length hb
    rw [byteField_length (by omega), byteField_length (by omega)] at this
    omega
  rw [← hn] at hb
  refine ⟨by cases h₁; cases h₂; exact congrArg NmaHeader.mk hh, a₁.unique a₂ ?_ ?_⟩
  · intro j w h1 h2
    exact bitField_congr hb (by omega) (by omega)
  · exact byteField_take hb (by omega) (by omega)

/-- A trusted public key is the operator's. -/
theorem owned_or_broken (hop : op.Sound) (ht : op.Trusted root0 pk0) (h : Logs S (Osnma.new S root0 pk0 slow) hist log o) {pk : PublicKey C}
    (hp : TrustedPk pk0 log pk) : op.owns pk ∨ op.Broken log := by
  rcases hp with hp | ⟨data, hp⟩
  · exact .inl (ht.key pk hp)
  · rcases C91_public_keys hop ht h hp with ⟨e, _⟩ | e
    · exact .inl e
    · exact .inr e

/-- **C91** every accepted DSM-KROOT was signed by the operator: with the same NMA header, root key, chain and time; or the run gives evidence of
a forgery. -/
theorem C91_kroots (hop : op.Sound) (ht : op.Trusted root0 pk0) (h : Logs S (Osnma.new S root0 pk0 slow) hist log o)
    {hd : NmaHeader} {data : List Byte} {pk : PublicKey C} {kr : Key} {g : Gst} (hm : KeyEvent.kroot hd data pk kr g ∈ log) :
    (∃ data' kr', op.issued pk.key hd data' kr' ∧ kr'.bytes = kr.bytes ∧ kr'.chain = kr.chain ∧ kr'.gst = kr.gst) ∨
      op.Broken log := by
  obtain ⟨l1, l2, hl⟩ := List.append_of_mem hm
  obtain ⟨hpk, hid, ⟨f, n, hs⟩, han, _⟩ := ((keyInv_run h).good _ _ _ hl).2
  have hpk' : TrustedPk pk0 log pk := by
    rcases hpk with e | ⟨d, e⟩
    · exact .inl e
    · exact .inr ⟨d, by rw [hl]; exact List.mem_append_left _ e⟩
  rcases owned_or_broken hop ht h hpk' with hown | hb
  · have hn : n = kr.chain.keySizeBytes := by
      have := hs.ks
      rw [han.ks] at this
      simpa using this.symm
    by_cases hi : ∃ h' data' kr', op.issued pk.key h' data' kr' ∧ signedMessage h' data' kr'.chain.keySizeBytes = signedMessage hd data n
    · left
      obtain ⟨h', data', kr', hiss, hmsg⟩ := hi
      obtain ⟨q1, q2, q3⟩ := hop.kroot _ _ _ _ hiss
      have := hs.fits
      rw [hn] at hmsg
      obtain ⟨rfl, e1, e2, e3⟩ := signedMessage_announces q2 han q1 (by omega) hmsg
      exact ⟨data', kr', hiss, e1, e2, e3⟩
    · right
      refine .signature hd data pk kr g f n hm hown hs ?_
      intro h' data' kr' hiss e
      exact hi ⟨h', data', kr', hiss, e⟩
  · exact .inr hb

/-! ## TESLA keys -/

/-- **C91** every accepted TESLA key is the key of its subframe of a chain of the operator, or the run gives evidence of a forgery, a collision or
an inversion. -/
theorem C91_tesla_keys (hop : op.Sound) (ht : op.Trusted root0 pk0) (h : Logs S (Osnma.new S root0 pk0 slow) hist log o)
    {k : Key} (hm : KeyEvent.tesla k ∈ log) : (∃ last, op.KeyOf last k) ∨ op.Broken log := by
  obtain ⟨l1, l2, hl⟩ := List.append_of_mem hm
  obtain ⟨_, ⟨hd, data, pk, kr, g, n, hkr, hc, hder⟩, _⟩ := ((keyInv_run h).good _ _ _ hl).2
  have hkr' : KeyEvent.kroot hd data pk kr g ∈ log := by rw [hl]; exact List.mem_append_left _ hkr
  rcases C91_kroots hop ht h hkr' with ⟨data', kr', hiss, e1, e2, e3⟩ | hb
  · obtain ⟨_, _, last, hseed, hch, m, hd2⟩ := hop.kroot _ _ _ _ hiss
    rw [e3, e1] at hd2
    have hcl : k.chain = last.chain := by rw [← hc, ← e2, hch]
    rw [hcl] at hder
    have hlen : k.bytes.length = last.chain.keySizeBytes := by rw [Key.bytes_length, hcl]
    have t1 := hder.time
    have t2 := hd2.time
    dsimp only at t1 t2
    rcases Nat.le_total n m with hle | hle
    · obtain ⟨⟨g', b⟩, s1, s2⟩ := Derives.split (m := m - n) (n := n) (by rw [Nat.sub_add_cancel hle]; exact hd2)
      have t3 := s1.time
      dsimp only at t3
      obtain rfl : g' = k.gst := Gst.abs_inj (by omega)
      by_cases hb : k.bytes = b
      · exact .inl ⟨last, hseed, hcl, m - n, by rw [hb]; exact s1⟩
      · right
        refine .collision k last n b hm hseed hcl ⟨_, s1⟩ (hder.collision s2 ?_ hb)
        rw [hlen]
        exact (s1.length (Key.bytes_length last)).symm
    · obtain ⟨⟨g', b⟩, s1, s2⟩ := Derives.split (m := n - m) (n := m) (by rw [Nat.sub_add_cancel hle]; exact hder)
      have t3 := s1.time
      dsimp only at t3
      obtain rfl : g' = last.gst := Gst.abs_inj (by omega)
      by_cases hb : b = last.bytes
      · subst hb
        by_cases h0 : n - m = 0
        · rw [h0] at s1
          left
          refine ⟨last, hseed, hcl, 0, ?_⟩
          have e := s1.det (.zero _)
          rw [Prod.mk.injEq] at e
          rw [← e.1, ← e.2]
          exact .zero _
        · exact .inr (.inversion k last (n - m) hm hseed hcl (by omega) s1)
      · right
        refine .beyond k last (n - m) m b hm hseed hcl s1 (s2.collision hd2 ?_ hb)
        rw [s1.length hlen, Key.bytes_length]
  · exact .inr hb

/-! ## Tags and data -/

theorem first_tag_own {msg : MackMessage} {c : Chain} {prna : Svn} {t : TagSpec} (h : t ∈ mackTags msg c prna) :
    t.ctr < 256 ∧ (t.ctr = 1 → t.prnd = prna.val) := by
  unfold mackTags at h
  obtain ⟨j, hj, rfl⟩ := List.mem_map.1 h
  rw [mackTag_ctr]
  refine ⟨?_, ?_⟩
  · have : j < (480 - 8 * c.keySizeBytes) / (c.tagSizeBits + 16) := List.mem_range.1 hj
    have : (480 - 8 * c.keySizeBytes) / (c.tagSizeBits + 16) ≤ 480 / 16 :=
      Nat.le_trans (Nat.div_le_div_right (by omega)) (Nat.div_le_div_left (by omega) (by decide))
    omega
  · intro e
    obtain rfl : j = 0 := by omega
    rfl

/-- The tag of the operator that has the same byte string is made of the same data. -/
theorem tagged_of_message (hop : op.Sound) {last : Key} {u : TagUse} {svn : Svn} {bits : List Bool} {x : TagInput}
    (hx : op.tagged last u.key.gst x) (hprnd : u.tag.prnd = svn.val) (hctr : u.tag.ctr < 256) (hfirst : u.tag.ctr = 1 → u.tag.prnd = u.prna.val)
    (hbits : bits.length = 549 ∨ bits.length = 141) (htime : u.key.gst.abs = u.gst.abs + 30 ∨ u.key.gst.abs = u.gst.abs + 330)
    (hm : x.message = tagMessage u.tag.ctr u.tag.prnd u.prna u.gst u.st bits) :
    op.tagged last u.key.gst ⟨u.tag.ctr, svn.val, u.prna, u.gst, u.st, bits⟩ := by
  obtain ⟨c1, c2, c3, c4, c5⟩ := hop.tag _ _ _ hx
  obtain ⟨ctr, prnd, prna, gst, st, xb⟩ := x
  dsimp only [TagInput.message] at *
  have hp : u.tag.prnd < 256 := by have := svn.h36; rw [hprnd]; omega
  obtain ⟨e1, e2, e3, e4, e5, e6, e7⟩ := C18_message_determines_fields _ _ _ _ c1 hctr c2 hp _ _ _ _ _ _ _ _ c3 hbits hm
  subst e3 e6 e7
  have e8 : prnd = svn.val := by
    by_cases h1 : ctr = 1
    · rw [c4 h1, ← hfirst (by rw [← e1]; exact h1), hprnd]
    · rw [e2 h1, hprnd]
  have e9 : gst = u.gst := by
    apply Gst.abs_inj
    have a1 : gst.abs = (gst.wn : Int) * 604800 + gst.tow := rfl
    have a2 : u.gst.abs = (u.gst.wn : Int) * 604800 + u.gst.tow := rfl
    omega
  rw [← e8, ← e9, ← e1]
  exact hx

/-- **C91** data given by a getter has at least 40 bits of tags under keys of the operator, each of which the satellites made of this very data of
this satellite, or was forged before its key was disclosed; or the acceptance messages show that signatures, Merkle tree or one-way function are
broken. -/
theorem C91_genuine_or_broken (hS : S.Consistent) (h0 : (Osnma.new S root0 pk0 slow : Osnma C).Fresh S) (hop : op.Sound)
    (ht : op.Trusted root0 pk0) (h : Logs S (Osnma.new S root0 pk0 slow) hist log o) (kd : NavKind) {svn : Svn} {d : NavMessageData}
    (hd : o.get S kd svn = .ok (some d)) :
    (∃ us : List (Nat × TagUse), us.Nodup ∧ 40 ≤ d.authbits ∧ d.authbits = min 65535 (us.map (fun p => p.2.tag.tag.length)).sum ∧
      ∀ p ∈ us, p.2.Proves root0 pk0 slow hist kd svn d.data ∧ KeyEvent.tesla p.2.key ∈ log ∧ ∃ last, op.KeyOf last p.2.key ∧
        (op.tagged last p.2.key.gst ⟨p.2.tag.ctr, svn.val, p.2.prna, p.2.gst, p.2.st, d.data⟩ ∨
          op.ForgedTag S (Osnma.new S root0 pk0 slow) hist kd svn d.data last p.1 p.2)) ∨
    op.Broken log := by
  by_cases hbr : op.Broken log
  · exact .inr hbr
  left
  have key : ∃ us : List (Nat × TagUse), us.Nodup ∧ 40 ≤ d.authbits ∧ d.authbits = min 65535 (us.map (fun p => p.2.tag.tag.length)).sum ∧
      ∀ p ∈ us, p.2.Proves root0 pk0 slow hist kd svn d.data ∧ p.2.InTime S (Osnma.new S root0 pk0 slow) hist kd svn d.data p.1 ∧
        (CallsInOrder hist → ∃ a b, hist = a ++ b ∧ (∀ c ∈ a, c.gst.subframe.abs < p.2.key.gst.abs) ∧
          (∃ msg, ReceivedMack a p.2.prna p.2.gst p.2.st msg ∧ p.2.tag ∈ mackTags msg p.2.key.chain p.2.prna) ∧
            ReceivedData (inavsOf a) kd svn d.data) := by
    by_cases hord : CallsInOrder hist
    · obtain ⟨us, h1, h2, h3, h4⟩ := C78_before_key_is_sent hS h0 h.run hord kd hd
      refine ⟨us, h1, h2, h3, fun p hp => ?_⟩
      obtain ⟨q1, q2, a, b, q3, q4, _, q6, q7⟩ := h4 p hp
      exact ⟨q1, q2, fun _ => ⟨a, b, q3, q4, q6, q7⟩⟩
    · obtain ⟨us, h1, h2, h3, h4⟩ := C78_in_time hS h0 h.run kd hd
      exact ⟨us, h1, h2, h3, fun p hp => ⟨(h4 p hp).1, (h4 p hp).2, fun e => absurd e hord⟩⟩
  obtain ⟨us, h1, h2, h3, h4⟩ := key
  refine ⟨us, h1, h2, h3, fun p hp => ?_⟩
  obtain ⟨hpr, hin, hearly⟩ := h4 p hp
  obtain ⟨i, u⟩ := p
  dsimp only at hpr hin hearly ⊢
  have hacc : KeyEvent.tesla u.key ∈ log := by
    obtain ⟨lg, oi, c, hc, hlg, he⟩ := hin.accepted
    obtain ⟨hi, hce⟩ := List.getElem?_eq_some_iff.1 hc
    have hsplit : hist = hist.take i ++ c :: hist.drop (i + 1) := by
      rw [← hce, List.getElem_cons_drop, List.take_append_drop]
    rw [hsplit] at h
    obtain ⟨lp, opp, lq, s1, s2, rfl⟩ := h.split
    obtain ⟨rfl, rfl⟩ := s1.unique hlg
    refine List.mem_append_right _ ?_
    obtain ⟨l1, oo, l2, r1, r2, rfl⟩ := Logs.split (p := [c]) (q := hist.drop (i + 1)) s2
    obtain ⟨la, oa, r3, r4, rfl⟩ := Logs.snoc_inv (hist := []) r1
    obtain ⟨rfl, rfl⟩ := r3.unique .nil
    exact List.mem_append_left _ (by simpa using he)
  rcases C91_tesla_keys hop ht h hacc with ⟨last, hk⟩ | hb
  · refine ⟨hpr, hacc, last, hk, ?_⟩
    obtain ⟨msg, hrm, htag⟩ := hin.tag
    obtain ⟨f1, f2⟩ := first_tag_own htag
    have hbits : d.data.length = 549 ∨ d.data.length = 141 := by
      rw [returned_length hS h0 h.run kd hd]
      cases kd
      · exact .inl rfl
      · exact .inr rfl
    have htime : u.key.gst.abs = u.gst.abs + 30 ∨ u.key.gst.abs = u.gst.abs + 330 := by
      rcases hpr.rightKey with ⟨_, _, e, _⟩ | ⟨_, _, e, _⟩ | ⟨_, _, e⟩
      · exact .inl e
      · exact .inl e
      · exact .inr e
    by_cases hx : ∃ x, op.tagged last u.key.gst x ∧ x.message = tagMessage u.tag.ctr u.tag.prnd u.prna u.gst u.st d.data
    · obtain ⟨x, hx, hm⟩ := hx
      exact .inl (tagged_of_message hop hx hpr.prnd f1 f2 hbits htime hm)
    · exact .inr ⟨hk, hpr.verifies, hin, hearly, fun x hx' e => hx ⟨x, hx', e⟩⟩
  · exact absurd hb hbr

/-- **C91** in other words: data that the satellites never tagged is given by a getter only if at least 40 bits of tags for it were forged before their
keys were disclosed, or the acceptance messages show that signatures, Merkle tree or one-way function are broken. -/
theorem C91_forgery_needs_40_bits (hS : S.Consistent) (h0 : (Osnma.new S root0 pk0 slow : Osnma C).Fresh S) (hop : op.Sound)
    (ht : op.Trusted root0 pk0) (h : Logs S (Osnma.new S root0 pk0 slow) hist log o) (kd : NavKind) {svn : Svn} {d : NavMessageData}
    (hd : o.get S kd svn = .ok (some d)) (hnever : ∀ last g ctr prna gst st, ¬ op.tagged last g ⟨ctr, svn.val, prna, gst, st, d.data⟩) :
    (∃ us : List (Nat × TagUse), us.Nodup ∧ 40 ≤ (us.map (fun p => p.2.tag.tag.length)).sum ∧
      ∀ p ∈ us, ∃ last, op.ForgedTag S (Osnma.new S root0 pk0 slow) hist kd svn d.data last p.1 p.2) ∨ op.Broken log := by
  rcases C91_genuine_or_broken hS h0 hop ht h kd hd with ⟨us, h1, h2, h3, h4⟩ | hb
  · refine .inl ⟨us, h1, by omega, fun p hp => ?_⟩
    obtain ⟨_, _, last, _, e | e⟩ := h4 p hp
    · exact absurd e (hnever _ _ _ _ _ _)
    · exact ⟨last, e⟩
  · exact .inr hb

/-- **C91** as long as the cryptography holds, data that the satellites never tagged is never given by a getter. -/
theorem C91_never_forged (hS : S.Consistent) (h0 : (Osnma.new S root0 pk0 slow : Osnma C).Fresh S) (hop : op.Sound)
    (ht : op.Trusted root0 pk0) (h : Logs S (Osnma.new S root0 pk0 slow) hist log o) (hsafe : ¬ op.Broken log) (kd : NavKind) {svn : Svn}
    {bits : List Bool} (hmac : ∀ last i u, ¬ op.ForgedTag S (Osnma.new S root0 pk0 slow) hist kd svn bits last i u)
    (hnever : ∀ last g ctr prna gst st, ¬ op.tagged last g ⟨ctr, svn.val, prna, gst, st, bits⟩) {d : NavMessageData}
    (hd : o.get S kd svn = .ok (some d)) : d.data ≠ bits := by
  rintro rfl
  rcases C91_forgery_needs_40_bits hS h0 hop ht h kd hd hnever with ⟨us, _, h2, h4⟩ | hb
  · cases us with
    | nil => simp at h2
    | cons p l =>
      obtain ⟨last, e⟩ := h4 p List.mem_cons_self
      exact hmac _ _ _ e
  · exact hsafe hb

/-! ## The evidence is not there by itself -/

theorem DerivationsCollide.irrefl {c : Chain} {n : Nat} {g : Gst} {k : List Byte} : ¬ DerivationsCollide C c n g k k := by
  rintro ⟨j, g', prev, a₁, a₂, _, d1, d2, _, hne, _⟩
  have e := d1.det d2
  rw [Prod.mk.injEq] at e
  exact hne (by rw [e.2])

/-- **C91** the evidence is never found in a run in which everything accepted is the operator's (each chain has one last key). -/
theorem C91_honest_not_broken (hop : op.Sound) (hone : ∀ a b, op.seeds a → op.seeds b → a.chain = b.chain → a = b)
    (hkroot : ∀ h data pk kr g, KeyEvent.kroot h data pk kr g ∈ log → op.issued pk.key h data kr)
    (htesla : ∀ k, KeyEvent.tesla k ∈ log → ∃ last, op.KeyOf last k)
    (hleaf : ∀ data leaf, (∃ pk, KeyEvent.pkr data pk ∈ log) ∨ KeyEvent.alert data ∈ log → PkrLeaf data leaf → leaf = op.leaves (bitField data 4 4)) :
    ¬ op.Broken log := by
  rintro (⟨h, data, pk, kr, g, f, n, ha, _, hs, hni⟩ | ⟨data, leaf, ha, hl, hne, _⟩ | ⟨k, last, n, bytes, ha, hseed, hc, ⟨m, hown⟩, hcol⟩ |
    ⟨k, last, m, n, bytes, ha, hseed, hc, hlead, hcol⟩ | ⟨k, last, m, ha, hseed, hc, hpos, hlead⟩)
  · have hi := hkroot _ _ _ _ _ ha
    obtain ⟨_, han, _⟩ := hop.kroot _ _ _ _ hi
    have hn : n = kr.chain.keySizeBytes := by
      have := hs.ks
      rw [han.ks] at this
      simpa using this.symm
    exact hni _ _ _ hi (by rw [hn])
  · exact hne (hleaf data leaf ha hl)
  · obtain ⟨last', hs', hc', m', hd'⟩ := htesla k ha
    obtain rfl := hone _ _ hseed hs' (hc.symm.trans hc')
    have t1 := hown.time
    have t2 := hd'.time
    dsimp only at t1 t2
    obtain rfl : m = m' := by omega
    have e := hown.det hd'
    rw [Prod.mk.injEq] at e
    rw [e.2] at hcol
    exact DerivationsCollide.irrefl hcol
  · obtain ⟨last', hs', hc', m', hd'⟩ := htesla k ha
    obtain rfl := hone _ _ hseed hs' (hc.symm.trans hc')
    have t1 := hlead.time
    have t2 := hd'.time
    dsimp only at t1 t2
    obtain rfl : m = 0 := by omega
    obtain rfl : m' = 0 := by omega
    have e := hd'.det (.zero _)
    rw [e] at hlead
    have e2 := hlead.det (.zero _)
    rw [Prod.mk.injEq] at e2
    rw [e2.2] at hcol
    exact DerivationsCollide.irrefl hcol
  · obtain ⟨last', hs', hc', m', hd'⟩ := htesla k ha
    obtain rfl := hone _ _ hseed hs' (hc.symm.trans hc')
    have t1 := hlead.time
    have t2 := hd'.time
    dsimp only at t1 t2
    omega

end Verif
