import Verif.Lemmas.Authentic

/-! # C31, C32, C33: end to end, data that is returned as authenticated is authentic -/

namespace Verif
open CollectNavMessage

variable {S : Storage} {C : Crypto} {root0 : Option MerkleTreeNode} {pk0 : Option (PublicKey C)} {slow : Bool}
  {hist : List Call} {log : List (KeyEvent C)} {o : Osnma C}

theorem best_authentic (hS : S.Consistent) (h0 : (Osnma.new S root0 pk0 slow : Osnma C).Fresh S)
    (h : Logs S (Osnma.new S root0 pk0 slow) hist log o) {kd : NavKind} {svn : Svn} {g : Gst} {x : NavItem}
    (hb : bestEntry (o.stored S) kd svn = some (g, x)) :
    ∃ us, Authentic root0 pk0 slow hist log kd svn (x.messageBits kd.nbits) x.authbits us := by
  have hrun := h.run
  have hinv := navInv_run hS h0 hrun
  obtain ⟨k, s, k1, _, k3, k4, k5, _⟩ := bestEntry_some hb
  have hm : x ∈ o.data.data.navmessage.arr kd := (Rep.mem hinv.rep).2 (.inl ⟨s, List.mem_of_getElem? k1, k3⟩)
  obtain ⟨us, a1, a2, a3⟩ := evidence_run hS h0 hrun kd x hm log o h
  refine ⟨us, by omega, a1, ?_, a3⟩
  intro u hu
  obtain ⟨v, hv, hp⟩ := a2 u hu
  rw [k4] at hv; cases hv
  exact hp

theorem get_authentic (hS : S.Consistent) (h0 : (Osnma.new S root0 pk0 slow : Osnma C).Fresh S)
    (h : Logs S (Osnma.new S root0 pk0 slow) hist log o) (kd : NavKind) {svn : Svn} {d : NavMessageData}
    (hd : o.get S kd svn = .ok (some d)) : ∃ us, Authentic root0 pk0 slow hist log kd svn d.data d.authbits us := by
  obtain ⟨g, x, hb, e1, e2, _⟩ := get_some (navInv_run hS h0 h.run) hd
  rw [e1, e2]
  exact best_authentic hS h0 h hb

/-- **C31.** Whatever the calls, the crypto functions and the storage sizes, if
`get_ced_and_status(svn)` returns data, then there are received tags, of total length the reported
`authbits` (at least 40), each of which proves the returned bits to be those of `svn`: for the receiver
constructed with a Merkle tree root and optionally a public key. -/
theorem C31_ced_authentic_merkle (hS : S.Consistent) (root : MerkleTreeNode)
    (h : Logs S (Osnma.fromMerkleTree S root pk0 slow) hist log o) {svn : Svn} {d : NavMessageData}
    (hd : o.getCedAndStatus S svn = .ok (some d)) :
    ∃ us, Authentic (some root) pk0 slow hist log .ced svn d.data d.authbits us :=
  get_authentic hS (.inl ⟨root, pk0, slow, rfl⟩) h .ced hd

/-- **C31.** The same for the receiver constructed with a public key only. -/
theorem C31_ced_authentic_pubkey (hS : S.Consistent) (pk : PublicKey C)
    (h : Logs S (Osnma.fromPubkey S pk slow) hist log o) {svn : Svn} {d : NavMessageData}
    (hd : o.getCedAndStatus S svn = .ok (some d)) :
    ∃ us, Authentic none (some pk) slow hist log .ced svn d.data d.authbits us :=
  get_authentic hS (.inr ⟨pk, slow, rfl⟩) h .ced hd

/-- **C31.** What one such tag is, spelled out: it has ADKD 0 and is checked with the TESLA key of the
next subframe, or has ADKD 12 and is checked with the key of eleven subframes later. -/
theorem C31_ced_tag_kind {u : TagUse} {svn : Svn} {bits : List Bool} (h : u.Proves (C := C) root0 pk0 slow hist .ced svn bits) :
    (u.tag.adkd = 0 ∧ u.key.gst.abs = u.gst.abs + 30) ∨ (u.tag.adkd = 12 ∧ u.key.gst.abs = u.gst.abs + 330) := by
  rcases h.rightKey with ⟨_, a, b, _⟩ | ⟨h, _⟩ | ⟨_, a, b⟩
  · exact .inl ⟨a, b⟩
  · cases h
  · exact .inr ⟨a, b⟩

/-- **C32.** The same for the timing parameters. -/
theorem C32_timing_authentic_merkle (hS : S.Consistent) (root : MerkleTreeNode)
    (h : Logs S (Osnma.fromMerkleTree S root pk0 slow) hist log o) {svn : Svn} {d : NavMessageData}
    (hd : o.getTimingParameters S svn = .ok (some d)) :
    ∃ us, Authentic (some root) pk0 slow hist log .timing svn d.data d.authbits us :=
  get_authentic hS (.inl ⟨root, pk0, slow, rfl⟩) h .timing hd

/-- **C32.** The same for the receiver constructed with a public key only. -/
theorem C32_timing_authentic_pubkey (hS : S.Consistent) (pk : PublicKey C)
    (h : Logs S (Osnma.fromPubkey S pk slow) hist log o) {svn : Svn} {d : NavMessageData}
    (hd : o.getTimingParameters S svn = .ok (some d)) :
    ∃ us, Authentic none (some pk) slow hist log .timing svn d.data d.authbits us :=
  get_authentic hS (.inr ⟨pk, slow, rfl⟩) h .timing hd

/-- **C32.** The tags that prove timing parameters have ADKD 4 and are checked with the key of the next
subframe, in a receiver that is not set to Slow MAC only. -/
theorem C32_timing_tag_kind {u : TagUse} {svn : Svn} {bits : List Bool} (h : u.Proves (C := C) root0 pk0 slow hist .timing svn bits) :
    u.tag.adkd = 4 ∧ u.key.gst.abs = u.gst.abs + 30 ∧ slow = false := by
  rcases h.rightKey with ⟨h, _⟩ | ⟨_, a, b, c⟩ | ⟨h, _⟩
  · cases h
  · exact ⟨a, b, c⟩
  · cases h

/-- **C31, C32.** There is always at least one tag. -/
theorem C31_some_tag {kd : NavKind} {svn : Svn} {bits : List Bool} {n : Nat} {us : List TagUse}
    (h : Authentic (C := C) root0 pk0 slow hist log kd svn bits n us) : us ≠ [] := by
  rintro rfl
  have h1 := h.enough
  have h2 := h.total
  simp at h2
  omega

/-- A history after which CED and timing parameters are returned, so that both theorems apply. -/
example : ∃ hist log, ∃ o : Osnma Sim.toy, Logs Sim.S (Osnma.fromPubkey Sim.S (Sim.pub 1) false) hist log o ∧
    (∃ d, o.getCedAndStatus Sim.S (Sim.sv 1) = .ok (some d) ∧ d.authbits = 280) ∧
    ∃ d, o.getTimingParameters Sim.S (Sim.sv 1) = .ok (some d) ∧ d.authbits = 120 := by
  obtain ⟨log, o, h, _, h1, h2⟩ := Sim.outcome_some Sim.nominal13
  obtain ⟨d1, a1, b1, _⟩ := Sim.got_some h1
  obtain ⟨d2, a2, b2, _⟩ := Sim.got_some h2
  exact ⟨_, log, o, h, ⟨d1, a1, b1⟩, d2, a2, b2⟩

/-! ## C33 -/

theorem get_timing_slow (hS : S.Consistent) (h0 : (Osnma.new S root0 pk0 true : Osnma C).Fresh S)
    (h : run S (Osnma.new S root0 pk0 true) hist = .ok o) (svn : Svn) : o.get S .timing svn = .ok none := by
  rw [get_eq (navInv_run hS h0 h)]
  cases hb : bestEntry (o.stored S) .timing svn with
  | none => rfl
  | some p =>
    obtain ⟨log, hl⟩ := Logs.of_run h
    obtain ⟨us, ha⟩ := best_authentic hS h0 hl (g := p.1) (x := p.2) hb
    cases us with
    | nil => exact absurd rfl (C31_some_tag ha)
    | cons u us =>
      have := (C32_timing_tag_kind (ha.prove u (by simp))).2.2
      cases this

/-- **C33.** A receiver constructed with `only_slowmac` never returns timing parameters. -/
theorem C33_no_timing_merkle (hS : S.Consistent) (root : MerkleTreeNode)
    (h : run S (Osnma.fromMerkleTree S root pk0 true) hist = .ok o) (svn : Svn) : o.getTimingParameters S svn = .ok none :=
  get_timing_slow hS (.inl ⟨root, pk0, true, rfl⟩) h svn

/-- **C33.** The same for the receiver constructed with a public key only. -/
theorem C33_no_timing_pubkey (hS : S.Consistent) (pk : PublicKey C)
    (h : run S (Osnma.fromPubkey S pk true) hist = .ok o) (svn : Svn) : o.getTimingParameters S svn = .ok none :=
  get_timing_slow hS (.inr ⟨pk, true, rfl⟩) h svn

/-- **C33.** Every tag that counts towards the CED returned by a receiver constructed with `only_slowmac`
(see C31) has ADKD 12 and is checked with the key of eleven subframes later. -/
theorem C33_only_slow_tags {u : TagUse} {svn : Svn} {bits : List Bool} {kd : NavKind}
    (h : u.Proves (C := C) root0 pk0 true hist kd svn bits) :
    kd = .ced ∧ u.tag.adkd = 12 ∧ u.key.gst.abs = u.gst.abs + 330 := by
  rcases h.rightKey with ⟨_, _, _, h⟩ | ⟨_, _, _, h⟩ | h
  · cases h
  · cases h
  · exact h

/-- A history after which a receiver set to Slow MAC only returns CED. -/
example : ∃ hist log, ∃ o : Osnma Sim.toy, Logs Sim.S (Osnma.fromPubkey Sim.S (Sim.pub 1) true) hist log o ∧
    (∃ d, o.getCedAndStatus Sim.S (Sim.sv 1) = .ok (some d) ∧ d.authbits = 40) ∧
    o.getTimingParameters Sim.S (Sim.sv 1) = .ok none := by
  obtain ⟨log, o, h, _, h1, h2⟩ := Sim.outcome_some Sim.slow13
  obtain ⟨d1, a1, b1, _⟩ := Sim.got_some h1
  exact ⟨_, log, o, h, ⟨d1, a1, b1⟩, C33_no_timing_pubkey Sim.S_consistent _ h.run _⟩

end Verif
