import Verif.Tests.Receive
import Verif.Tests.Scenarios

/-! # C74: a corrupted DSM block

Desired: after a corrupted copy of a block was stored, the DSM is still accepted once its genuine blocks are received again.  This
is false of the code (`C74_counterexample`): as soon as all the announced blocks were seen, nothing more is made of blocks of this
DSM id (`C74_complete_then_ignored`).  What holds is that another DSM id clears everything (`C74_recovery_partial`). -/

namespace Verif
open CollectSubframe CollectDsm

variable {S : Storage} {C : Crypto} {root0 : Option MerkleTreeNode} {pk0 : Option (PublicKey C)} {slow : Bool}
  {before after : List Call} {log₁ log : List (KeyEvent C)} {o₁ o : Osnma C}

/-- **C74.**  Once all the announced blocks of DSM `id` were received (rightly or wrongly), then as long as only blocks of this id
are received no KROOT, public key or alert is accepted: the only new messages are TESLA keys. -/
theorem C74_complete_then_ignored (h₁ : Logs S (Osnma.new S root0 pk0 slow) before log₁ o₁)
    (h : Logs S (Osnma.new S root0 pk0 slow) (before ++ after) log o) {rs₁ rs₂ : List Received}
    (hr₁ : ReceivedIn (pagesOf before) rs₁) (hr : ReceivedIn (pagesOf (before ++ after)) (rs₁ ++ rs₂)) (id : Nat)
    (hc : Complete id (sinceId (rs₁.map Received.dsmCall) id)) (hid : ∀ r ∈ rs₂, r.dsmCall.header.dsmId = id) :
    ∃ ks : List Key, log = log₁ ++ ks.map .tesla := by
  obtain ⟨a, a1, a2⟩ := C62_reference_machine h₁
  obtain ⟨b, b1, b2⟩ := C62_reference_machine h
  obtain rfl := a1.unique hr₁
  obtain rfl := b1.unique hr
  exact machine_stuck a2 b2 hc hid

/-- **C74 (partial).**  After any history whose last received subframe is not of the DSM id `id` (or in which none was received), the
genuine blocks of a correctly signed DSM-KROOT, received in any order, with any repetitions and under the same header, make the
receiver accept it, exactly once, if it holds the public key. -/
theorem C74_recovery_partial (h₁ : Logs S (Osnma.new S root0 pk0 slow) before log₁ o₁)
    (h : Logs S (Osnma.new S root0 pk0 slow) (before ++ after) log o) {rs₁ rs₂ : List Received}
    (hr₁ : ReceivedIn (pagesOf before) rs₁) (hr : ReceivedIn (pagesOf (before ++ after)) (rs₁ ++ rs₂)) (id : Nat) (hid : id < 12)
    (hlast : ∀ r, rs₁.getLast? = some r → r.dsmCall.header.dsmId ≠ id)
    (data : List Byte) (hd : NmaHeader) (pk : PublicKey C) (key : Key) (hpk : o₁.data.data.pubkey.current = some pk ∨ o₁.data.data.pubkey.next = some pk)
    (hname : pk.pkid = bitField data 4 4) (hsig : ∃ f n, SignedKroot C pk.key hd data f n)
    (hsize : data.length = 13 * (bitField data 0 4 + 6)) (hkey : AnnouncedKey data key) (hpad : key.ZeroPadded)
    (hhead : ∀ r ∈ rs₂, r.header = hd ∧ r.dsmCall.header.dsmId = id)
    (hblocks : ∀ r ∈ rs₂, 13 * r.dsmCall.header.dsmBlockId < data.length →
      r.dsmCall.block.val = byteField data (13 * r.dsmCall.header.dsmBlockId) 13)
    (hall : ∀ i, 13 * i < data.length → ∃ r ∈ rs₂, r.dsmCall.header.dsmBlockId = i) :
    ∃ (g : Gst) (ks ks' : List Key), log = log₁ ++ ks.map .tesla ++ [.kroot hd data pk key g] ++ ks'.map .tesla := by
  obtain ⟨a, a1, a2⟩ := C62_reference_machine h₁
  obtain ⟨b, b1, b2⟩ := C62_reference_machine h
  obtain rfl := a1.unique hr₁
  obtain rfl := b1.unique hr
  obtain ⟨f, n, hsig⟩ := hsig
  have hpk' : (keysHeld pk0 log₁).1 = some pk ∨ (keysHeld pk0 log₁).2 = some pk := by
    have := C29_keys_exact h₁
    rw [← this]; exact hpk
  have hb : BlocksOf id data (rs₂.map Received.dsmCall) := by
    intro d hd'
    obtain ⟨r, hr', rfl⟩ := List.mem_map.1 hd'
    exact ⟨(hhead r hr').2, hblocks r hr'⟩
  obtain ⟨hmin, hmax⟩ := hsig.size hsize
  refine (machine_recovers a2 b2 hlast hid hb (fun r hr' => (hhead r hr').1) hpk' hname hsig hsize hkey hpad).2 ?_
  rw [complete_iff hb hid hsize hmin hmax]
  intro i hi
  obtain ⟨r, h1, h2⟩ := hall i hi
  exact ⟨_, List.mem_map_of_mem h1, h2⟩

/-- **C74 (partial).**  The same for a DSM-PKR: after any history without an alert whose last received subframe is not of the DSM id
`id`, the genuine blocks of a DSM-PKR that is proved by the Merkle tree root given at construction make the receiver accept its key, exactly
once. -/
theorem C74_recovery_pkr_partial {root : MerkleTreeNode} (h₁ : Logs S (Osnma.new S (some root) pk0 slow) before log₁ o₁)
    (h : Logs S (Osnma.new S (some root) pk0 slow) (before ++ after) log o) {rs₁ rs₂ : List Received}
    (hr₁ : ReceivedIn (pagesOf before) rs₁) (hr : ReceivedIn (pagesOf (before ++ after)) (rs₁ ++ rs₂)) (id : Nat) (hid : 12 ≤ id)
    (hlast : ∀ r, rs₁.getLast? = some r → r.dsmCall.header.dsmId ≠ id) (hna : ¬ AlertIn log₁)
    (data : List Byte) (pk : PublicKey C) (hsize : data.length = 13 * (bitField data 0 4 + 6)) (hmax : bitField data 0 4 ≤ 10)
    (hpk : MerkleProvedKey C root.val data pk) (hhead : ∀ r ∈ rs₂, r.dsmCall.header.dsmId = id)
    (hblocks : ∀ r ∈ rs₂, 13 * r.dsmCall.header.dsmBlockId < data.length →
      r.dsmCall.block.val = byteField data (13 * r.dsmCall.header.dsmBlockId) 13)
    (hall : ∀ i, 13 * i < data.length → ∃ r ∈ rs₂, r.dsmCall.header.dsmBlockId = i) :
    ∃ ks ks' : List Key, log = log₁ ++ ks.map .tesla ++ [.pkr data pk] ++ ks'.map .tesla := by
  obtain ⟨a, a1, a2⟩ := C62_reference_machine h₁
  obtain ⟨b, b1, b2⟩ := C62_reference_machine h
  obtain rfl := a1.unique hr₁
  obtain rfl := b1.unique hr
  have hb : BlocksOf id data (rs₂.map Received.dsmCall) := by
    intro d hd'
    obtain ⟨r, hr', rfl⟩ := List.mem_map.1 hd'
    exact ⟨hhead r hr', hblocks r hr'⟩
  have hmin : 7 ≤ bitField data 0 4 := by
    have : 163 ≤ data.length := by
      rcases hpk.key with ⟨_, h, _⟩ | ⟨_, h, _⟩ <;> omega
    omega
  refine (machine_recovers_pkr a2 b2 hlast hid hb hna hsize hmax hpk).2 ?_
  rw [complete_iff_gen hb (.pkr hid hsize hmin hmax)]
  intro i hi
  obtain ⟨r, h1, h2⟩ := hall i (by omega)
  exact ⟨_, List.mem_map_of_mem h1, h2⟩

end Verif

namespace Verif.Sim
open Verif CollectSubframe CollectDsm

/-- The DSM-KROOT with one wrong bit, in its block 3 (in the signature). -/
def corrupted : List Byte := kroot11.set 40 (kroot11.getD 40 0 ^^^ 1#8)

/-- The first reception: eight subframes, one bit is wrong. -/
def firstRound : List Call := sendDsm hdr1 3 8 36000 corrupted

theorem firstRound_nothing : outcome withKey firstRound = some ([], none, none) := by decide +kernel

/-- The eight subframes, with the genuine bytes, are accepted by a receiver that did not see the wrong bit. -/
theorem secondRound_alone : outcome withKey (sendDsm hdr1 3 8 36240 kroot11) = some ([[0, 82, 1, 1, 36450]], none, none) := by
  decide +kernel

/-- The received subframes. -/
theorem firstRound_received : (receivedOf (pagesOf firstRound)).length = 8 ∧
    (∀ r ∈ receivedOf (pagesOf firstRound), r.dsmCall.header.dsmId = 3) ∧
    (∀ i, i < 8 → (firstBlock ((receivedOf (pagesOf firstRound)).map Received.dsmCall) i).isSome = true) ∧
    (firstBlock ((receivedOf (pagesOf firstRound)).map Received.dsmCall) 0).map (announcedBlocks 3) = some (some 8) := by
  decide +kernel

theorem firstRound_complete : Complete 3 (sinceId ((receivedOf (pagesOf firstRound)).map Received.dsmCall) 3) := by
  obtain ⟨_, h2, h3, h4⟩ := firstRound_received
  rw [sinceId_all (by
    intro d hd
    obtain ⟨r, hr, rfl⟩ := List.mem_map.1 hd
    exact h2 r hr)]
  rw [Option.map_eq_some_iff] at h4
  obtain ⟨b0, e1, e2⟩ := h4
  exact ⟨8, b0, e1, e2, h3⟩

end Verif.Sim

namespace Verif
open Sim

/-- **C74, counterexample.**  A receiver gets the eight blocks of a DSM-KROOT, one of them with a wrong bit.  Whatever follows, as long as all
the HKROOT messages received are of the same DSM id (for instance, any number of receptions of the genuine DSM-KROOT), it never
accepts a KROOT, and therefore no TESLA key.  A receiver that was switched on eight subframes later accepts it. -/
theorem C74_counterexample (after : List Call) (log : List (KeyEvent toy)) (o : Osnma toy)
    (h : Logs Sim.S withKey (firstRound ++ after) log o)
    (hsame : ∀ rs, ReceivedIn (pagesOf (firstRound ++ after)) rs → ∀ r ∈ rs, r.dsmCall.header.dsmId = 3) :
    log = [] ∧ ∃ log' o', Logs Sim.S withKey (sendDsm hdr1 3 8 36240 kroot11) log' o' ∧ log'.map code = [[0, 82, 1, 1, 36450]] := by
  obtain ⟨log₁, o₁, h₁, hc, _⟩ := outcome_some firstRound_nothing
  obtain ⟨log', o', h', hc', _⟩ := outcome_some secondRound_alone
  refine ⟨?_, log', o', h', hc'⟩
  obtain rfl : log₁ = [] := by simpa using hc
  have hr := receivedOf_spec (pagesOf (firstRound ++ after))
  have hsplit : pagesOf (firstRound ++ after) = pagesOf firstRound ++ pagesOf after := by unfold pagesOf; exact List.filterMap_append
  obtain ⟨rs₁, rs₂, hr₁, he⟩ := ReceivedIn.prefix (hsplit ▸ hr)
  obtain rfl := hr₁.unique (receivedOf_spec _)
  rw [hsplit, he, ← hsplit] at hr
  obtain ⟨ks, rfl⟩ := C74_complete_then_ignored (root0 := none) (pk0 := some (pub 1)) (slow := false) h₁ h (receivedOf_spec _) hr 3
    firstRound_complete (fun r hr' => hsame _ hr r (by simp [hr']))
  rw [List.nil_append]
  -- no TESLA key without a KROOT
  cases ks with
  | nil => rfl
  | cons k ks =>
    have := (keyInv_run (S := Sim.S) (root0 := none) (pk0 := some (pub 1)) (slow := false) h).good
    exfalso
    obtain ⟨_, hj⟩ := this [] (.tesla k) (ks.map .tesla) rfl
    obtain ⟨_, ⟨_, _, _, _, _, _, hm, _⟩, _⟩ := hj
    cases hm

/-- The hypotheses of the counterexample are met by a second reception, with the genuine bytes. -/
example : ∃ o, Logs Sim.S withKey (firstRound ++ sendDsm hdr1 3 8 36240 kroot11) [] o ∧
    ∀ rs, ReceivedIn (pagesOf (firstRound ++ sendDsm hdr1 3 8 36240 kroot11)) rs → ∀ r ∈ rs, r.dsmCall.header.dsmId = 3 := by
  have hrun : outcome withKey (firstRound ++ sendDsm hdr1 3 8 36240 kroot11) = some ([], none, none) := by decide +kernel
  obtain ⟨log, o, h, hc, _⟩ := outcome_some hrun
  obtain rfl : log = [] := by simpa using hc
  refine ⟨o, h, ?_⟩
  intro rs hrs
  rw [hrs.unique (receivedOf_spec _)]
  decide +kernel

/-- The chain and root key of the DSM-KROOT. -/
theorem kroot11_signed : SignedKroot toy (pub 1).key ⟨hdr1⟩ kroot11 .P256Sha256 16 where
  hf := by decide +kernel
  mf := by decide +kernel
  ks := by decide +kernel
  ts := by decide +kernel
  fits := by decide +kernel
  blocks := by decide +kernel
  minimal := by decide +kernel
  padding := by decide +kernel
  sig := ⟨by decide +kernel, by decide +kernel⟩

theorem kroot11_announced : AnnouncedKey kroot11 (Sim.key (Sim.chain 1) 35970) where
  bytes := by decide +kernel
  id := by decide +kernel
  hf := by decide +kernel
  mf := by decide +kernel
  ks := by decide +kernel
  ts := by decide +kernel
  maclt := by decide +kernel
  alpha := by decide +kernel
  time := by decide +kernel

/-- The hypotheses of C74_recovery_partial are met: the corrupted DSM, then the genuine one with another id. -/
example : ∃ (log : List (KeyEvent toy)) (o : Osnma toy) (g : Gst) (ks ks' : List Verif.Key),
    Logs Sim.S withKey (firstRound ++ sendDsm hdr1 4 8 36240 kroot11) log o ∧
    log = ks.map .tesla ++ [.kroot ⟨hdr1⟩ kroot11 (pub 1) (Sim.key (Sim.chain 1) 35970) g] ++ ks'.map .tesla := by
  obtain ⟨log₁, o₁, h₁, hc₁⟩ := check_some (o0 := withKey) (h := firstRound)
    (f := fun l o => l.isEmpty && match o.data.data.pubkey.current with
      | some pk => pk.pkid == 1
      | none => false) (by decide +kernel)
  have hrun : outcome withKey (firstRound ++ sendDsm hdr1 4 8 36240 kroot11) = some ([[0, 82, 1, 1, 36450]], none, none) := by
    decide +kernel
  obtain ⟨log, o, h, hc, _⟩ := outcome_some hrun
  rw [Bool.and_eq_true, List.isEmpty_iff] at hc₁
  obtain ⟨rfl, hpk⟩ := hc₁
  have hsplit : receivedOf (pagesOf (firstRound ++ sendDsm hdr1 4 8 36240 kroot11)) =
      receivedOf (pagesOf firstRound) ++ (receivedOf (pagesOf (firstRound ++ sendDsm hdr1 4 8 36240 kroot11))).drop 8 := by
    have hr := receivedOf_spec (pagesOf (firstRound ++ sendDsm hdr1 4 8 36240 kroot11))
    have hs : pagesOf (firstRound ++ sendDsm hdr1 4 8 36240 kroot11) = pagesOf firstRound ++ pagesOf (sendDsm hdr1 4 8 36240 kroot11) := by
      unfold pagesOf; exact List.filterMap_append
    obtain ⟨rs₁, rs₂, e1, e2⟩ := ReceivedIn.prefix (hs ▸ hr)
    obtain rfl := e1.unique (receivedOf_spec _)
    rw [hs, e2, List.drop_left' firstRound_received.1]
  have hr := receivedOf_spec (pagesOf (firstRound ++ sendDsm hdr1 4 8 36240 kroot11))
  rw [hsplit] at hr
  have hcur : o₁.data.data.pubkey.current = some (pub 1) := by
    have := C29_keys_exact (root0 := none) (pk0 := some (pub 1)) (slow := false) h₁
    exact congrArg Prod.fst this
  obtain ⟨g, ks, ks', e⟩ := C74_recovery_partial (root0 := none) (pk0 := some (pub 1)) (slow := false) h₁ h (receivedOf_spec _) hr 4 (by decide)
    (by
      intro r hr'
      have := (firstRound_received.2.1 r (List.mem_of_getLast? hr'))
      omega)
    kroot11 ⟨hdr1⟩ (pub 1) (Sim.key (Sim.chain 1) 35970) (.inl hcur) (by decide +kernel) ⟨_, _, kroot11_signed⟩ (by decide +kernel)
    kroot11_announced (by unfold Key.ZeroPadded; decide +kernel) (by decide +kernel) (by decide +kernel)
    (by
      intro i hi
      have : ∀ i, i < 8 → ∃ r ∈ (receivedOf (pagesOf (firstRound ++ sendDsm hdr1 4 8 36240 kroot11))).drop 8,
        r.dsmCall.header.dsmBlockId = i := by decide +kernel
      have hl : kroot11.length = 104 := by decide +kernel
      exact this i (by omega))
  exact ⟨log, o, g, ks, ks', h, by simpa using e⟩

/-- One block of a DSM-PKR with id 12 (perhaps wrong). -/
def Sim.strayBlock : List Call := dsmSubframe 1 35970 hdr1 12 0 pkr2

theorem Sim.strayBlock_received : (receivedOf (pagesOf strayBlock)).length = 1 ∧
    ∀ r ∈ receivedOf (pagesOf strayBlock), r.dsmCall.header.dsmId = 12 := by decide +kernel

theorem Sim.pkr2_proved : MerkleProvedKey toy root.val pkr2 (pub 2) where
  pkid := by decide +kernel
  key := .inl ⟨by decide +kernel, by decide +kernel, by unfold MerkleProof; decide +kernel, _, rfl, rfl⟩

/-- The hypotheses of C74_recovery_pkr_partial are met: a block of another DSM-PKR, then the thirteen blocks. -/
example : ∃ (log : List (KeyEvent toy)) (o : Osnma toy) (ks ks' : List Verif.Key),
    Logs Sim.S withRoot (strayBlock ++ sendDsm hdr1 13 13 36000 pkr2) log o ∧
    log = ks.map .tesla ++ [.pkr pkr2 (pub 2)] ++ ks'.map .tesla := by
  obtain ⟨log₁, o₁, h₁, hc₁, _⟩ := outcome_some (o0 := withRoot) (h := strayBlock) (c := []) (x := none) (y := none) (by decide +kernel)
  obtain rfl : log₁ = [] := by simpa using hc₁
  obtain ⟨log, o, h, _⟩ := outcome_some (o0 := withRoot) (h := strayBlock ++ sendDsm hdr1 13 13 36000 pkr2) (c := [[1, 2]]) (x := none) (y := none)
    (by decide +kernel)
  have hs : pagesOf (strayBlock ++ sendDsm hdr1 13 13 36000 pkr2) = pagesOf strayBlock ++ pagesOf (sendDsm hdr1 13 13 36000 pkr2) := by
    unfold pagesOf; exact List.filterMap_append
  have hr := receivedOf_spec (pagesOf (strayBlock ++ sendDsm hdr1 13 13 36000 pkr2))
  have hsplit : receivedOf (pagesOf (strayBlock ++ sendDsm hdr1 13 13 36000 pkr2)) =
      receivedOf (pagesOf strayBlock) ++ (receivedOf (pagesOf (strayBlock ++ sendDsm hdr1 13 13 36000 pkr2))).drop 1 := by
    obtain ⟨rs₁, rs₂, e1, e2⟩ := ReceivedIn.prefix (hs ▸ hr)
    obtain rfl := e1.unique (receivedOf_spec _)
    rw [hs, e2, List.drop_left' strayBlock_received.1]
  rw [hsplit] at hr
  obtain ⟨ks, ks', e⟩ := C74_recovery_pkr_partial (root := root) (pk0 := none) (slow := false) h₁ h (receivedOf_spec _) hr 13 (by decide)
    (by
      intro r hr'
      have := strayBlock_received.2 r (List.mem_of_getLast? hr')
      omega)
    (by rintro ⟨e, he, _⟩; cases he) pkr2 (pub 2) (by decide +kernel) (by decide +kernel) pkr2_proved (by decide +kernel) (by decide +kernel)
    (by
      intro i hi
      have : ∀ i, i < 13 → ∃ r ∈ (receivedOf (pagesOf (strayBlock ++ sendDsm hdr1 13 13 36000 pkr2))).drop 1,
        r.dsmCall.header.dsmBlockId = i := by decide +kernel
      have hl : pkr2.length = 169 := by decide +kernel
      exact this i (by omega))
  exact ⟨log, o, ks, ks', h, by simpa using e⟩

end Verif
