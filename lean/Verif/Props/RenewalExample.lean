import Verif.Props.Renewal
import Verif.Props.SwitchExample
import Verif.Props.Recovery

/-! # Concrete runs that meet the hypotheses of C90, evaluated by the kernel -/

namespace Verif.Sim
open Verif

/-- Number of the block sent in a subframe of the broadcast of the key. -/
def pkrBlock (g : Gst) : Nat := (g.tow - 35610) / 30 % 13

/-- What the satellites send before 36000: the blocks of the DSM-PKR of key 2, one after the other. -/
def airPkr : KeyBroadcast toy where
  pk := pub 2
  dsmId := 13
  pkr := pkr2
  hkroot := fun _ g => fix 15 (hdr1 :: BitVec.ofNat 8 (208 + pkrBlock g) :: byteField pkr2 (13 * pkrBlock g) 13)

theorem airPkr_size : airPkr.pkr.length = 169 ∧ bitField airPkr.pkr 0 4 = 7 := by decide +kernel

theorem airPkr_carries (v : Svn) (g : Gst) : airPkr.Carries v g (pkrBlock g) := by
  have h : ∀ i, i < 13 → (fix 15 (hdr1 :: BitVec.ofNat 8 (208 + i) :: byteField pkr2 (13 * i) 13)).val.drop 1 =
      BitVec.ofNat 8 (16 * 13 + i) :: byteField pkr2 (13 * i) 13 := by decide +kernel
  exact h _ (Nat.mod_lt _ (by decide))

theorem airPkr_sound : airPkr.Sound root where
  id := by decide
  size := by rw [airPkr_size.1, airPkr_size.2]
  nb := by rw [airPkr_size.2]; decide
  proved := pkr2_proved
  blocks := by
    intro v g
    refine ⟨pkrBlock g, ?_, airPkr_carries v g⟩
    have : pkrBlock g < 13 := Nat.mod_lt _ (by decide)
    rw [airPkr_size.1]
    omega

theorem heardPkr_heard : KeyHeard airPkr heardPkr := by
  have : ∀ p ∈ pagesOf heardPkr, p.hkroot = ((airPkr.hkroot p.svn p.sub).val.drop p.word).take 1 := by decide +kernel
  exact this

theorem heardPkr_whole : WholeKeyHeard airPkr heardPkr := by
  intro i hi
  have hi' : i < 13 := by have := airPkr_size.1; omega
  have h1 : ∀ i, i < 13 → (pagesIn heardPkr (sv 1) (gst (35610 + 30 * i))).map Page.word = List.range 15 := by decide +kernel
  have h2 : ∀ i, i < 13 → pkrBlock (gst (35610 + 30 * i)) = i := by decide +kernel
  refine ⟨sv 1, gst (35610 + 30 * i), ?_, ?_⟩
  · unfold HeardWhole
    rw [h1 i hi']
    exact List.Sublist.refl _
  · have := airPkr_carries (sv 1) (gst (35610 + 30 * i))
    rwa [h2 i hi'] at this

theorem heardPkr_later : ∀ p ∈ pagesOf heardPkr, ∀ q ∈ pagesOf heard2, p.sub.abs < q.sub.abs := heardPkr_follows.later

/-- The hypotheses of C90 are met: a receiver that has the root of the Merkle tree and no public key hears the DSM-PKR, then a broadcast under the
key: it does not panic, and the data of satellite 1 is authenticated. -/
theorem fromRoot_authenticates : ∃ (log : List (KeyEvent toy)) (o : Osnma toy) (d : _), Logs S withRoot (heardPkr ++ heard2) log o ∧
    KeyEvent.pkr pkr2 (pub 2) ∈ log ∧
    o.get S .ced (sv 1) = .ok (some d) ∧ d.data = navData .ced 1 0x35 ∧ 40 ≤ d.authbits := by
  have hpo : (pagesOf heardPkr).Pairwise (fun p q => p.sub.abs ≤ q.sub.abs) :=
    (List.pairwise_append.1 heard2_order).1 |> CallsInOrder.pages
  obtain ⟨log, o, hl⟩ := C90_from_root_never_panics (S := S) (slow := false) S_consistent airPkr_sound heardPkr_heard heardPkr_whole hpo
    (by decide +kernel) onAir2_sound rfl heard2_pages heardPkr_later
  obtain ⟨d, e2, e3, e4⟩ := C90_from_root_authenticates S_consistent airPkr_sound heardPkr_heard heardPkr_whole onAir2_sound rfl heard2_pages
    heardPkr_later hl.run heard2_order
    ⟨[sv 1], by decide, by rw [heard2_inavs]; decide +kernel⟩
    (fun _ => ⟨[sv 1], by decide, fun p hp _ => (by decide +kernel : ∀ p ∈ pagesOf (heardPkr ++ heard2), p.svn ∈ [sv 1]) p hp⟩)
    (by rw [heard2_inavs]; decide +kernel) .ced (sv 1) (navData .ced 1 0x35) 349 (by decide +kernel) (by decide +kernel)
    (by
      intro i h1 h2
      have : ∀ i, i < 372 → 349 ≤ i → NavKind.expected .ced (inavsOf ((heardPkr ++ heard2).take i)) (sv 1) = navData .ced 1 0x35 := by decide +kernel
      exact this i (Nat.lt_succ_of_le (Nat.le_trans h2 (by decide +kernel))) h1)
    [nomTag] (by simp) (by
      intro u hu
      rw [List.mem_singleton] at hu
      subst hu
      exact ⟨heard2_tag, by decide +kernel⟩)
    (by decide +kernel)
  obtain ⟨o₁, h₁⟩ := heardPkr_log
  obtain ⟨lp, op, lq, hp1, hp2, rfl⟩ := hl.split
  obtain ⟨rfl, -⟩ := hp1.unique h₁
  exact ⟨_, o, d, hl, by simp, e2, e3, Nat.le_trans (by decide +kernel) e4⟩

/-! ## Key 1 is held, and a chain under it is in use, when the DSM-PKR of key 2 is heard -/

/-- Before: the DSM-KROOT signed with key 1. -/
def heldOne : List Call := sendDsm hdr1 3 8 35370 kroot11

theorem heldOne_last : ∀ r ∈ receivedOf (pagesOf heldOne), r.dsmCall.header.dsmId = 3 := by decide +kernel

theorem heldOne_follows : KeyFollows airPkr heldOne heardPkr where
  heard := heardPkr_heard
  later := by
    have h1 : ∀ p ∈ pagesOf heldOne, p.sub.abs < 725795610 := by decide +kernel
    have h2 : ∀ p ∈ pagesOf heardPkr, 725795610 ≤ p.sub.abs := by decide +kernel
    intro p hp q hq
    have := h1 p hp
    have := h2 q hq
    omega
  newId := by
    intro rs r hr hl
    obtain rfl := hr.unique (receivedOf_spec _)
    rw [heldOne_last r (List.mem_of_getLast? hl)]
    decide

theorem heldOne_log : ∃ (h : NmaHeader) (data : List Byte) (pk : PublicKey toy) (k : Verif.Key) (g : Gst) (o : Osnma toy),
    Logs S withBoth heldOne [.kroot h data pk k g] o ∧ pk.pkid = 1 ∧ h.cpks ≠ .AlertMessage := by
  obtain ⟨log, o, h, hc⟩ := check_some (o0 := withBoth) (h := heldOne)
    (f := fun l _ => match l with
      | [.kroot hd _ pk _ _] => pk.pkid == 1 && decide (hd.cpks ≠ .AlertMessage)
      | _ => false) (by decide +kernel)
  split at hc
  · rename_i hd data pk k g
    simp only [Bool.and_eq_true, beq_iff_eq, decide_eq_true_eq] at hc
    exact ⟨hd, data, pk, k, g, o, h, hc.1, hc.2⟩
  · cases hc

/-- The hypotheses of C90 are met by a receiver that holds key 1: key 2 is accepted, and held. -/
example : ∃ (log : List (KeyEvent toy)) (o : Osnma toy), Logs S withBoth (heldOne ++ heardPkr) log o ∧ KeyEvent.pkr pkr2 (pub 2) ∈ log ∧
    (o.data.data.pubkey.current = some (pub 2) ∨ o.data.data.pubkey.next = some (pub 2)) := by
  obtain ⟨hd, data, pk, k, g, o₁, h₁, hpk, hst⟩ := heldOne_log
  obtain ⟨log, o, hl, -⟩ := check_some (o0 := withBoth) (h := heldOne ++ heardPkr) (f := fun _ _ => true) (by decide +kernel)
  have hna : ¬ AlertIn [KeyEvent.kroot hd data pk k g] := by
    rintro ⟨e, he, ha⟩
    rw [List.mem_singleton] at he
    subst he
    exact hst ha
  have hpo : (pagesOf heardPkr).Pairwise (fun p q => p.sub.abs ≤ q.sub.abs) :=
    (List.pairwise_append.1 heard2_order).1 |> CallsInOrder.pages
  obtain ⟨ks, ks', e⟩ := C90_key_accepted (pk0 := some (pub 1)) (slow := false) airPkr_sound hna h₁ hl heldOne_follows hpo heardPkr_whole
  refine ⟨log, o, hl, by rw [e]; exact List.mem_append_left _ (List.mem_append_right _ (List.mem_singleton.2 rfl)), ?_⟩
  refine C90_key_held (pk0 := some (pub 1)) (slow := false) airPkr_sound hna h₁ hl heldOne_follows hpo heardPkr_whole ?_
  have e2 : keysHeld (some (pub 1)) [KeyEvent.kroot hd data pk k g] = (some (pub 1), none) := by
    unfold keysHeld
    rw [List.foldl_cons, List.foldl_nil]
    unfold keysAfter
    dsimp only
    rw [if_neg hst, if_pos (show (pub 1).pkid = pk.pkid from hpk.symm)]
  rw [e2]
  refine ⟨fun x hx => ?_, fun x hx => by cases hx⟩
  cases hx
  decide

end Verif.Sim
