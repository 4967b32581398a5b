import Verif.Lemmas.Chains
import Verif.Tests.ScenariosChain

/-! # C47, C48: change of the chain in force, and recovery from a long gap

Both properties are false of the code as stated; the counterexamples are here, with the parts that hold. -/

namespace Verif
open OsnmaData

variable {C : Crypto} {S : Storage} {root0 : Option MerkleTreeNode} {pk0 : Option (PublicKey C)} {slow : Bool}
  {hist : List Call} {log : List (KeyEvent C)} {o : Osnma C}

/-! ## C47 -/

/-- The key with which the MACKs of eleven subframes before are checked (`osnma.rs:445-454`) depends only
on the stored keys; these are not changed by the processing of tags, so it can be read off the state
after the call that accepted the key `key`. -/
theorem slowmacKey_congr {d d' : OsnmaData C} (h : d.key = d'.key) (key : Key) : d.slowmacKey key = d'.slowmacKey key := by
  unfold slowmacKey; rw [h]

/-- The call that accepts a key checks Slow MAC MACKs with the key computed from the final state. -/
theorem KeyArrives.slowKey_final {o o' : Osnma C} {data : OsnmaDataMessage} {svn : Svn} {gst : Gst}
    (k : KeyArrives S o o' data svn gst) :
    o'.data.data.slowmacKey (mackKey k.msg k.cur.chain k.g) = .ok k.slowKey := by
  rw [← k.hsk]
  refine slowmacKey_congr ?_ _
  rw [k.hnew]

/-- **C47, the part that holds.**  Chain in force changed by the KROOT verified at `g2`, no KROOT verified
since: the key that a newly accepted key `key` makes available to check the Slow MAC MACK (its time is
300 s before) is of a chain other than the new one for times before `g2`, and of the new chain from `g2` on.
Missing: the same after further KROOTs of the new chain; false, see `C47_counterexample`. -/
theorem C47_slow_key_chain_partial (h : Logs S (Osnma.new S root0 pk0 slow) hist log o)
    {l1 l2 l3 : List (KeyEvent C)} {h1 h2 : NmaHeader} {d1 d2 : List Byte} {p1 p2 : PublicKey C} {k1 k2 : Key} {g1 g2 : Gst}
    (hlog : log = l1 ++ .kroot h1 d1 p1 k1 g1 :: (l2 ++ .kroot h2 d2 p2 k2 g2 :: l3))
    (hne : h1.chainId ≠ h2.chainId) (ha : ¬ AlertIn log)
    (hk2 : ∀ e ∈ l2, e.header? = none) (hk3 : ∀ e ∈ l3, e.header? = none)
    {key vk : Key} (hkey : KeyEvent.tesla key ∈ log) (hv : o.data.data.slowmacKey key = .ok (some vk)) :
    vk.gst.abs = key.gst.abs - 300 ∧ (vk.gst.abs < g2.abs → vk.chain.id ≠ h2.chainId) ∧
      (g2.abs ≤ vk.gst.abs → vk.chain.id = h2.chainId) := by
  have hinv := keyInv_run h
  have hf := force_run h
  subst hlog
  rw [force_change hne ha hk2 hk3] at hf
  obtain ⟨b, a, hs⟩ := List.append_of_mem hkey
  have hal := (Gst.aligned_iff key.gst).2 (hinv.good b _ a hs).2.1
  exact slowmacKey_chain hal (fun k hk => (hinv.krooted k hk).1) hf hv

/-- **C47, the part that holds.**  … and such a key is available when a key of the previous chain, for that time or
later, is stored. -/
theorem C47_slow_key_available_partial (h : Logs S (Osnma.new S root0 pk0 slow) hist log o)
    {l1 l2 l3 : List (KeyEvent C)} {h1 h2 : NmaHeader} {d1 d2 : List Byte} {p1 p2 : PublicKey C} {k1 k2 : Key} {g1 g2 : Gst}
    (hlog : log = l1 ++ .kroot h1 d1 p1 k1 g1 :: (l2 ++ .kroot h2 d2 p2 k2 g2 :: l3))
    (hne : h1.chainId ≠ h2.chainId) (ha : ¬ AlertIn log)
    (hk2 : ∀ e ∈ l2, e.header? = none) (hk3 : ∀ e ∈ l3, e.header? = none)
    {key k : Key} (hkey : KeyEvent.tesla key ∈ log) (hg : 300 ≤ key.gst.abs)
    (hcur : ∃ c, o.data.data.key.currentKey = some c)
    (hold : o.data.data.key.key0 = some k ∨ o.data.data.key.key1 = some k) (hid : k.chain.id = h1.chainId)
    (hlt : key.gst.abs - 300 < g2.abs) (hge : key.gst.abs - 300 ≤ k.gst.abs) :
    ∃ vk n, o.data.data.slowmacKey key = .ok (some vk) ∧ vk.chain = k.chain ∧ vk.gst.abs = key.gst.abs - 300 ∧
      Derives C k.chain n (k.gst, k.bytes) (vk.gst, vk.bytes) := by
  have hinv := keyInv_run h
  have hf := force_run h
  subst hlog
  rw [force_change hne ha hk2 hk3] at hf
  obtain ⟨b, a, hs⟩ := List.append_of_mem hkey
  have hal := (Gst.aligned_iff key.gst).2 (hinv.good b _ a hs).2.1
  obtain ⟨c, hc⟩ := hcur
  obtain ⟨hh, cif, e1, e2⟩ := KeyStore.currentKey_some hc
  rw [hf] at e1; cases e1
  exact slowmacKey_past hal hg ⟨c, hh, e2⟩ (fun k hk => (hinv.krooted k hk).1) hf hlt hold (by rw [hid]; exact hne) hge

/-- A history that meets the hypotheses (the KROOT of chain 2 at 36000 changes the chain, key accepted at 36270),
with the effect: the data is authenticated by Slow MAC. -/
example : ∃ log o, Logs Sim.S Sim.slowOnly (Sim.changeChain false) log o ∧
    (∃ l1 l2 l3 h1 d1 p1 k1 g1 h2 d2 p2 k2 g2, log = l1 ++ .kroot h1 d1 p1 k1 g1 :: (l2 ++ .kroot h2 d2 p2 k2 g2 :: l3) ∧
      h1.chainId ≠ h2.chainId ∧ (∀ e ∈ l2, e.header? = none) ∧ (∀ e ∈ l3, e.header? = none) ∧ ∃ k, KeyEvent.tesla k ∈ l3) ∧
    ∃ d, o.getCedAndStatus Sim.S (Sim.sv 1) = .ok (some d) := by
  obtain ⟨log, o, h, hc, hg, _⟩ := Sim.outcome_some Sim.changeChain_once
  obtain ⟨e1, t, rfl, q1, ht⟩ := List.map_eq_cons_iff.1 hc
  obtain ⟨e2, t2, rfl, q2, ht2⟩ := List.map_eq_cons_iff.1 ht
  obtain ⟨e3, t3, rfl, q3, ht3⟩ := List.map_eq_cons_iff.1 ht2
  obtain rfl := List.map_eq_nil_iff.1 ht3
  obtain ⟨a1, a2, a3, a4, a5, rfl, ha, _⟩ := Sim.code_kroot q1
  obtain ⟨b1, b2, b3, b4, b5, rfl, hb, _⟩ := Sim.code_kroot q2
  obtain ⟨k, rfl, _⟩ := Sim.code_tesla q3
  obtain ⟨d, hd, _⟩ := Sim.got_some hg
  refine ⟨_, o, h, ⟨[], [], [.tesla k], a1, a2, a3, a4, a5, b1, b2, b3, b4, b5, rfl, ?_, by simp, ?_, k, by simp⟩, d, hd⟩
  · unfold NmaHeader.chainId
    rw [ha, hb]
    decide
  · intro e he
    simp only [List.mem_singleton] at he
    subst he; rfl

/-- **C47 fails**: two histories of the same receiver that differ only in a second reception of the same
DSM-KROOT of the new chain.  The same Slow MAC tag (of a MACK before the change), the same
navigation data and the same key are received in both; the data is authenticated in the first and not
in the second. -/
theorem C47_counterexample :
    ∃ (before resent after : List Call) (log log' : List (KeyEvent Sim.toy)) (o o' : Osnma Sim.toy),
      Logs Sim.S Sim.slowOnly (before ++ after) log o ∧ Logs Sim.S Sim.slowOnly (before ++ resent ++ after) log' o' ∧
      (log.map Sim.code = [[0, 82, 1, 1, 35760], [0, 98, 1, 2, 36000], [3, 2, 36270]]) ∧
      (log'.map Sim.code = [[0, 82, 1, 1, 35760], [0, 98, 1, 2, 36000], [0, 98, 1, 2, 36240], [3, 2, 36270]]) ∧
      (∃ d, o.getCedAndStatus Sim.S (Sim.sv 1) = .ok (some d) ∧ d.authbits = 40) ∧
      ¬ ∃ d, o'.getCedAndStatus Sim.S (Sim.sv 1) = .ok (some d) := by
  obtain ⟨log, o, h, hc, hg, _⟩ := Sim.outcome_some Sim.changeChain_once
  obtain ⟨log', o', h', hc', hg', _⟩ := Sim.outcome_some Sim.changeChain_twice
  obtain ⟨d, hd, hd1, _⟩ := Sim.got_some hg
  unfold Sim.changeChain at h h'
  rw [if_neg (by decide), List.append_nil] at h
  rw [if_pos rfl] at h'
  refine ⟨_, _, _, log, log', o, o', h, h', hc, hc', ⟨d, hd, hd1⟩, ?_⟩
  rintro ⟨d', hd'⟩
  have : Sim.got Sim.S o' .ced 1 = some (d'.authbits, d'.gst.tow) := by
    unfold Sim.got
    rw [show o'.get Sim.S .ced (Sim.sv 1) = .ok (some d') from hd']
  rw [hg'] at this
  cases this

/-! ## C48 -/

/-- **C48, what the code does instead (for every history).**  Let `cur` be an accepted TESLA key, followed by messages that
do not change the chain in force, revoke it, or report an alert, but may report any number of fresh KROOTs of
that chain.  The next TESLA key accepted is then derived from `cur` itself, in at most 3000 steps: a fresh
KROOT is never used, so a key more than 3000 subframes after `cur` is never accepted. -/
theorem C48_fresh_kroot_unused (h : Logs S (Osnma.new S root0 pk0 slow) hist log o)
    {l1 l2 l3 : List (KeyEvent C)} {cur k : Key} (hlog : log = l1 ++ .tesla cur :: (l2 ++ .tesla k :: l3))
    (hl2 : ∀ e ∈ l2, e.Confirms cur.chain.id) :
    k.chain = cur.chain ∧ k.gst.abs ≤ cur.gst.abs + 30 * 3000 ∧
      ∃ n : Nat, Derives C cur.chain n (k.gst, k.bytes) (cur.gst, cur.bytes) := by
  obtain ⟨_, ha⟩ := anchored_run h
  obtain ⟨h1, n, h2, h3, h4, h5⟩ := ha (l1 ++ .tesla cur :: l2) k l3 cur (by rw [hlog]; simp) ⟨l1, l2, rfl, hl2⟩
  exact ⟨h1, by omega, n, h5⟩

/-- **C48, the part that holds**: a gap of at most 3000 subframes.  In a reachable state whose last accepted key is
`cur`, the subframe received next that carries a key which derives to `cur` makes that key accepted. -/
theorem C48_recovers_partial (h : Logs S (Osnma.new S root0 pk0 slow) hist log o)
    {l1 l2 : List (KeyEvent C)} {cur : Key} (hlog : log = l1 ++ .tesla cur :: l2)
    (hl2 : ∀ e ∈ l2, e.Confirms cur.chain.id) (m : MackMessage) (g : Gst) (hg : g.Aligned) (n : Nat) (hn : 1 ≤ n ∧ n ≤ 3000)
    (ht : g.abs = cur.gst.abs + 30 * n)
    (hd : Derives C cur.chain n (g, packBytes (mackKeyField m cur.chain)) (cur.gst, cur.bytes)) :
    ∃ k, o.data.data.teslaEvents m g = [.tesla k] ∧ k.gst = g ∧ k.bytes = packBytes (mackKeyField m cur.chain) := by
  obtain ⟨hc, _⟩ := anchored_run h
  have hcur := hc cur ⟨l1, l2, hlog, hl2⟩
  have hinv := keyInv_run h
  obtain ⟨hhas, _⟩ := KeyStore.currentKey_some hcur
  have hcal := (hinv.krooted cur hhas).1
  refine ⟨mackKey m cur.chain g, ?_, rfl, mackKey_bytes m cur.chain g⟩
  have hlt : cur.gst.abs < g.abs := by
    rw [ht]
    have : (1 : Int) ≤ n := by exact_mod_cast hn.1
    clear hcur hinv hhas hcal hc h hd ht
    omega
  refine OsnmaData.teslaEvents_accept hcur hg hlt ?_
  refine (C23_accepts_iff cur (mackKey m cur.chain g) (mackKey m cur.chain g) hcal hg).2 ?_
  refine ⟨rfl, rfl, n, hn.1, hn.2, ht, ?_⟩
  rw [mackKey_bytes]
  exact hd

/-- **C48 fails**: a receiver that accepted a key at 36210 s of the week verifies a fresh KROOT 30 hours later, but does
not accept the next key; a new receiver does. -/
theorem C48_counterexample :
    ∃ (before after : List Call) (log log' : List (KeyEvent Sim.toy)) (o o' : Osnma Sim.toy),
      Logs Sim.S Sim.withKey after log o ∧ Logs Sim.S Sim.withKey (before ++ after) log' o' ∧
      (∃ hd data pk k0 g k, log = [.kroot hd data pk k0 g, .tesla k] ∧ k.gst.tow = 144000) ∧
      ∃ hd data pk k0 g k hd' data' pk' k0' g', log' = [.kroot hd data pk k0 g, .tesla k, .kroot hd' data' pk' k0' g'] ∧
        k.gst.tow = 36210 ∧ g'.tow = 143940 := by
  obtain ⟨log, o, h, hc, _⟩ := Sim.outcome_some Sim.late_new
  obtain ⟨log', o', h', hc', _⟩ := Sim.outcome_some Sim.late_gap
  obtain ⟨e1, t, rfl, q1, ht⟩ := List.map_eq_cons_iff.1 hc
  obtain ⟨e2, t2, rfl, q2, ht2⟩ := List.map_eq_cons_iff.1 ht
  obtain rfl := List.map_eq_nil_iff.1 ht2
  obtain ⟨a1, a2, a3, a4, a5, rfl, _⟩ := Sim.code_kroot q1
  obtain ⟨k, rfl, _, hk⟩ := Sim.code_tesla q2
  obtain ⟨f1, t, rfl, q1, ht⟩ := List.map_eq_cons_iff.1 hc'
  obtain ⟨f2, t2, rfl, q2, ht2⟩ := List.map_eq_cons_iff.1 ht
  obtain ⟨f3, t3, rfl, q3, ht3⟩ := List.map_eq_cons_iff.1 ht2
  obtain rfl := List.map_eq_nil_iff.1 ht3
  obtain ⟨b1, b2, b3, b4, b5, rfl, _⟩ := Sim.code_kroot q1
  obtain ⟨k', rfl, _, hk'⟩ := Sim.code_tesla q2
  obtain ⟨c1, c2, c3, c4, c5, rfl, _, _, _, hc5⟩ := Sim.code_kroot q3
  exact ⟨_, _, _, _, o, o', h, h', ⟨a1, a2, a3, a4, a5, k, rfl, hk⟩,
    b1, b2, b3, b4, b5, k', c1, c2, c3, c4, c5, rfl, hk', hc5⟩

end Verif
