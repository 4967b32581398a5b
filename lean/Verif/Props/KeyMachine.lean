import Verif.Lemmas.KeyMachine
import Verif.Tests.ScenariosKeys

/-! # C62: the acceptance decisions are those of the reference machine

`Spec/KeyMachine.lean` says which messages a receiver must emit, from the pages received and the trust anchors alone. -/

namespace Verif
open CollectSubframe CollectDsm

variable {S S' : Storage} {C : Crypto} {root0 : Option MerkleTreeNode} {pk0 : Option (PublicKey C)} {slow slow' : Bool}
  {hist hist' : List Call} {log log' : List (KeyEvent C)} {o o' : Osnma C}

/-- **C05, exact.**  After the pages `ps`, the page `p` makes the collector return messages `r` exactly if it completes them: it has
the last word of its subframe and the words 0 to 13 of its satellite were found in order since the subframe last changed (and word
14 not yet); `r` is then determined. -/
theorem C05_completed_iff {ps : List Page} {s s' : CollectSubframe} {outs : List SubframeOut} {out : SubframeOut} {p : Page}
    (hrun : feedPages .new ps = .ok (s, outs)) (hfeed : s.feed p.data p.svn p.gst = .ok (s', out)) (r : Received) :
    out = some (r.hkroot, r.mack, r.gst) ∧ r.svn = p.svn ↔ CompletesSubframe ps p r := (feed_completes hrun hfeed r).symm

/-- **C07, exact.**  After the blocks `ds`, the block `p` makes the collector return a DSM with bytes `data` exactly if it completes
them. -/
theorem C07_completed_iff {ds : List DsmCall} {c c' : CollectDsm} {douts : List (Option Dsm)} {out : Option Dsm} {p : DsmCall}
    (hrun : feedBlocks .new ds = .ok (c, douts)) (hfeed : c.feed p.header p.block = .ok (c', out)) (data : List Byte) :
    (∃ x, out = some x ∧ x.data = data) ↔ CompletesDsmWith ds p data := by
  obtain ⟨h1, h2⟩ := feed_dsm hrun hfeed
  constructor
  · rintro ⟨x, hx, rfl⟩; exact (h1 x hx).2
  · intro h
    cases out with
    | none => exact absurd h (h2 rfl data)
    | some x => exact ⟨x, rfl, (h1 x rfl).2.unique h⟩

/-- **C30, exact.**  The TESLA keys held are a function of the messages: see `teslaHeld`. -/
theorem C30_keys_exact (h : Logs S (Osnma.new S root0 pk0 slow) hist log o) :
    (o.data.data.key.key0, o.data.data.key.key1) = teslaHeld log := teslaHeld_run h

/-- **C62.**  In every run that does not panic, the acceptance messages are those that the reference machine emits for the subframes
completed by the pages of the run. -/
theorem C62_reference_machine (h : Logs S (Osnma.new S root0 pk0 slow) hist log o) :
    ∃ rs, ReceivedIn (pagesOf hist) rs ∧ KeyMachine root0 pk0 rs log := by
  obtain ⟨rs, _, _, _, h2, _, h4⟩ := keyMachine_run h
  exact ⟨rs, h2, h4⟩

/-! ## The machine is deterministic -/

theorem keysHeld_ordered (pk0 : Option (PublicKey C)) (log : List (KeyEvent C)) (n : PublicKey C)
    (h : (keysHeld pk0 log).2 = some n) : ∃ c, (keysHeld pk0 log).1 = some c ∧ c.pkid < n.pkid := by
  have key : ∀ (l : List (KeyEvent C)) (held : Option (PublicKey C) × Option (PublicKey C)),
      (∀ n, held.2 = some n → ∃ c, held.1 = some c ∧ c.pkid < n.pkid) →
      ∀ n, (l.foldl keysAfter held).2 = some n → ∃ c, (l.foldl keysAfter held).1 = some c ∧ c.pkid < n.pkid := by
    intro l
    induction l with
    | nil => intro held h; exact h
    | cons e l ih =>
      intro held hh
      refine ih _ ?_
      rcases held with ⟨a, b⟩
      cases e with
      | tesla k => exact hh
      | alert d => intro n hn; cases hn
      | kroot hd d pk key g =>
        intro n hn
        unfold keysAfter at hn ⊢
        dsimp only at hn ⊢
        split at hn
        · cases hn
        · rename_i hal
          rw [if_neg hal]
          cases a with
          | none => cases hn
          | some c =>
            dsimp only at hn ⊢
            split at hn
            · rename_i hid
              rw [if_pos hid]; exact hh n hn
            · cases hn
      | pkr d k =>
        intro n hn
        unfold keysAfter at hn ⊢
        cases a with
        | none =>
          obtain ⟨c, hc, _⟩ := hh n hn
          cases hc
        | some c =>
          cases b with
          | none =>
            dsimp only at hn ⊢
            split at hn
            · rename_i hlt
              rw [if_pos hlt]; cases hn; exact ⟨c, rfl, hlt⟩
            · cases hn
          | some b =>
            dsimp only at hn ⊢
            split at hn
            · rename_i hlt
              rw [if_pos hlt]; cases hn; exact ⟨c, rfl, hlt.1⟩
            · rename_i hlt
              rw [if_neg hlt]; exact hh n hn
  exact key log (pk0, none) (fun n hn => by cases hn) n h

theorem keysHeld_unique {a b : PublicKey C} (ha : (keysHeld pk0 log).1 = some a ∨ (keysHeld pk0 log).2 = some a)
    (hb : (keysHeld pk0 log).1 = some b ∨ (keysHeld pk0 log).2 = some b) (h : a.pkid = b.pkid) : a = b := by
  rcases ha with ha | ha <;> rcases hb with hb | hb
  · rw [ha] at hb; cases hb; rfl
  · obtain ⟨c, hc, hlt⟩ := keysHeld_ordered pk0 log b hb
    rw [ha] at hc; cases hc; omega
  · obtain ⟨c, hc, hlt⟩ := keysHeld_ordered pk0 log a ha
    rw [hb] at hc; cases hc; omega
  · rw [ha] at hb; cases hb; rfl

theorem ofChain_iff {k : Option Key} {c : Nat} : ofChain c k = true ↔ ∃ x, k = some x ∧ x.chain.id = c := by
  unfold ofChain
  cases k <;> simp

theorem addKroot_distinct {h : NmaHeader} {key : Key} {held : Option Key × Option Key}
    (hh : ∀ a b, held.1 = some a → held.2 = some b → a.chain.id ≠ b.chain.id) (a b : Key)
    (ha : (addKroot h key held).1 = some a) (hb : (addKroot h key held).2 = some b) : a.chain.id ≠ b.chain.id := by
  unfold addKroot at ha hb
  split at ha
  · rename_i hc
    rw [if_pos hc] at hb; exact hh a b ha hb
  · rename_i hc
    rw [if_neg hc] at hb
    have n1 : ∀ x, held.1 = some x → x.chain.id ≠ key.chain.id := fun x hx he => hc (.inl (ofChain_iff.2 ⟨x, hx, he⟩))
    have n2 : ∀ x, held.2 = some x → x.chain.id ≠ key.chain.id := fun x hx he => hc (.inr (ofChain_iff.2 ⟨x, hx, he⟩))
    split at ha
    · rename_i h1
      rw [if_pos h1] at hb
      cases ha
      exact fun e => n2 b hb e.symm
    · rename_i h1
      rw [if_neg h1] at hb
      split at ha
      · rename_i h2
        rw [if_pos h2] at hb
        cases hb
        exact n1 a ha
      · rename_i h2
        rw [if_neg h2] at hb
        split at ha
        · rename_i h3
          rw [if_pos h3] at hb
          cases hb
          exact n1 a ha
        · rename_i h3
          rw [if_neg h3] at hb
          cases ha
          exact fun e => n2 b hb e.symm

theorem dropChain_some {c : Nat} {k : Option Key} {x : Key} (h : dropChain c k = some x) : k = some x := by
  unfold dropChain at h
  split at h
  · cases h
  · exact h

theorem teslaHeld_distinct (log : List (KeyEvent C)) (a b : Key) (ha : (teslaHeld log).1 = some a)
    (hb : (teslaHeld log).2 = some b) : a.chain.id ≠ b.chain.id := by
  have key : ∀ (l : List (KeyEvent C)) (held : Option Key × Option Key),
      (∀ a b, held.1 = some a → held.2 = some b → a.chain.id ≠ b.chain.id) →
      ∀ a b, (l.foldl teslaAfter held).1 = some a → (l.foldl teslaAfter held).2 = some b → a.chain.id ≠ b.chain.id := by
    intro l
    induction l with
    | nil => intro held h; exact h
    | cons e l ih =>
      intro held hh
      refine ih _ ?_
      cases e with
      | pkr d k => exact hh
      | alert d => intro a b ha; cases ha
      | kroot hd d pk key g =>
        intro a b ha hb
        unfold teslaAfter at ha hb
        dsimp only at ha hb
        split at ha
        · cases ha
        · rename_i hal
          rw [if_neg hal] at hb
          split at ha
          · rename_i hr
            rw [if_pos hr] at hb
            exact addKroot_distinct hh a b (dropChain_some ha) (dropChain_some hb)
          · rename_i hr
            rw [if_neg hr] at hb
            exact addKroot_distinct hh a b ha hb
      | tesla k =>
        rcases held with ⟨s0, s1⟩
        intro a b ha hb
        unfold teslaAfter at ha hb
        dsimp only at ha hb hh
        split at ha
        · rename_i h0
          obtain ⟨x, rfl, hx⟩ := ofChain_iff.1 h0
          cases ha
          split at hb
          · rename_i h1
            obtain ⟨y, rfl, hy⟩ := ofChain_iff.1 h1
            exact absurd (hx.trans hy.symm) (hh x y rfl rfl)
          · rename_i h1
            exact fun e => h1 (ofChain_iff.2 ⟨b, hb, e.symm⟩)
        · rename_i h0
          split at hb
          · cases hb
            exact fun e => h0 (ofChain_iff.2 ⟨a, ha, e⟩)
          · exact hh a b ha hb
  exact key log (none, none) (fun a b ha => by cases ha) a b ha hb

theorem InForce.unique {a b : Key} (ha : InForce log a) (hb : InForce log b) : a = b := by
  obtain ⟨h1, hd, h2, h3⟩ := ha
  obtain ⟨k1, hd', k2, k3⟩ := hb
  rw [h2] at k2
  cases k2
  have hid : a.chain.id = b.chain.id := h3.symm.trans k3
  rcases h1 with h1 | h1 <;> rcases k1 with k1 | k1
  · rw [h1] at k1; cases k1; rfl
  · exact absurd hid (teslaHeld_distinct log a b h1 k1)
  · exact absurd hid.symm (teslaHeld_distinct log b a k1 h1)
  · rw [h1] at k1; cases k1; rfl

theorem TeslaMessage.unique {r : Received} {a b : Key} (ha : TeslaMessage log r a) (hb : TeslaMessage log r b) : a = b := by
  obtain ⟨ca, _, fa, ea, _⟩ := ha.derives
  obtain ⟨cb, _, fb, eb, _⟩ := hb.derives
  have hc : a.chain = b.chain := by rw [ea, eb, fa.unique fb]
  exact ha.pad.eq hb.pad hc (ha.gst.trans hb.gst.symm) (by rw [ha.bytes, hb.bytes, hc])

theorem MerkleProvedKey.unique {root data : List Byte} {a b : PublicKey C} (ha : MerkleProvedKey C root data a)
    (hb : MerkleProvedKey C root data b) : a = b := by
  rcases a with ⟨ka, ia⟩
  rcases b with ⟨kb, ib⟩
  have hi : ia = ib := ha.pkid.trans hb.pkid.symm
  have hk : ka = kb := by
    rcases ha.key with ⟨h1, _, _, k, h2, h3⟩ | ⟨h1, _, _, _, k, h2, h3⟩ <;>
      rcases hb.key with ⟨g1, _, _, k', g2, g3⟩ | ⟨g1, _, _, _, k', g2, g3⟩
    · rw [h2] at g2; cases g2; exact h3.trans g3.symm
    · omega
    · omega
    · rw [h2] at g2; cases g2; exact h3.trans g3.symm
  rw [hi, hk]

theorem DsmMessage.unique {r : Received} {data : List Byte} {a b : KeyEvent C} (ha : DsmMessage root0 pk0 log r data a)
    (hb : DsmMessage root0 pk0 log r data b) : a = b := by
  cases ha with
  | kroot pk key hid hpk hname hsig hkey hpad =>
    cases hb with
    | kroot pk' key' hid' hpk' hname' hsig' hkey' hpad' =>
      obtain rfl := keysHeld_unique hpk hpk' (hname.trans hname'.symm)
      obtain ⟨e1, e2, e3⟩ := hkey.unique hkey' (fun _ _ _ _ => rfl) rfl
      obtain rfl := hpad.eq hpad' e2 e3 e1
      rfl
    | pkr _ _ hid' => omega
    | alert _ _ hid' => omega
  | pkr root pk hid hroot hna hpk =>
    cases hb with
    | kroot _ _ hid' => omega
    | pkr root' pk' _ hroot' _ hpk' =>
      rw [hroot] at hroot'; cases hroot'
      rw [hpk.unique hpk']
    | alert _ _ _ _ _ hty =>
      rcases hpk.key with h | h <;> omega
  | alert root leaf hid hroot hna hty hleaf hp =>
    cases hb with
    | kroot _ _ hid' => omega
    | pkr root' pk' _ hroot' _ hpk' => rcases hpk'.key with h | h <;> omega
    | alert => rfl

theorem Exactly.unique {P : KeyEvent C → Prop} (hP : ∀ a b, P a → P b → a = b) {l l' : List (KeyEvent C)} (h : Exactly P l)
    (h' : Exactly P l') : l = l' := by
  rcases h with ⟨e, h1, rfl⟩ | ⟨rfl, h1⟩ <;> rcases h' with ⟨e', h2, rfl⟩ | ⟨rfl, h2⟩
  · rw [hP e e' h1 h2]
  · exact absurd h1 (h2 e)
  · exact absurd h2 (h1 e')
  · rfl

/-- **C62.**  The machine is deterministic: the subframes and the trust anchors determine the messages. -/
theorem C62_machine_deterministic {rs : List Received} {log log' : List (KeyEvent C)} (h : KeyMachine root0 pk0 rs log)
    (h' : KeyMachine root0 pk0 rs log') : log = log' := by
  induction h generalizing log' with
  | nil =>
    generalize hrs : ([] : List Received) = rs at h'
    cases h' with
    | nil => rfl
    | step r _ _ _ => simp at hrs
  | @step rs lo l₁ l₂ r h h₁ h₂ ih =>
    generalize hrs : rs ++ [r] = rs' at h'
    cases h' with
    | nil => simp at hrs
    | @step rs2 lo2 m₁ m₂ r2 k k₁ k₂ =>
      obtain ⟨rfl, rfl⟩ := append_singleton_cancel hrs
      obtain rfl := ih k
      obtain rfl := h₁.unique (fun a b ⟨da, ha, ha'⟩ ⟨db, hb, hb'⟩ => by
        rw [ha.unique hb] at ha'; exact ha'.unique hb') k₁
      obtain rfl := h₂.unique (fun a b ⟨ka, ea, ha⟩ ⟨kb, eb, hb⟩ => by rw [ea, eb, ha.unique hb]) k₂
      rfl

/-- **C62.**  The pages determine the completed subframes. -/
theorem C62_received_unique {ps : List Page} {a b : List Received} (ha : ReceivedIn ps a) (hb : ReceivedIn ps b) : a = b :=
  ha.unique hb

/-- **C62.**  What is accepted does not depend on the size of the storage, on the Slow MAC setting or on the navigation words: two
receivers with the same trust anchors that are fed the same OSNMA pages emit the same acceptance messages and hold the same keys. -/
theorem C62_settings_irrelevant (h : Logs S (Osnma.new S root0 pk0 slow) hist log o)
    (h' : Logs S' (Osnma.new S' root0 pk0 slow') hist' log' o') (hp : pagesOf hist = pagesOf hist') :
    log = log' ∧ o.data.data.key.key0 = o'.data.data.key.key0 ∧ o.data.data.key.key1 = o'.data.data.key.key1 ∧
      o.data.data.pubkey.current = o'.data.data.pubkey.current ∧ o.data.data.pubkey.next = o'.data.data.pubkey.next := by
  obtain ⟨rs, h1, h2⟩ := C62_reference_machine h
  obtain ⟨rs', k1, k2⟩ := C62_reference_machine h'
  rw [hp] at h1
  obtain rfl := h1.unique k1
  obtain rfl := C62_machine_deterministic h2 k2
  have e1 := (C30_keys_exact h).trans (C30_keys_exact h').symm
  have e2 := (C29_keys_exact h).trans (C29_keys_exact h').symm
  simp only [Prod.mk.injEq] at e1 e2
  exact ⟨rfl, e1.1, e1.2, e2.1, e2.2⟩

/-- A run in which public key 2 arrives, then a KROOT with it, and the reference machine emits both messages. -/
example : ∃ (rs : List Received) (log : List (KeyEvent Sim.toy)) (hist : List Call) (o : Osnma Sim.toy),
    Logs Sim.S Sim.withRoot hist log o ∧ ReceivedIn (pagesOf hist) rs ∧ KeyMachine (some Sim.root) none rs log ∧
      log.map Sim.code = [[1, 2], [0, 82, 2, 1, 36600]] := by
  obtain ⟨log, o, h, hc, _⟩ := Sim.outcome_some Sim.pkrThenKroot
  obtain ⟨rs, h1, h2⟩ := C62_reference_machine (S := Sim.S) (root0 := some Sim.root) (pk0 := none) (slow := false) h
  exact ⟨rs, log, _, o, h, h1, h2, hc⟩

/-- Two receivers with different Slow MAC settings, the same pages and the same messages. -/
example : ∃ (log : List (KeyEvent Sim.toy)) (hist : List Call) (o o' : Osnma Sim.toy),
    Logs Sim.S Sim.withKey hist log o ∧ Logs Sim.S Sim.slowOnly hist log o' ∧ log ≠ [] := by
  obtain ⟨log, o, h, hc, _⟩ := Sim.outcome_some Sim.nominal13
  obtain ⟨log', o', h', _, _⟩ := Sim.outcome_some Sim.slow13
  obtain ⟨rfl, _⟩ := C62_settings_irrelevant (S := Sim.S) (S' := Sim.S) (root0 := none) (pk0 := some (Sim.pub 1)) (slow := false)
    (slow' := true) h h' rfl
  exact ⟨log, _, o, o', h, h', fun e => by rw [e] at hc; cases hc⟩

end Verif
