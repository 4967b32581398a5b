import Verif.Props.CaughtMachine
import Verif.Props.Switch

/-! # Lemmas: a genuine broadcast after caught panics

As `Lemmas/Switch`, after a history in which panics were caught. -/

namespace Verif
open CollectSubframe CollectDsm

variable {S : Storage} {C : Crypto} {b : Broadcast C} {root0 : Option MerkleTreeNode} {pk0 : Option (PublicKey C)} {slow : Bool}
  {hist before after : List Call} {log log₁ : List (KeyEvent C)} {o o₁ : Osnma C} {rs rs₁ rs₂ : List Received}

/-- The machine of `KeyMachine`, from the subframes `rs₁` and the messages `log₁` on. -/
inductive MachineFrom (root0 : Option MerkleTreeNode) (pk0 : Option (PublicKey C)) (rs₁ : List Received) (log₁ : List (KeyEvent C)) :
    List Received → List (KeyEvent C) → Prop
  | nil : MachineFrom root0 pk0 rs₁ log₁ [] log₁
  | step {rs : List Received} {log l₁ l₂ : List (KeyEvent C)} (r : Received) (h : MachineFrom root0 pk0 rs₁ log₁ rs log)
      (h₁ : Exactly (fun e => ∃ data, CompletesDsmWith ((rs₁ ++ rs).map Received.dsmCall) r.dsmCall data ∧ DsmMessage root0 pk0 log r data e) l₁)
      (h₂ : Exactly (fun e => ∃ k, e = .tesla k ∧ TeslaMessage (log ++ l₁) r k) l₂) :
      MachineFrom root0 pk0 rs₁ log₁ (rs ++ [r]) (log ++ l₁ ++ l₂)

theorem MachineFrom.nil_inv (h : MachineFrom root0 pk0 rs₁ log₁ [] log) : log = log₁ := by
  generalize hx : ([] : List Received) = x at h
  cases h with
  | nil => rfl
  | step r => simp at hx

theorem MachineFrom.snoc_inv {r : Received} {log' : List (KeyEvent C)} (h : MachineFrom root0 pk0 rs₁ log₁ (rs ++ [r]) log') :
    ∃ log l₁ l₂, log' = log ++ l₁ ++ l₂ ∧ MachineFrom root0 pk0 rs₁ log₁ rs log ∧
      Exactly (fun e => ∃ data, CompletesDsmWith ((rs₁ ++ rs).map Received.dsmCall) r.dsmCall data ∧ DsmMessage root0 pk0 log r data e) l₁ ∧
      Exactly (fun e => ∃ k, e = .tesla k ∧ TeslaMessage (log ++ l₁) r k) l₂ := by
  generalize hx : rs ++ [r] = x at h
  cases h with
  | nil => simp at hx
  | @step rs lo l₁ l₂ r' h' h₁ h₂ =>
    obtain ⟨rfl, rfl⟩ := append_singleton_cancel hx
    exact ⟨lo, l₁, l₂, rfl, h', h₁, h₂⟩

theorem MachineFrom.prefix {x y : List Received} (h : MachineFrom root0 pk0 rs₁ log₁ (x ++ y) log) :
    ∃ lx ly, MachineFrom root0 pk0 rs₁ log₁ x lx ∧ log = lx ++ ly := by
  induction y using snoc_induction generalizing log with
  | h0 => rw [List.append_nil] at h; exact ⟨log, [], h, by simp⟩
  | h1 l r ih =>
    rw [← List.append_assoc] at h
    obtain ⟨lo, l₁, l₂, rfl, hlo, _, _⟩ := h.snoc_inv
    obtain ⟨lx, ly, e1, rfl⟩ := ih hlo
    exact ⟨lx, ly ++ l₁ ++ l₂, e1, by simp⟩

theorem MachineFrom.stuck {x y : List Received} {lx : List (KeyEvent C)} {id : Nat}
    (h : MachineFrom root0 pk0 rs₁ log₁ (x ++ y) log) (hc : Complete id (sinceId ((rs₁ ++ x).map Received.dsmCall) id))
    (hid : ∀ r ∈ y, r.dsmCall.header.dsmId = id) (hdet : ∀ l, MachineFrom root0 pk0 rs₁ log₁ x l → l = lx) :
    ∃ ks : List Key, log = lx ++ ks.map .tesla := by
  induction y using snoc_induction generalizing log with
  | h0 =>
    rw [List.append_nil] at h
    exact ⟨[], by rw [hdet _ h]; simp⟩
  | h1 l r ih =>
    rw [← List.append_assoc] at h
    obtain ⟨lo, l₁, l₂, rfl, hlo, e₁, e₂⟩ := h.snoc_inv
    obtain ⟨ks, rfl⟩ := ih hlo (fun r hr => hid r (by simp [hr]))
    obtain ⟨ks', rfl⟩ := teslas_of e₂
    have hnil : l₁ = [] := by
      rcases e₁ with ⟨e, ⟨data, hd, _⟩, _⟩ | ⟨rfl, _⟩
      · exfalso
        apply hd.notYet
        rw [hid r (by simp), ← List.append_assoc, List.map_append, sinceId_append_same (by
          intro d hd'
          obtain ⟨q, hq, rfl⟩ := List.mem_map.1 hd'
          exact hid q (by simp [hq]))]
        exact hc.append _
      · rfl
    subst hnil
    exact ⟨ks ++ ks', by simp⟩

theorem MachineFrom.det {log' : List (KeyEvent C)} (h : MachineFrom root0 pk0 rs₁ log₁ rs log) (h' : MachineFrom root0 pk0 rs₁ log₁ rs log') :
    log = log' := by
  induction h generalizing log' with
  | nil => exact h'.nil_inv.symm
  | step r h h₁ h₂ ih =>
    obtain ⟨lo, m₁, m₂, rfl, k, k₁, k₂⟩ := h'.snoc_inv
    obtain rfl := ih k
    obtain rfl := h₁.unique (fun a b ⟨da, ha, ha'⟩ ⟨db, hb, hb'⟩ => by
      rw [ha.unique hb] at ha'; exact ha'.unique hb') k₁
    obtain rfl := h₂.unique (fun a b ⟨ka, ea, ha⟩ ⟨kb, eb, hb⟩ => by rw [ea, eb, ha.unique hb]) k₂
    rfl

/-- When the id has changed, the blocks of a DSM for which `ev` is to be emitted make the machine emit it. -/
theorem machineFrom_recovers {rs₁ rs₂ : List Received} {log₁ log : List (KeyEvent C)} {id n : Nat} {data : List Byte}
    {ev : Received → KeyEvent C} (h : MachineFrom root0 pk0 rs₁ log₁ rs₂ log)
    (hlast : ∀ r, rs₁.getLast? = some r → r.dsmCall.header.dsmId ≠ id) (ha : Announces id data n)
    (hb : BlocksOf id data (rs₂.map Received.dsmCall))
    (hev : ∀ r ∈ rs₂, ∀ ks : List Key, DsmMessage root0 pk0 (log₁ ++ ks.map .tesla) r data (ev r)) :
    (¬ Complete id (rs₂.map Received.dsmCall) → ∃ ks : List Key, log = log₁ ++ ks.map .tesla) ∧
    (Complete id (rs₂.map Received.dsmCall) → ∃ r ∈ rs₂, ∃ ks ks' : List Key,
      log = log₁ ++ ks.map .tesla ++ [ev r] ++ ks'.map .tesla) := by
  induction rs₂ using snoc_induction generalizing log with
  | h0 =>
    refine ⟨fun _ => ⟨[], by rw [h.nil_inv]; simp⟩, fun hc => absurd hc (not_complete_nil id)⟩
  | h1 l r ih =>
    obtain ⟨lo, l₁, l₂, rfl, hlo, e₁, e₂⟩ := h.snoc_inv
    have hb' : BlocksOf id data (l.map Received.dsmCall) := fun d hd => hb d (by simp at hd ⊢; exact .inl hd)
    obtain ⟨i1, i2⟩ := ih hlo hb' (fun r hr => hev r (by simp [hr]))
    obtain ⟨ks', rfl⟩ := teslas_of e₂
    have hid' : ∀ r' ∈ l ++ [r], r'.dsmCall.header.dsmId = id := fun r' hr' => (hb _ (List.mem_map_of_mem hr')).1
    have hsince : sinceId ((rs₁ ++ l).map Received.dsmCall) id = l.map Received.dsmCall := by
      rw [List.map_append, sinceId_append_same (by
        intro d hd'
        obtain ⟨q, hq, rfl⟩ := List.mem_map.1 hd'
        exact hid' q (by simp [hq])), sinceId_other, List.nil_append]
      intro d hd'
      rw [List.getLast?_map, Option.map_eq_some_iff] at hd'
      obtain ⟨q, hq, rfl⟩ := hd'
      exact hlast q hq
    have hcomp := completes_of_gen (ds := (rs₁ ++ l).map Received.dsmCall) (p := r.dsmCall) ha (hid' r (by simp))
      (by rw [hsince]; simpa using hb)
    rw [hsince] at hcomp
    have hmap : (l ++ [r]).map Received.dsmCall = l.map Received.dsmCall ++ [r.dsmCall] := by simp
    rw [hmap]
    by_cases hc0 : Complete id (l.map Received.dsmCall)
    · have hnil : l₁ = [] := by
        rcases e₁ with ⟨e, ⟨x, hx, _⟩, _⟩ | ⟨rfl, _⟩
        · exact absurd hc0 ((hcomp x).1 hx).2.1
        · rfl
      subst hnil
      obtain ⟨q, hq, k1, k2, rfl⟩ := i2 hc0
      refine ⟨fun hn => absurd (hc0.snoc _) hn, fun _ => ⟨q, by simp [hq], k1, k2 ++ ks', by simp⟩⟩
    · obtain ⟨k1, rfl⟩ := i1 hc0
      by_cases hc1 : Complete id (l.map Received.dsmCall ++ [r.dsmCall])
      · have hm := hev r (by simp) k1
        have hone : l₁ = [ev r] := by
          rcases e₁ with ⟨e, ⟨x, hx, hm'⟩, rfl⟩ | ⟨_, hn⟩
          · rw [((hcomp x).1 hx).1] at hm'
            rw [hm'.unique hm]
          · exact absurd ⟨data, (hcomp data).2 ⟨rfl, hc0, hc1⟩, hm⟩ (hn _)
        subst hone
        exact ⟨fun hn => absurd hc1 hn, fun _ => ⟨r, by simp, k1, ks', rfl⟩⟩
      · have hnil : l₁ = [] := by
          rcases e₁ with ⟨e, ⟨x, hx, _⟩, _⟩ | ⟨rfl, _⟩
          · exact absurd ((hcomp x).1 hx).2.2 hc1
          · rfl
        subst hnil
        exact ⟨fun _ => ⟨k1 ++ ks', by simp⟩, fun hn => absurd hn hc1⟩

/-- What goes before the broadcast, for the machine. -/
structure Rejoins (b : Broadcast C) (root0 : Option MerkleTreeNode) (pk0 : Option (PublicKey C)) (rs₁ : List Received)
    (log₁ : List (KeyEvent C)) : Prop where
  sound : b.Sound
  before : CaughtMachine root0 pk0 rs₁ log₁
  held : (keysHeld pk0 log₁).1 = some b.pk ∨ (keysHeld pk0 log₁).2 = some b.pk
  newId : ∀ r, rs₁.getLast? = some r → r.dsmCall.header.dsmId ≠ b.dsmId

theorem Rejoins.complete_iff (hj : Rejoins b root0 pk0 rs₁ log₁) (hs : ∀ r ∈ rs₂, b.Sent r) :
    Complete b.dsmId (rs₂.map Received.dsmCall) ↔ ∀ i, 13 * i < b.kroot.length → ∃ d ∈ rs₂.map Received.dsmCall, d.header.dsmBlockId = i := by
  have hsz := hj.sound.sizes
  exact Verif.complete_iff (blocksOf_sent hj.sound hs) hj.sound.id hj.sound.size hsz.1 hsz.2

theorem Rejoins.since (hj : Rejoins b root0 pk0 rs₁ log₁) (hs : ∀ r ∈ rs₂, b.Sent r) :
    sinceId ((rs₁ ++ rs₂).map Received.dsmCall) b.dsmId = rs₂.map Received.dsmCall := by
  rw [List.map_append, sinceId_append_same (fun d hd => (blocksOf_sent hj.sound hs d hd).1), sinceId_other, List.nil_append]
  intro d hd'
  rw [List.getLast?_map, Option.map_eq_some_iff] at hd'
  obtain ⟨q, hq, rfl⟩ := hd'
  exact hj.newId q hq

/-- The messages for a broadcast that follows. -/
theorem Rejoins.messages (hj : Rejoins b root0 pk0 rs₁ log₁) (hs : ∀ r ∈ rs₂, b.Sent r) (h : MachineFrom root0 pk0 rs₁ log₁ rs₂ log) :
    (¬ Complete b.dsmId (rs₂.map Received.dsmCall) → ∃ ks : List Key, log = log₁ ++ ks.map .tesla) ∧
    (Complete b.dsmId (rs₂.map Received.dsmCall) → ∃ r ∈ rs₂, ∃ ks ks' : List Key,
      log = log₁ ++ ks.map .tesla ++ [.kroot b.header b.kroot b.pk b.root r.gst] ++ ks'.map .tesla) := by
  have hb := hj.sound
  obtain ⟨f, n, hsig⟩ := hb.signed
  have hsz := hb.sizes
  refine machineFrom_recovers (ev := fun r => .kroot b.header b.kroot b.pk b.root r.gst) h hj.newId
    (.kroot hb.id hb.size hsz.1 hsz.2) (blocksOf_sent hb hs) ?_
  intro r hr ks
  have hr' : r.header = b.header := (hs r hr).header hb
  rw [← hr']
  exact .kroot b.pk b.root (by rw [(blocksOf_sent hb hs _ (List.mem_map_of_mem hr)).1]; exact hb.id)
    (by rw [keysHeld_teslas]; exact hj.held) hb.named ⟨f, n, by rw [hr']; exact hsig⟩ hb.announced hb.pad

/-- The message for the DSM in one more subframe. -/
theorem Rejoins.dsm_step (hj : Rejoins b root0 pk0 rs₁ log₁) {r : Received} (hs : ∀ q ∈ rs₂ ++ [r], b.Sent q)
    {lo l₁ : List (KeyEvent C)} (hlo : MachineFrom root0 pk0 rs₁ log₁ rs₂ lo)
    (e₁ : Exactly (fun e => ∃ data, CompletesDsmWith ((rs₁ ++ rs₂).map Received.dsmCall) r.dsmCall data ∧
      DsmMessage root0 pk0 lo r data e) l₁) :
    (l₁ = [] ∧ (Complete b.dsmId ((rs₂ ++ [r]).map Received.dsmCall) → Complete b.dsmId (rs₂.map Received.dsmCall))) ∨
    (l₁ = [.kroot b.header b.kroot b.pk b.root r.gst] ∧ ¬ Complete b.dsmId (rs₂.map Received.dsmCall)) := by
  have hb := hj.sound
  have hs' : ∀ q ∈ rs₂, b.Sent q := fun q hq => hs q (by simp [hq])
  have hbl := blocksOf_sent hb hs
  have hsz := hb.sizes
  have hcomp := completes_of_gen (ds := (rs₁ ++ rs₂).map Received.dsmCall) (p := r.dsmCall) (.kroot hb.id hb.size hsz.1 hsz.2)
    (hbl _ (List.mem_map_of_mem (by simp))).1 (by rw [hj.since hs']; simpa using hbl)
  rw [hj.since hs'] at hcomp
  have hmap : (rs₂ ++ [r]).map Received.dsmCall = rs₂.map Received.dsmCall ++ [r.dsmCall] := by simp
  have hmsg : ¬ Complete b.dsmId (rs₂.map Received.dsmCall) →
      DsmMessage root0 pk0 lo r b.kroot (.kroot b.header b.kroot b.pk b.root r.gst) := by
    intro hn
    obtain ⟨ks, rfl⟩ := (hj.messages hs' hlo).1 hn
    obtain ⟨f, n, hsig⟩ := hb.signed
    have hr' : r.header = b.header := (hs r (by simp)).header hb
    rw [← hr']
    exact .kroot b.pk b.root (by rw [(hbl _ (List.mem_map_of_mem (by simp))).1]; exact hb.id)
      (by rw [keysHeld_teslas]; exact hj.held) hb.named ⟨f, n, by rw [hr']; exact hsig⟩ hb.announced hb.pad
  rw [hmap]
  rcases e₁ with ⟨e, ⟨data, hd, hm⟩, rfl⟩ | ⟨rfl, hn⟩
  · obtain ⟨rfl, h0, _⟩ := (hcomp data).1 hd
    rw [hm.unique (hmsg h0)]
    exact .inr ⟨rfl, h0⟩
  · refine .inl ⟨rfl, fun hc => ?_⟩
    apply Classical.byContradiction
    intro h0
    exact hn _ ⟨b.kroot, (hcomp b.kroot).2 ⟨rfl, h0, hc⟩, hmsg h0⟩

/-- The keys of the chain that are held: those held before, the root key, or those of the broadcast, which were reported. -/
theorem Rejoins.source (hj : Rejoins b root0 pk0 rs₁ log₁) (hs : ∀ r ∈ rs₂, b.Sent r) (hlead : ∀ r ∈ rs₂, Leads b log₁ r.gst)
    (h : MachineFrom root0 pk0 rs₁ log₁ rs₂ log) {k : Key} (hk : Held log k) (hid : k.chain.id = b.root.chain.id) :
    KeySource b log₁ rs₂ log k := by
  have hb := hj.sound
  induction rs₂ using snoc_induction generalizing log k with
  | h0 =>
    rw [h.nil_inv] at hk
    exact .inl hk
  | h1 l r ih =>
    obtain ⟨lo, l₁, l₂, rfl, hlo, e₁, e₂⟩ := h.snoc_inv
    have hs' : ∀ q ∈ l, b.Sent q := fun q hq => hs q (by simp [hq])
    have ih := fun {k : Key} => ih (k := k) hs' (fun q hq => hlead q (by simp [hq])) hlo
    -- after the DSM
    have h1 : ∀ k, Held (lo ++ l₁) k → k.chain.id = b.root.chain.id → KeySource b log₁ l (lo ++ l₁) k := by
      intro k hk hid
      rcases hj.dsm_step hs hlo e₁ with ⟨rfl, _⟩ | ⟨rfl, _⟩
      · rw [List.append_nil] at hk ⊢
        exact ih hk hid
      · rcases held_kroot hb hk with hk | rfl
        · exact (ih hk hid).mono (fun r h => h) (fun e h => by simp [h])
        · exact .inr (.inl rfl)
    -- after the TESLA key
    rcases e₂ with ⟨e, ⟨k', rfl, hm⟩, rfl⟩ | ⟨rfl, _⟩
    · have old : Held (lo ++ l₁) k → KeySource b log₁ (l ++ [r]) (lo ++ l₁ ++ [.tesla k']) k := fun hk =>
        (h1 k hk hid).mono (fun r h => by simp [h]) (fun e h => by simp at h ⊢; rcases h with h | h <;> simp [h])
      rcases held_tesla hk with rfl | hk
      · obtain ⟨cur, n, hf, hc, _⟩ := hm.derives
        have hcid : cur.chain.id = b.root.chain.id := by rw [← hc]; exact hid
        have := (h1 cur hf.1 hcid).chain hb hs' (hlead r (by simp)) hcid
        have := hm.sent hb (hs r (by simp)) hc this
        exact .inr (.inr ⟨r, by simp, this, by simp⟩)
      · exact old hk
    · rw [List.append_nil] at hk ⊢
      exact (h1 k hk hid).mono (fun r h => by simp [h]) (fun e h => h)

/-- After the DSM-KROOT was received, the key of the last subframe received has been reported. -/
theorem Rejoins.reported (hj : Rejoins b root0 pk0 rs₁ log₁) {r : Received} (hs : ∀ q ∈ rs₂ ++ [r], b.Sent q)
    (hord : ∀ q ∈ rs₂, q.gst.abs ≤ r.gst.abs) (hlead : ∀ q ∈ rs₂ ++ [r], Leads b log₁ q.gst)
    (h : MachineFrom root0 pk0 rs₁ log₁ (rs₂ ++ [r]) log) (hc : Complete b.dsmId ((rs₂ ++ [r]).map Received.dsmCall)) :
    .tesla (b.key r.gst) ∈ log := by
  have hb := hj.sound
  obtain ⟨lo, l₁, l₂, rfl, hlo, e₁, e₂⟩ := h.snoc_inv
  have hs' : ∀ q ∈ rs₂, b.Sent q := fun q hq => hs q (by simp [hq])
  have hsrc := fun {k : Key} => hj.source (k := k) hs' (fun q hq => hlead q (by simp [hq])) hlo
  have hon : b.On r.gst := (hs r (by simp)).1
  obtain ⟨hk1, hk2, hk3⟩ := hb.keys r.gst hon
  -- the key and the header in force
  have hcur : ∃ cur, Held (lo ++ l₁) cur ∧ cur.chain.id = b.root.chain.id ∧ lastHeader (lo ++ l₁) = some b.header ∧
      KeySource b log₁ rs₂ (lo ++ l₁) cur := by
    rcases hj.dsm_step hs hlo e₁ with ⟨rfl, hc'⟩ | ⟨rfl, _⟩
    · obtain ⟨q, _, ks, ks', rfl⟩ := (hj.messages hs' hlo).2 (hc' hc)
      rw [List.append_nil]
      obtain ⟨cur, h1, h2⟩ := held_teslas_some (held_kroot_some hb (log₁ ++ ks.map .tesla) q.gst) ks'
      exact ⟨cur, h1, h2, lastHeader_after _ _ _ _ _ _ _, hsrc h1 h2⟩
    · obtain ⟨cur, h1, h2⟩ := held_kroot_some hb lo r.gst
      refine ⟨cur, h1, h2, by have := lastHeader_after lo [] b.header b.kroot b.pk b.root r.gst; simpa using this, ?_⟩
      rcases held_kroot hb h1 with h | h
      · exact (hsrc h h2).mono (fun r h => h) (fun e h => by simp [h])
      · exact .inr (.inl h)
  obtain ⟨cur, hheld, hid, hlast, hsource⟩ := hcur
  have hchain : cur.chain = b.root.chain := hsource.chain hb hs' (hlead r (by simp)) hid
  have accept : ∀ n, 1 ≤ n → n ≤ 3000 → Derives C b.root.chain n (r.gst, (b.key r.gst).bytes) (cur.gst, cur.bytes) →
      KeyEvent.tesla (b.key r.gst) ∈ lo ++ l₁ ++ l₂ := by
    intro n hn1 hn2 hd
    have hm : TeslaMessage (lo ++ l₁) r (b.key r.gst) := by
      refine ⟨hk1, ?_, hk3, cur, n, ⟨hheld, b.header, hlast, by rw [hchain]; exact hb.chain⟩, by rw [hk2, hchain], hn1, hn2, ?_⟩
      · rw [hk2, (hs r (by simp)).2.2]
        exact (hb.sent r.svn r.gst hon).symm
      · rw [hk2, hk1]; exact hd
    rcases e₂ with ⟨e, ⟨k, rfl, hm'⟩, rfl⟩ | ⟨_, hn⟩
    · rw [hm'.unique hm]; simp
    · exact absurd ⟨_, rfl, hm⟩ (hn _)
  rcases hsource with h | rfl | ⟨q, hq, rfl, hmem⟩
  · obtain ⟨_, n, a1, a2, a3⟩ := hlead r (by simp) cur h hid
    exact accept n a1 a2 a3
  · obtain ⟨n, a1, a2, a3⟩ := b.derives_root hb hon
    exact accept n a1 a2 a3
  · have hqr := hord q hq
    have hqon := (hs' q hq).1
    by_cases heq : q.gst.abs = r.gst.abs
    · rw [← Gst.abs_inj heq]
      exact List.mem_append_left _ hmem
    · obtain ⟨n, hn, hd⟩ := b.derives hb hqon hon hqr
      refine accept n ?_ ?_ (by rw [(hb.keys _ hqon).1]; exact hd)
      · rcases Nat.eq_zero_or_pos n with h0 | h0
        · subst h0; omega
        · exact h0
      · have := hb.window
        have := hon.2.2
        have := hqon.2.1
        omega

/-- No subframe of the broadcast is passed over. -/
theorem Rejoins.from (hj : Rejoins b root0 pk0 rs₁ log₁) (hs : ∀ r ∈ rs₂, b.Sent r) (h : CaughtMachine root0 pk0 (rs₁ ++ rs₂) log) :
    MachineFrom root0 pk0 rs₁ log₁ rs₂ log := by
  induction rs₂ using snoc_induction generalizing log with
  | h0 =>
    rw [List.append_nil] at h
    rw [C96_machine_deterministic h hj.before]
    exact .nil
  | h1 l r ih =>
    have hs' : ∀ q ∈ l, b.Sent q := fun q hq => hs q (by simp [hq])
    rw [← List.append_assoc] at h
    generalize hx : rs₁ ++ l ++ [r] = x at h
    cases h with
    | nil => simp at hx
    | @step rs2 lo2 m₁ m₂ r2 k hok k₁ k₂ =>
      obtain ⟨rfl, rfl⟩ := append_singleton_cancel hx
      exact .step r (ih hs' k) k₁ k₂
    | @pass rs2 lo2 r2 dsm k hc hn =>
      obtain ⟨rfl, rfl⟩ := append_singleton_cancel hx
      exfalso
      apply hn
      have hb := hj.sound
      have hsz := hb.sizes
      have hbl := blocksOf_sent hb hs
      have hid := (hbl _ (List.mem_map_of_mem (by simp : r ∈ l ++ [r]))).1
      have hcomp := completes_of_gen (ds := (rs₁ ++ l).map Received.dsmCall) (p := r.dsmCall) (.kroot hb.id hb.size hsz.1 hsz.2) hid
        (by rw [hj.since hs']; simpa using hbl)
      rw [hj.since hs'] at hcomp
      obtain ⟨rfl, h0, _⟩ := (hcomp dsm).1 hc
      obtain ⟨ks, rfl⟩ := (hj.messages hs' (ih hs' k)).1 h0
      refine ⟨fun _ pk hpk hname => ?_, fun h12 => ?_⟩
      · rw [keysHeld_teslas] at hpk
        rw [keysHeld_unique hpk hj.held (by rw [hname, hb.named]), (hs r (by simp)).header hb]
        exact hb.harmless
      · have := hb.id
        rw [hid] at h12; omega

end Verif
