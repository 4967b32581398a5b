import Verif.Lemmas.ColdStart

/-! # Lemmas: the key machine on a genuine broadcast that follows anything else -/

namespace Verif
open CollectSubframe CollectDsm

variable {C : Crypto} {b : Broadcast C} {root0 : Option MerkleTreeNode} {pk0 : Option (PublicKey C)}

/-- The key is held. -/
def Held (log : List (KeyEvent C)) (k : Key) : Prop := (teslaHeld log).1 = some k ∨ (teslaHeld log).2 = some k

/-! ## Pages in later subframes -/

theorem completes_sent_later {ps₁ ps₂ : List Page} {p : Page} {r : Received} (hc : CompletesSubframe (ps₁ ++ ps₂) p r)
    (hlater : ∀ q ∈ ps₁, q.sub ≠ p.sub)
    (hh : ∀ q ∈ ps₂ ++ [p], q.svn = p.svn → b.On q.sub ∧ q.hkroot = ((b.hkroot q.svn q.sub).val.drop q.word).take 1 ∧
      q.mack = ((b.mack q.svn q.sub).val.drop (4 * q.word)).take 4) : b.Sent r := by
  have hsince : sinceSubframe (ps₁ ++ ps₂) p.sub = sinceSubframe ps₂ p.sub := by
    have hz : sinceSubframe ps₁ p.sub = [] := by
      unfold sinceSubframe
      rw [List.reverse_eq_nil_iff]
      cases hx : ps₁.reverse with
      | nil => rfl
      | cons a l =>
        rw [List.takeWhile_cons, if_neg]
        have := hlater a (List.mem_reverse.1 (by rw [hx]; simp))
        simpa using this
    unfold sinceSubframe at hz ⊢
    rw [List.reverse_eq_nil_iff] at hz
    rw [List.reverse_append]
    rw [List.takeWhile_append, hz, List.append_nil]
    split
    · rename_i he
      rw [List.Sublist.eq_of_length (List.takeWhile_sublist _) he]
    · rfl
  refine completes_sent (ps := ps₂) (p := p) ⟨hc.svn, hc.last, ?_, ?_, ?_, hc.gst⟩ hh
  · rw [← hsince]; exact hc.words
  · rw [← hsince]; exact hc.hkroot
  · rw [← hsince]; exact hc.mack

theorem received_sent_later {ps₁ ps₂ : List Page} {rs₁ rs : List Received} (h₁ : ReceivedIn ps₁ rs₁) (h : ReceivedIn (ps₁ ++ ps₂) rs)
    (hlater : ∀ p ∈ ps₁, ∀ q ∈ ps₂, p.sub.abs < q.sub.abs)
    (hh : ∀ q ∈ ps₂, b.On q.sub ∧ q.hkroot = ((b.hkroot q.svn q.sub).val.drop q.word).take 1 ∧
      q.mack = ((b.mack q.svn q.sub).val.drop (4 * q.word)).take 4) :
    ∃ rs₂, rs = rs₁ ++ rs₂ ∧ (∀ r ∈ rs₂, b.Sent r) ∧ (rs₂.map Received.gst).Sublist (ps₂.map Page.sub) := by
  induction ps₂ using snoc_induction generalizing rs with
  | h0 =>
    rw [List.append_nil] at h
    exact ⟨[], by rw [h.unique h₁]; simp, by simp, by simp⟩
  | h1 l p ih =>
    rw [← List.append_assoc] at h
    generalize hx : ps₁ ++ l ++ [p] = x at h
    have hl : ∀ a ∈ ps₁, ∀ q ∈ l, a.sub.abs < q.sub.abs := fun a ha q hq => hlater a ha q (by simp [hq])
    have hh' : ∀ q ∈ l, _ := fun q hq => hh q (by simp [hq])
    cases h with
    | nil => simp at hx
    | skip p' h' hn =>
      obtain ⟨rfl, rfl⟩ := append_singleton_cancel hx
      obtain ⟨rs₂, e1, e2, e3⟩ := ih h' hl hh'
      exact ⟨rs₂, e1, e2, by rw [List.map_append]; exact e3.trans (List.sublist_append_left _ _)⟩
    | got p' r' h' hr =>
      obtain ⟨rfl, rfl⟩ := append_singleton_cancel hx
      obtain ⟨rs₂, rfl, e2, e3⟩ := ih h' hl hh'
      refine ⟨rs₂ ++ [r'], by simp, ?_, ?_⟩
      · intro q hq
        rcases List.mem_append.1 hq with hq | hq
        · exact e2 q hq
        · rw [List.mem_singleton] at hq
          subst hq
          refine completes_sent_later hr ?_ (fun q hq _ => hh q hq)
          intro a ha he
          have := hlater a ha p (by simp)
          rw [he] at this; omega
      · rw [List.map_append, List.map_append]
        refine e3.append ?_
        rw [List.map_cons, List.map_cons, hr.gst]
        exact List.Sublist.refl _

/-! ## The DSM-KROOT -/

/-- What goes before the broadcast, for the key machine. -/
structure Joins (b : Broadcast C) (root0 : Option MerkleTreeNode) (pk0 : Option (PublicKey C)) (rs₁ : List Received)
    (log₁ : List (KeyEvent C)) : Prop where
  sound : b.Sound
  before : KeyMachine root0 pk0 rs₁ log₁
  held : (keysHeld pk0 log₁).1 = some b.pk ∨ (keysHeld pk0 log₁).2 = some b.pk
  newId : ∀ r, rs₁.getLast? = some r → r.dsmCall.header.dsmId ≠ b.dsmId

variable {rs₁ rs₂ : List Received} {log₁ log : List (KeyEvent C)}

theorem Joins.complete_iff (hj : Joins b root0 pk0 rs₁ log₁) (hs : ∀ r ∈ rs₂, b.Sent r) :
    Complete b.dsmId (rs₂.map Received.dsmCall) ↔ ∀ i, 13 * i < b.kroot.length → ∃ d ∈ rs₂.map Received.dsmCall, d.header.dsmBlockId = i := by
  have hsz := hj.sound.sizes
  exact Verif.complete_iff (blocksOf_sent hj.sound hs) hj.sound.id hj.sound.size hsz.1 hsz.2

theorem Joins.since (hj : Joins b root0 pk0 rs₁ log₁) (hs : ∀ r ∈ rs₂, b.Sent r) :
    sinceId ((rs₁ ++ rs₂).map Received.dsmCall) b.dsmId = rs₂.map Received.dsmCall := by
  rw [List.map_append, sinceId_append_same (fun d hd => (blocksOf_sent hj.sound hs d hd).1), sinceId_other, List.nil_append]
  intro d hd'
  rw [List.getLast?_map, Option.map_eq_some_iff] at hd'
  obtain ⟨q, hq, rfl⟩ := hd'
  exact hj.newId q hq

/-- The messages for a broadcast that follows. -/
theorem Joins.messages (hj : Joins b root0 pk0 rs₁ log₁) (hs : ∀ r ∈ rs₂, b.Sent r) (h : KeyMachine root0 pk0 (rs₁ ++ rs₂) log) :
    (¬ Complete b.dsmId (rs₂.map Received.dsmCall) → ∃ ks : List Key, log = log₁ ++ ks.map .tesla) ∧
    (Complete b.dsmId (rs₂.map Received.dsmCall) → ∃ r ∈ rs₂, ∃ ks ks' : List Key,
      log = log₁ ++ ks.map .tesla ++ [.kroot b.header b.kroot b.pk b.root r.gst] ++ ks'.map .tesla) := by
  have hb := hj.sound
  obtain ⟨f, n, hsig⟩ := hb.signed
  have hsz := hb.sizes
  refine machine_recovers_gen (ev := fun r => .kroot b.header b.kroot b.pk b.root r.gst) hj.before h hj.newId
    (.kroot hb.id hb.size hsz.1 hsz.2) (blocksOf_sent hb hs) ?_
  intro r hr ks
  have hr' : r.header = b.header := (hs r hr).header hb
  rw [← hr']
  exact .kroot b.pk b.root (by rw [(blocksOf_sent hb hs _ (List.mem_map_of_mem hr)).1]; exact hb.id)
    (by rw [keysHeld_teslas]; exact hj.held) hb.named ⟨f, n, by rw [hr']; exact hsig⟩ hb.announced hb.pad

/-- The message for the DSM in one more subframe. -/
theorem Joins.dsm_step (hj : Joins b root0 pk0 rs₁ log₁) {r : Received} (hs : ∀ q ∈ rs₂ ++ [r], b.Sent q)
    {lo l₁ : List (KeyEvent C)} (hlo : KeyMachine root0 pk0 (rs₁ ++ rs₂) lo)
    (e₁ : Exactly (fun e => ∃ data, CompletesDsmWith ((rs₁ ++ rs₂).map Received.dsmCall) r.dsmCall data ∧
      DsmMessage root0 pk0 lo r data e) l₁) :
    (l₁ = [] ∧ (Complete b.dsmId ((rs₂ ++ [r]).map Received.dsmCall) → Complete b.dsmId (rs₂.map Received.dsmCall))) ∨
    (l₁ = [.kroot b.header b.kroot b.pk b.root r.gst] ∧ ¬ Complete b.dsmId (rs₂.map Received.dsmCall)) := by
  have hb := hj.sound
  have hs' : ∀ q ∈ rs₂, b.Sent q := fun q hq => hs q (by simp [hq])
  have hbl := blocksOf_sent hb hs
  have hsz := hb.sizes
  have hcomp := completes_of_gen (ds := (rs₁ ++ rs₂).map Received.dsmCall) (p := r.dsmCall) (.kroot hb.id hb.size hsz.1 hsz.2)
    (hbl _ (List.mem_map_of_mem (by simp))).1 (by rw [hj.since hs']; simpa using hbl)
  rw [hj.since hs'] at hcomp
  have hmap : (rs₂ ++ [r]).map Received.dsmCall = rs₂.map Received.dsmCall ++ [r.dsmCall] := by simp
  have hmsg : ¬ Complete b.dsmId (rs₂.map Received.dsmCall) →
      DsmMessage root0 pk0 lo r b.kroot (.kroot b.header b.kroot b.pk b.root r.gst) := by
    intro hn
    obtain ⟨ks, rfl⟩ := (hj.messages hs' hlo).1 hn
    obtain ⟨f, n, hsig⟩ := hb.signed
    have hr' : r.header = b.header := (hs r (by simp)).header hb
    rw [← hr']
    exact .kroot b.pk b.root (by rw [(hbl _ (List.mem_map_of_mem (by simp))).1]; exact hb.id)
      (by rw [keysHeld_teslas]; exact hj.held) hb.named ⟨f, n, by rw [hr']; exact hsig⟩ hb.announced hb.pad
  rw [hmap]
  rcases e₁ with ⟨e, ⟨data, hd, hm⟩, rfl⟩ | ⟨rfl, hn⟩
  · obtain ⟨rfl, h0, _⟩ := (hcomp data).1 hd
    rw [hm.unique (hmsg h0)]
    exact .inr ⟨rfl, h0⟩
  · refine .inl ⟨rfl, fun hc => ?_⟩
    apply Classical.byContradiction
    intro h0
    exact hn _ ⟨b.kroot, (hcomp b.kroot).2 ⟨rfl, h0, hc⟩, hmsg h0⟩

/-! ## Keys held -/

theorem teslaHeld_snoc (l : List (KeyEvent C)) (e : KeyEvent C) : teslaHeld (l ++ [e]) = teslaAfter (teslaHeld l) e := by
  rw [teslaHeld_append]; rfl

theorem Broadcast.Sound.after (hb : b.Sound) (held : Option Key × Option Key) (g : Gst) :
    teslaAfter held (.kroot b.header b.kroot b.pk b.root g) = addKroot b.header b.root held := by
  have hst := hb.status
  unfold teslaAfter
  dsimp only
  rw [if_neg hb.calm, if_neg (by rintro ⟨h1, _⟩; rw [h1] at hst; rcases hst with h | h <;> cases h)]

/-- What is held after the DSM-KROOT: what was held, or the root key. -/
theorem held_kroot (hb : b.Sound) {g : Gst} {k : Key} (h : Held (log ++ [.kroot b.header b.kroot b.pk b.root g]) k) :
    Held log k ∨ k = b.root := by
  unfold Held at h ⊢
  rw [teslaHeld_snoc, hb.after] at h
  unfold addKroot at h
  repeat' split at h
  all_goals grind

/-- A key of the chain is held after the DSM-KROOT. -/
theorem held_kroot_some (hb : b.Sound) (log : List (KeyEvent C)) (g : Gst) :
    ∃ k, Held (log ++ [.kroot b.header b.kroot b.pk b.root g]) k ∧ k.chain.id = b.root.chain.id := by
  unfold Held
  rw [teslaHeld_snoc, hb.after]
  unfold addKroot
  split
  · rename_i h
    rw [ofChain_iff, ofChain_iff] at h
    rcases h with ⟨k, h, he⟩ | ⟨k, h, he⟩
    · exact ⟨k, .inl h, he⟩
    · exact ⟨k, .inr h, he⟩
  · repeat' split
    all_goals exact ⟨b.root, by simp, rfl⟩

theorem held_tesla {k k' : Key} (h : Held (log ++ [KeyEvent.tesla k']) k) : k = k' ∨ Held log k := by
  unfold Held at h ⊢
  rw [teslaHeld_snoc] at h
  unfold teslaAfter at h
  dsimp only at h
  repeat' split at h
  all_goals grind

theorem held_tesla_other {k k' : Key} (h : Held (log ++ [KeyEvent.tesla k']) k) (hne : k.chain.id ≠ k'.chain.id) : Held log k := by
  rcases held_tesla h with rfl | h
  · exact absurd rfl hne
  · exact h

theorem held_tesla_some {id : Nat} (h : ∃ k, Held log k ∧ k.chain.id = id) (k' : Key) :
    ∃ k, Held (log ++ [KeyEvent.tesla k']) k ∧ k.chain.id = id := by
  obtain ⟨k, h, rfl⟩ := h
  unfold Held at h ⊢
  rw [teslaHeld_snoc]
  unfold teslaAfter
  dsimp only
  by_cases he : k.chain.id = k'.chain.id
  · refine ⟨k', ?_, he.symm⟩
    rcases h with h | h
    · left; rw [h]; simp [ofChain, he]
    · right; rw [h]; simp [ofChain, he]
  · refine ⟨k, ?_, rfl⟩
    rcases h with h | h
    · left; rw [h]; simp [ofChain, he]
    · right; rw [h]; simp [ofChain, he]

theorem held_teslas_some {id : Nat} (h : ∃ k, Held log k ∧ k.chain.id = id) (ks : List Key) :
    ∃ k, Held (log ++ ks.map KeyEvent.tesla) k ∧ k.chain.id = id := by
  induction ks using snoc_induction with
  | h0 => simpa using h
  | h1 l a ih =>
    rw [List.map_append, ← List.append_assoc]
    exact held_tesla_some ih a

theorem lastHeader_after (log : List (KeyEvent C)) (ks : List Key) (h : NmaHeader) (data : List Byte) (pk : PublicKey C) (key : Key) (g : Gst) :
    lastHeader (log ++ [.kroot h data pk key g] ++ ks.map .tesla) = some h := by
  have hz : ∀ ks : List Key, (ks.map (KeyEvent.tesla (C := C))).filterMap KeyEvent.header? = [] := by
    intro ks
    induction ks with
    | nil => rfl
    | cons k ks ih => rw [List.map_cons, List.filterMap_cons]; exact ih
  unfold lastHeader
  rw [List.filterMap_append, List.filterMap_append, hz, List.append_nil]
  exact List.getLast?_concat

/-- The keys of the chain that are held before the broadcast lead on to its keys. -/
def Leads (b : Broadcast C) (log₁ : List (KeyEvent C)) (g : Gst) : Prop :=
  ∀ k, Held log₁ k → k.chain.id = b.root.chain.id → k.chain = b.root.chain ∧
    ∃ n, 1 ≤ n ∧ n ≤ 3000 ∧ Derives C b.root.chain n (g, (b.key g).bytes) (k.gst, k.bytes)

/-- Where a held key of the chain comes from. -/
def KeySource (b : Broadcast C) (log₁ : List (KeyEvent C)) (rs₂ : List Received) (log : List (KeyEvent C)) (k : Key) : Prop :=
  Held log₁ k ∨ k = b.root ∨ ∃ r ∈ rs₂, k = b.key r.gst ∧ .tesla k ∈ log

theorem KeySource.mono {rs rs' : List Received} {l l' : List (KeyEvent C)} {k : Key} (h : KeySource b log₁ rs l k) (h1 : ∀ r ∈ rs, r ∈ rs')
    (h2 : ∀ e ∈ l, e ∈ l') : KeySource b log₁ rs' l' k := by
  rcases h with h | h | ⟨r, hr, e, ht⟩
  · exact .inl h
  · exact .inr (.inl h)
  · exact .inr (.inr ⟨r, h1 r hr, e, h2 _ ht⟩)

theorem KeySource.chain (hb : b.Sound) (hs : ∀ r ∈ rs₂, b.Sent r) {g : Gst} (hlead : Leads b log₁ g) {k : Key} (h : KeySource b log₁ rs₂ log k)
    (hid : k.chain.id = b.root.chain.id) : k.chain = b.root.chain := by
  rcases h with h | rfl | ⟨r, hr, rfl, _⟩
  · exact (hlead k h hid).1
  · rfl
  · exact (hb.keys _ (hs r hr).1).2.1

/-- A TESLA key of the chain that is accepted is the one of the broadcast. -/
theorem TeslaMessage.sent (hb : b.Sound) {r : Received} (hr : b.Sent r) {k cur : Key} {l : List (KeyEvent C)} (hm : TeslaMessage l r k)
    (hk : k.chain = cur.chain) (hc : cur.chain = b.root.chain) : k = b.key r.gst := by
  obtain ⟨h1, h2, h3⟩ := hb.keys r.gst hr.1
  refine hm.pad.eq h3 ?_ ?_ ?_
  · rw [h2, hk, hc]
  · rw [hm.gst, h1]
  · rw [hm.bytes, hk, hc, hr.2.2]
    exact hb.sent r.svn r.gst hr.1

/-- The keys of the chain that are held: those held before, the root key, or those of the broadcast, which were reported. -/
theorem Joins.source (hj : Joins b root0 pk0 rs₁ log₁) (hs : ∀ r ∈ rs₂, b.Sent r) (hlead : ∀ r ∈ rs₂, Leads b log₁ r.gst)
    (h : KeyMachine root0 pk0 (rs₁ ++ rs₂) log) {k : Key} (hk : Held log k) (hid : k.chain.id = b.root.chain.id) :
    KeySource b log₁ rs₂ log k := by
  have hb := hj.sound
  induction rs₂ using snoc_induction generalizing log k with
  | h0 =>
    rw [List.append_nil] at h
    rw [C62_machine_deterministic h hj.before] at hk
    exact .inl hk
  | h1 l r ih =>
    rw [← List.append_assoc] at h
    obtain ⟨lo, l₁, l₂, rfl, hlo, e₁, e₂⟩ := h.snoc_inv
    have hs' : ∀ q ∈ l, b.Sent q := fun q hq => hs q (by simp [hq])
    have ih := fun {k : Key} => ih (k := k) hs' (fun q hq => hlead q (by simp [hq])) hlo
    -- after the DSM
    have h1 : ∀ k, Held (lo ++ l₁) k → k.chain.id = b.root.chain.id → KeySource b log₁ l (lo ++ l₁) k := by
      intro k hk hid
      rcases hj.dsm_step hs hlo e₁ with ⟨rfl, _⟩ | ⟨rfl, _⟩
      · rw [List.append_nil] at hk ⊢
        exact ih hk hid
      · rcases held_kroot hb hk with hk | rfl
        · exact (ih hk hid).mono (fun r h => h) (fun e h => by simp [h])
        · exact .inr (.inl rfl)
    -- after the TESLA key
    rcases e₂ with ⟨e, ⟨k', rfl, hm⟩, rfl⟩ | ⟨rfl, _⟩
    · have old : Held (lo ++ l₁) k → KeySource b log₁ (l ++ [r]) (lo ++ l₁ ++ [.tesla k']) k := fun hk =>
        (h1 k hk hid).mono (fun r h => by simp [h]) (fun e h => by simp at h ⊢; rcases h with h | h <;> simp [h])
      rcases held_tesla hk with rfl | hk
      · obtain ⟨cur, n, hf, hc, _⟩ := hm.derives
        have hcid : cur.chain.id = b.root.chain.id := by rw [← hc]; exact hid
        have := (h1 cur hf.1 hcid).chain hb hs' (hlead r (by simp)) hcid
        have := hm.sent hb (hs r (by simp)) hc this
        exact .inr (.inr ⟨r, by simp, this, by simp⟩)
      · exact old hk
    · rw [List.append_nil] at hk ⊢
      exact (h1 k hk hid).mono (fun r h => by simp [h]) (fun e h => h)

/-- After the DSM-KROOT was received, the key of the last subframe received has been reported. -/
theorem Joins.reported (hj : Joins b root0 pk0 rs₁ log₁) {r : Received} (hs : ∀ q ∈ rs₂ ++ [r], b.Sent q)
    (hord : ∀ q ∈ rs₂, q.gst.abs ≤ r.gst.abs) (hlead : ∀ q ∈ rs₂ ++ [r], Leads b log₁ q.gst)
    (h : KeyMachine root0 pk0 (rs₁ ++ (rs₂ ++ [r])) log) (hc : Complete b.dsmId ((rs₂ ++ [r]).map Received.dsmCall)) :
    .tesla (b.key r.gst) ∈ log := by
  have hb := hj.sound
  rw [← List.append_assoc] at h
  obtain ⟨lo, l₁, l₂, rfl, hlo, e₁, e₂⟩ := h.snoc_inv
  have hs' : ∀ q ∈ rs₂, b.Sent q := fun q hq => hs q (by simp [hq])
  have hsrc := fun {k : Key} => hj.source (k := k) hs' (fun q hq => hlead q (by simp [hq])) hlo
  have hon : b.On r.gst := (hs r (by simp)).1
  obtain ⟨hk1, hk2, hk3⟩ := hb.keys r.gst hon
  -- the key and the header in force
  have hcur : ∃ cur, Held (lo ++ l₁) cur ∧ cur.chain.id = b.root.chain.id ∧ lastHeader (lo ++ l₁) = some b.header ∧
      KeySource b log₁ rs₂ (lo ++ l₁) cur := by
    rcases hj.dsm_step hs hlo e₁ with ⟨rfl, hc'⟩ | ⟨rfl, _⟩
    · obtain ⟨q, _, ks, ks', rfl⟩ := (hj.messages hs' hlo).2 (hc' hc)
      rw [List.append_nil]
      obtain ⟨cur, h1, h2⟩ := held_teslas_some (held_kroot_some hb (log₁ ++ ks.map .tesla) q.gst) ks'
      exact ⟨cur, h1, h2, lastHeader_after _ _ _ _ _ _ _, hsrc h1 h2⟩
    · obtain ⟨cur, h1, h2⟩ := held_kroot_some hb lo r.gst
      refine ⟨cur, h1, h2, by have := lastHeader_after lo [] b.header b.kroot b.pk b.root r.gst; simpa using this, ?_⟩
      rcases held_kroot hb h1 with h | h
      · exact (hsrc h h2).mono (fun r h => h) (fun e h => by simp [h])
      · exact .inr (.inl h)
  obtain ⟨cur, hheld, hid, hlast, hsource⟩ := hcur
  have hchain : cur.chain = b.root.chain := hsource.chain hb hs' (hlead r (by simp)) hid
  have accept : ∀ n, 1 ≤ n → n ≤ 3000 → Derives C b.root.chain n (r.gst, (b.key r.gst).bytes) (cur.gst, cur.bytes) →
      KeyEvent.tesla (b.key r.gst) ∈ lo ++ l₁ ++ l₂ := by
    intro n hn1 hn2 hd
    have hm : TeslaMessage (lo ++ l₁) r (b.key r.gst) := by
      refine ⟨hk1, ?_, hk3, cur, n, ⟨hheld, b.header, hlast, by rw [hchain]; exact hb.chain⟩, by rw [hk2, hchain], hn1, hn2, ?_⟩
      · rw [hk2, (hs r (by simp)).2.2]
        exact (hb.sent r.svn r.gst hon).symm
      · rw [hk2, hk1]; exact hd
    rcases e₂ with ⟨e, ⟨k, rfl, hm'⟩, rfl⟩ | ⟨_, hn⟩
    · rw [hm'.unique hm]; simp
    · exact absurd ⟨_, rfl, hm⟩ (hn _)
  rcases hsource with h | rfl | ⟨q, hq, rfl, hmem⟩
  · obtain ⟨_, n, a1, a2, a3⟩ := hlead r (by simp) cur h hid
    exact accept n a1 a2 a3
  · obtain ⟨n, a1, a2, a3⟩ := b.derives_root hb hon
    exact accept n a1 a2 a3
  · have hqr := hord q hq
    have hqon := (hs' q hq).1
    by_cases heq : q.gst.abs = r.gst.abs
    · rw [← Gst.abs_inj heq]
      exact List.mem_append_left _ hmem
    · obtain ⟨n, hn, hd⟩ := b.derives hb hqon hon hqr
      refine accept n ?_ ?_ (by rw [(hb.keys _ hqon).1]; exact hd)
      · rcases Nat.eq_zero_or_pos n with h0 | h0
        · subst h0; omega
        · exact h0
      · have := hb.window
        have := hon.2.2
        have := hqon.2.1
        omega

end Verif
