import Verif.Lemmas.Switch
import Verif.Spec.Spoofing

/-! # Lemmas: the key machine among spoofed satellites -/

namespace Verif
open CollectSubframe CollectDsm

variable {C : Crypto} {b : Broadcast C} {root0 : Option MerkleTreeNode} {pk0 : Option (PublicKey C)} {G : Svn → Prop}

/-- The subframes received, with those of the satellites `G` as sent. -/
theorem received_spoofed {ps₁ ps₂ : List Page} {rs₁ rs : List Received} (h₁ : ReceivedIn ps₁ rs₁) (h : ReceivedIn (ps₁ ++ ps₂) rs)
    (hlater : ∀ p ∈ ps₁, ∀ q ∈ ps₂, p.sub.abs < q.sub.abs) (hon : ∀ q ∈ ps₂, b.On q.sub)
    (hh : ∀ q ∈ ps₂, G q.svn → q.hkroot = ((b.hkroot q.svn q.sub).val.drop q.word).take 1 ∧
      q.mack = ((b.mack q.svn q.sub).val.drop (4 * q.word)).take 4) :
    ∃ rs₂, rs = rs₁ ++ rs₂ ∧ (∀ r ∈ rs₂, G r.svn → b.Sent r) ∧ (rs₂.map Received.gst).Sublist (ps₂.map Page.sub) := by
  induction ps₂ using snoc_induction generalizing rs with
  | h0 =>
    rw [List.append_nil] at h
    exact ⟨[], by rw [h.unique h₁]; simp, by simp, by simp⟩
  | h1 l p ih =>
    rw [← List.append_assoc] at h
    generalize hx : ps₁ ++ l ++ [p] = x at h
    have hl : ∀ a ∈ ps₁, ∀ q ∈ l, a.sub.abs < q.sub.abs := fun a ha q hq => hlater a ha q (by simp [hq])
    have hon' : ∀ q ∈ l, _ := fun q hq => hon q (by simp [hq])
    have hh' : ∀ q ∈ l, _ := fun q hq => hh q (by simp [hq])
    cases h with
    | nil => simp at hx
    | skip p' h' hn =>
      obtain ⟨rfl, rfl⟩ := append_singleton_cancel hx
      obtain ⟨rs₂, e1, e2, e3⟩ := ih h' hl hon' hh'
      exact ⟨rs₂, e1, e2, by rw [List.map_append]; exact e3.trans (List.sublist_append_left _ _)⟩
    | got p' r' h' hr =>
      obtain ⟨rfl, rfl⟩ := append_singleton_cancel hx
      obtain ⟨rs₂, rfl, e2, e3⟩ := ih h' hl hon' hh'
      refine ⟨rs₂ ++ [r'], by simp, ?_, ?_⟩
      · intro q hq hG
        rcases List.mem_append.1 hq with hq | hq
        · exact e2 q hq hG
        · rw [List.mem_singleton] at hq
          subst hq
          rw [hr.svn] at hG
          refine completes_sent_later hr ?_ (fun a ha hs => ⟨hon a ha, hh a ha (by rw [hs]; exact hG)⟩)
          intro a ha he
          have := hlater a ha p (by simp)
          rw [he] at this; omega
      · rw [List.map_append, List.map_append]
        refine e3.append ?_
        rw [List.map_cons, List.map_cons, hr.gst]
        exact List.Sublist.refl _

/-- What goes before, for the key machine. -/
structure Tracks (b : Broadcast C) (root0 : Option MerkleTreeNode) (pk0 : Option (PublicKey C)) (rs₁ : List Received)
    (log₁ : List (KeyEvent C)) : Prop where
  sound : b.Sound
  before : KeyMachine root0 pk0 rs₁ log₁
  header : lastHeader log₁ = some b.header
  held : ∃ k, Held log₁ k ∧ k.chain.id = b.root.chain.id

variable {rs₁ rs₂ : List Received} {log₁ log : List (KeyEvent C)}

/-- A key of the chain that is held, if none was forged. -/
def TrueKey (b : Broadcast C) (log₁ : List (KeyEvent C)) (rs₂ : List Received) (log : List (KeyEvent C)) (k : Key) : Prop :=
  Held log₁ k ∨ ∃ r ∈ rs₂, k = b.key r.gst ∧ .tesla k ∈ log

theorem TrueKey.mono {rs rs' : List Received} {l l' : List (KeyEvent C)} {k : Key} (h : TrueKey b log₁ rs l k) (h1 : ∀ r ∈ rs, r ∈ rs')
    (h2 : ∀ e ∈ l, e ∈ l') : TrueKey b log₁ rs' l' k := by
  rcases h with h | ⟨r, hr, e, ht⟩
  · exact .inl h
  · exact .inr ⟨r, h1 r hr, e, h2 _ ht⟩

/-- A message that is not a TESLA key, under the header of the broadcast. -/
theorem held_other (hb : b.Sound) {e : KeyEvent C} (hs : ∃ k, Held log k ∧ k.chain.id = b.root.chain.id) (ht : ∀ k, e ≠ .tesla k)
    (he : (∀ h data pk k g, e = .kroot h data pk k g → h = b.header) ∧ ∀ data, e ≠ .alert data) :
    (∀ k, Held (log ++ [e]) k → k.chain.id = b.root.chain.id → Held log k) ∧
      ∃ k, Held (log ++ [e]) k ∧ k.chain.id = b.root.chain.id := by
  obtain ⟨he1, he2⟩ := he
  cases e with
  | tesla k => exact absurd rfl (ht k)
  | alert d => exact absurd rfl (he2 d)
  | pkr d pk =>
    unfold Held at hs ⊢
    rw [teslaHeld_snoc]
    exact ⟨fun k h _ => h, hs⟩
  | kroot h data pk k g =>
    obtain rfl := he1 _ _ _ _ _ rfl
    have hst := hb.status
    have hch := hb.chain
    have ha : teslaAfter (teslaHeld log) (.kroot b.header data pk k g) = addKroot b.header k (teslaHeld log) := by
      unfold teslaAfter
      dsimp only
      rw [if_neg hb.calm, if_neg (by rintro ⟨h1, _⟩; rw [h1] at hst; rcases hst with h | h <;> cases h)]
    unfold Held at hs ⊢
    rw [teslaHeld_snoc, ha]
    generalize teslaHeld log = held at *
    obtain ⟨x, y⟩ := held
    obtain ⟨k', hk', hid⟩ := hs
    dsimp only at hk'
    unfold addKroot
    dsimp only
    rw [hch]
    by_cases hno : ofChain k.chain.id x = true ∨ ofChain k.chain.id y = true
    · rw [if_pos hno]
      exact ⟨fun _ h _ => h, k', hk', hid⟩
    · rw [if_neg hno]
      have hne : k.chain.id ≠ b.root.chain.id := by
        intro hc
        apply hno
        rw [ofChain_iff, ofChain_iff, hc]
        rcases hk' with h | h
        · exact .inl ⟨k', h, hid⟩
        · exact .inr ⟨k', h, hid⟩
      repeat' split
      all_goals
        constructor
        · grind
        · by_cases hx : ofChain b.root.chain.id x = true
          · obtain ⟨w, rfl, hw⟩ := ofChain_iff.1 hx
            refine ⟨w, ?_, hw⟩
            grind
          · have : x ≠ some k' := fun e => hx (ofChain_iff.2 ⟨k', e, hid⟩)
            refine ⟨k', ?_, hid⟩
            grind

theorem lastHeader_keeps {e : KeyEvent C} (hl : lastHeader log = some b.header)
    (he : ∀ h data pk k g, e = .kroot h data pk k g → h = b.header) : lastHeader (log ++ [e]) = some b.header := by
  unfold lastHeader at hl ⊢
  rw [List.filterMap_append]
  cases e with
  | kroot h data pk k g =>
    obtain rfl := he _ _ _ _ _ rfl
    exact List.getLast?_concat
  | tesla k => simpa [KeyEvent.header?] using hl
  | pkr d pk => simpa [KeyEvent.header?] using hl
  | alert d => simpa [KeyEvent.header?] using hl

/-- A key in force, of the broadcast, and how far the key of a later subframe is. -/
theorem TrueKey.derives (hb : b.Sound) (hon : ∀ r ∈ rs₂, b.On r.gst) {g : Gst} (hg : b.On g) (hord : ∀ q ∈ rs₂, q.gst.abs ≤ g.abs)
    (hlead : Leads b log₁ g) {k : Key} (h : TrueKey b log₁ rs₂ log k) (hid : k.chain.id = b.root.chain.id) :
    k.chain = b.root.chain ∧ ∃ n : Nat, n ≤ 3000 ∧ Derives C b.root.chain n (g, (b.key g).bytes) (k.gst, k.bytes) ∧
      (n = 0 → k = b.key g ∧ .tesla k ∈ log) := by
  rcases h with h | ⟨q, hq, rfl, ht⟩
  · obtain ⟨h1, n, h2, h3, h4⟩ := hlead k h hid
    exact ⟨h1, n, h3, h4, fun h => by omega⟩
  · have hqon := hon q hq
    obtain ⟨n, hn, hd⟩ := b.derives hb hqon hg (hord q hq)
    refine ⟨(hb.keys _ hqon).2.1, n, ?_, by rw [(hb.keys _ hqon).1]; exact hd, ?_⟩
    · have := hb.window
      have := hg.2.2
      have := hqon.2.1
      omega
    · intro h0
      subst h0
      have : q.gst = g := Gst.abs_inj (by omega)
      rw [this] at ht ⊢
      exact ⟨rfl, ht⟩

/-- A TESLA key that is accepted is that of the broadcast, or there is a collision. -/
theorem TeslaMessage.spoofed (hb : b.Sound) {r : Received} (hr : b.On r.gst) {k cur : Key} {n m : Nat} {l : List (KeyEvent C)}
    (hm : TeslaMessage l r k) (hk : k.chain = b.root.chain) (hd : Derives C b.root.chain n (r.gst, k.bytes) (cur.gst, cur.bytes))
    (hd' : Derives C b.root.chain m (r.gst, (b.key r.gst).bytes) (cur.gst, cur.bytes)) :
    k = b.key r.gst ∨ DerivationsCollide C b.root.chain n k.gst k.bytes (b.key k.gst).bytes := by
  obtain ⟨h1, h2, h3⟩ := hb.keys r.gst hr
  have hnm : n = m := by
    have t1 := hd.time
    have t2 := hd'.time
    dsimp only at t1 t2
    omega
  subst hnm
  by_cases he : k.bytes = (b.key r.gst).bytes
  · exact .inl (hm.pad.eq h3 (by rw [h2, hk]) (by rw [hm.gst, h1]) he)
  · right
    rw [hm.gst]
    refine hd.collision hd' ?_ he
    unfold Key.bytes
    rw [List.length_take, List.length_take, k.data.2, (b.key r.gst).data.2, hk, h2]

/-- The machine among spoofed satellites, unless a key was forged. -/
theorem Tracks.state (hj : Tracks b root0 pk0 rs₁ log₁) (hon : ∀ r ∈ rs₂, b.On r.gst) (hlead : ∀ r ∈ rs₂, Leads b log₁ r.gst)
    (hord : rs₂.Pairwise (fun p q => p.gst.abs ≤ q.gst.abs)) (h : KeyMachine root0 pk0 (rs₁ ++ rs₂) log) (hsame : SameHeader b log₁ log)
    (hno : ¬ ForgedKey b log) :
    (∃ rest, log = log₁ ++ rest ∧ ∀ k, .tesla k ∈ rest → k = b.key k.gst) ∧ lastHeader log = some b.header ∧ (∃ k, Held log k ∧ k.chain.id = b.root.chain.id) ∧
      (∀ k, Held log k → k.chain.id = b.root.chain.id → TrueKey b log₁ rs₂ log k) ∧
      ∀ r ∈ rs₂, b.Sent r → .tesla (b.key r.gst) ∈ log := by
  have hb := hj.sound
  induction rs₂ using snoc_induction generalizing log with
  | h0 =>
    rw [List.append_nil] at h
    rw [C62_machine_deterministic h hj.before]
    exact ⟨⟨[], by simp, by simp⟩, hj.header, hj.held, fun k hk _ => .inl hk, by simp⟩
  | h1 l r ih =>
    rw [← List.append_assoc] at h
    obtain ⟨lo, l₁, l₂, rfl, hlo, e₁, e₂⟩ := h.snoc_inv
    obtain ⟨l0, rest0, hm0, he0⟩ := hlo.prefix
    have hl0 : l0 = log₁ := C62_machine_deterministic hm0 hj.before
    rw [hl0] at he0
    subst he0
    have hmem : ∀ e ∈ rest0 ++ l₁ ++ l₂, _ := fun e he => hsame e (by
      rw [List.append_assoc, List.append_assoc, List.drop_left, ← List.append_assoc]; exact he)
    rw [List.pairwise_append] at hord
    have hrl : ∀ q ∈ l, q.gst.abs ≤ r.gst.abs := fun q hq => hord.2.2 q hq r (by simp)
    have hron := hon r (by simp)
    have hrlead := hlead r (by simp)
    obtain ⟨⟨rest', i0, i1⟩, i2, i3, i4, i5⟩ := ih (fun q hq => hon q (by simp [hq])) (fun q hq => hlead q (by simp [hq])) hord.1 hlo
      (by
        unfold SameHeader
        rw [List.drop_left]
        exact fun e he => hmem e (by simp [he]))
      (fun hf => hno (by
        obtain ⟨k, n, h1, h2⟩ := hf
        exact ⟨k, n, by simp only [List.mem_append] at h1 ⊢; exact .inl (.inl h1), h2⟩))
    -- after the DSM
    have step1 : lastHeader (log₁ ++ rest0 ++ l₁) = some b.header ∧
        (∃ k, Held (log₁ ++ rest0 ++ l₁) k ∧ k.chain.id = b.root.chain.id) ∧
        ∀ k, Held (log₁ ++ rest0 ++ l₁) k → k.chain.id = b.root.chain.id → TrueKey b log₁ l (log₁ ++ rest0 ++ l₁) k := by
      rcases e₁ with ⟨e, ⟨data, _, hm⟩, rfl⟩ | ⟨rfl, _⟩
      · have hclean := hmem e (by simp)
        obtain ⟨a1, a2⟩ := held_other hb i3 (by intro k hk; subst hk; cases hm) hclean
        exact ⟨lastHeader_keeps i2 hclean.1, a2, fun k hk hid =>
          (i4 k (a1 k hk hid) hid).mono (fun _ h => h) (fun e h => List.mem_append_left _ h)⟩
      · rw [List.append_nil]
        exact ⟨i2, i3, i4⟩
    obtain ⟨s1, s2, s3⟩ := step1
    have hup : ∀ e ∈ log₁ ++ rest0, e ∈ log₁ ++ rest0 ++ l₁ ++ l₂ := fun e he =>
      List.mem_append_left _ (List.mem_append_left _ he)
    -- the key accepted
    have acc : ∀ k, TeslaMessage (log₁ ++ rest0 ++ l₁) r k → KeyEvent.tesla k ∈ log₁ ++ rest0 ++ l₁ ++ l₂ → k = b.key r.gst := by
      intro k hm hin
      obtain ⟨cur, n, ⟨hheld, hd, hlast, hcid⟩, hc, n1, n2, hder⟩ := hm.derives
      have hcid' : cur.chain.id = b.root.chain.id := by
        rw [s1] at hlast
        cases hlast
        rw [← hcid, hb.chain]
      obtain ⟨hchain, m, _, hder', _⟩ := (s3 cur hheld hcid').derives hb (fun q hq => hon q (by simp [hq])) hron hrl hrlead hcid'
      have hkc : k.chain = b.root.chain := by rw [hc, hchain]
      rw [hkc, hm.gst] at hder
      rcases hm.spoofed hb hron hkc hder hder' with h | h
      · exact h
      · exact absurd ⟨k, n, hin, by rw [hm.gst]; exact hron, hkc, h⟩ hno
    obtain rfl := List.append_cancel_left i0
    refine ⟨⟨rest0 ++ l₁ ++ l₂, by simp, ?_⟩, ?_, ?_, ?_, ?_⟩
    · intro k hk
      rcases List.mem_append.1 hk with hk | hk
      · rcases List.mem_append.1 hk with hk | hk
        · exact i1 k hk
        · rcases e₁ with ⟨e, ⟨data, _, hm⟩, rfl⟩ | ⟨rfl, _⟩
          · rw [List.mem_singleton] at hk
            subst hk
            cases hm
          · cases hk
      · rcases e₂ with ⟨e, ⟨k', rfl, hm⟩, rfl⟩ | ⟨rfl, _⟩
        · rw [List.mem_singleton] at hk
          cases hk
          rw [hm.gst]
          exact acc k hm (by simp)
        · cases hk
    · rcases e₂ with ⟨e, ⟨k, rfl, _⟩, rfl⟩ | ⟨rfl, _⟩
      · exact lastHeader_keeps s1 (by intro _ _ _ _ _ h; cases h)
      · rw [List.append_nil]; exact s1
    · rcases e₂ with ⟨e, ⟨k, rfl, _⟩, rfl⟩ | ⟨rfl, _⟩
      · exact held_tesla_some s2 k
      · rw [List.append_nil]; exact s2
    · intro k hk hid
      rcases e₂ with ⟨e, ⟨k', rfl, hm⟩, rfl⟩ | ⟨rfl, _⟩
      · rcases held_tesla hk with rfl | hk
        · exact .inr ⟨r, by simp, acc k hm (by simp), by simp⟩
        · exact (s3 k hk hid).mono (fun q hq => by simp [hq]) (fun e he => List.mem_append_left _ he)
      · rw [List.append_nil] at hk ⊢
        exact (s3 k hk hid).mono (fun q hq => by simp [hq]) (fun e he => he)
    · intro q hq hsent
      rcases List.mem_append.1 hq with hq | hq
      · exact hup _ (i5 q hq hsent)
      · rw [List.mem_singleton] at hq
        subst hq
        obtain ⟨cur, hheld, hid⟩ := s2
        obtain ⟨hchain, m, hm3000, hder, hzero⟩ := (s3 cur hheld hid).derives hb (fun q hq => hon q (by simp [hq])) hron hrl hrlead hid
        rcases Nat.eq_zero_or_pos m with h0 | h0
        · obtain ⟨h1, h2⟩ := hzero h0
          rw [h1] at h2
          exact List.mem_append_left _ h2
        · obtain ⟨hk1, hk2, hk3⟩ := hb.keys q.gst hron
          have hm : TeslaMessage (log₁ ++ rest0 ++ l₁) q (b.key q.gst) := by
            refine ⟨hk1, ?_, hk3, cur, m, ⟨hheld, b.header, s1, by rw [hchain]; exact hb.chain⟩, by rw [hk2, hchain], h0, hm3000, ?_⟩
            · rw [hk2, hsent.2.2]
              exact (hb.sent q.svn q.gst hron).symm
            · rw [hk2, hk1]; exact hder
          rcases e₂ with ⟨e, ⟨k, rfl, hm'⟩, rfl⟩ | ⟨_, hn⟩
          · rw [hm'.unique hm]; simp
          · exact absurd ⟨_, rfl, hm⟩ (hn _)

end Verif
