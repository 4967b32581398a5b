import Verif.Props.ColdStart
import Verif.Spec.FirstFix
import Verif.Props.Disclosure
import Verif.Props.Authentic
import Verif.Lemmas.MoreHeardKeys
import Verif.Props.StorageSize
import Verif.Lemmas.Repeats

/-! # C95: the time to the first authentication

From below: nothing is authenticated before enough HKROOT messages were received whole.  From above: with a single satellite that sends
the blocks of a DSM-KROOT one after the other, the data is authenticated as soon as the last block has come.
Cases: `Props/FirstFixExample.lean`. -/

namespace Verif

variable {S : Storage} {C : Crypto} {root0 : Option MerkleTreeNode} {pk0 : Option (PublicKey C)} {slow : Bool} {hist : List Call}
  {log : List (KeyEvent C)} {o : Osnma C}

/-! ## From below -/

/-- Distinct elements of a list of length `n`. -/
theorem length_of_sub {α : Type} [DecidableEq α] : ∀ {l₁ l₂ : List α}, l₁.Nodup → (∀ a ∈ l₁, a ∈ l₂) → l₁.length ≤ l₂.length
  | [], _, _, _ => Nat.zero_le _
  | a :: l, l₂, hn, hs => by
    rw [List.nodup_cons] at hn
    have h1 : ∀ x ∈ l, x ∈ l₂.erase a := by
      intro x hx
      exact (List.mem_erase_of_ne (by rintro rfl; exact hn.1 hx)).2 (hs x (List.mem_cons_of_mem _ hx))
    have h2 := length_of_sub hn.2 h1
    have h3 := List.length_erase_of_mem (hs a (List.mem_cons_self ..))
    have h4 := List.length_pos_of_mem (hs a (List.mem_cons_self ..))
    rw [List.length_cons]
    omega

theorem mem_sinceId' {ds : List DsmCall} {id : Nat} {d : DsmCall} (h : d ∈ sinceId ds id) : d ∈ ds ∧ d.header.dsmId = id := by
  unfold sinceId at h
  rw [List.mem_reverse] at h
  refine ⟨List.mem_reverse.1 ((List.takeWhile_sublist _).subset h), ?_⟩
  have := List.all_eq_true.1 List.all_takeWhile d h
  exact eq_of_beq this

/-- A DSM of `n` blocks takes `n` HKROOT messages with its id. -/
theorem blocks_needed {rs : List Received} {r : Received} {data : List Byte}
    (h : CompletesDsmWith (rs.map Received.dsmCall) r.dsmCall data) :
    ∃ n, data.length = 13 * n ∧ 7 ≤ n ∧ (12 ≤ r.dsmCall.header.dsmId → 13 ≤ n) ∧
      n ≤ ((rs ++ [r]).filter (fun x => x.dsmCall.header.dsmId == r.dsmCall.header.dsmId)).length := by
  obtain ⟨n, ⟨b0, _, hann, _⟩, hl, hb⟩ := h.now
  refine ⟨n, hl, ?_, ?_, ?_⟩
  · unfold announcedBlocks at hann
    dsimp only at hann
    split at hann <;> split at hann <;> cases hann <;> omega
  · intro hid
    unfold announcedBlocks at hann
    dsimp only at hann
    rw [if_pos hid] at hann
    split at hann <;> cases hann <;> omega
  · have h1 := length_of_sub (l₁ := List.range n)
      (l₂ := ((rs ++ [r]).filter (fun x => x.dsmCall.header.dsmId == r.dsmCall.header.dsmId)).map (fun x => x.dsmCall.header.dsmBlockId))
      List.nodup_range (by
        intro i hi
        obtain ⟨b, hb, _⟩ := hb i (List.mem_range.1 hi)
        unfold firstBlock at hb
        rw [Option.map_eq_some_iff] at hb
        obtain ⟨d, hd, _⟩ := hb
        have hi' : d.header.dsmBlockId = i := by
          have := List.find?_some hd
          exact eq_of_beq this
        have hm := List.mem_of_find?_eq_some hd
        rw [List.mem_map]
        rcases List.mem_append.1 hm with hm | hm
        · obtain ⟨h1, h2⟩ := mem_sinceId' hm
          obtain ⟨x, hx, rfl⟩ := List.mem_map.1 h1
          exact ⟨x, List.mem_filter.2 ⟨List.mem_append_left _ hx, by simpa using h2⟩, hi'⟩
        · rw [List.mem_singleton] at hm
          subst hm
          exact ⟨r, List.mem_filter.2 ⟨by simp, by simp⟩, hi'⟩)
    rw [List.length_map, List.length_range] at h1
    exact h1

theorem filter_of_prefix {α : Type} {p q : α → Bool} {l₁ l₂ : List α} (h : l₁ <+: l₂) (hpq : ∀ a, p a = true → q a = true) :
    (l₁.filter p).length ≤ (l₂.filter q).length := by
  have h1 : (l₁.filter p).length ≤ (l₂.filter p).length := (h.sublist.filter p).length_le
  rw [← List.countP_eq_length_filter, ← List.countP_eq_length_filter] at *
  exact Nat.le_trans h1 (List.countP_mono_left (fun a _ => hpq a))

/-- The HKROOT messages that the machine needed for its KROOTs and its public keys. -/
theorem machine_needs {rs : List Received} (hm : KeyMachine root0 pk0 rs log) :
    (∀ h data pk k g, KeyEvent.kroot h data pk k g ∈ log → ∃ n, data.length = 13 * n ∧ 7 ≤ n ∧
      n ≤ (rs.filter (fun x => decide (x.dsmCall.header.dsmId < 12))).length) ∧
    (∀ data pk, KeyEvent.pkr data pk ∈ log → ∃ n, data.length = 13 * n ∧ 13 ≤ n ∧
      n ≤ (rs.filter (fun x => decide (12 ≤ x.dsmCall.header.dsmId))).length) := by
  induction hm with
  | nil => exact ⟨fun _ _ _ _ _ h => (by cases h), fun _ _ h => (by cases h)⟩
  | @step rs log l₁ l₂ r hm h₁ h₂ ih =>
    have hpre : ∀ p : Received → Bool, (rs.filter p).length ≤ ((rs ++ [r]).filter p).length :=
      fun p => filter_of_prefix (List.prefix_append _ _) (fun _ h => h)
    have htes : ∀ e ∈ l₂, ∃ k, e = KeyEvent.tesla k := by
      intro e he
      rcases h₂ with ⟨e', ⟨k, hk, _⟩, rfl⟩ | ⟨rfl, _⟩
      · rw [List.mem_singleton] at he; exact ⟨k, he.trans hk⟩
      · cases he
    have hdsm : ∀ e ∈ l₁, ∃ data, CompletesDsmWith (rs.map Received.dsmCall) r.dsmCall data ∧ DsmMessage root0 pk0 log r data e := by
      intro e he
      rcases h₁ with ⟨e', hd, rfl⟩ | ⟨rfl, _⟩
      · rw [List.mem_singleton] at he; subst he; exact hd
      · cases he
    refine ⟨?_, ?_⟩
    · intro h data pk k g he
      rcases List.mem_append.1 he with he | he
      · rcases List.mem_append.1 he with he | he
        · obtain ⟨n, a, b, c⟩ := ih.1 h data pk k g he
          exact ⟨n, a, b, Nat.le_trans c (hpre _)⟩
        · obtain ⟨data', hc, hd⟩ := hdsm _ he
          obtain ⟨n, a, b, _, c⟩ := blocks_needed hc
          cases hd with
          | kroot pk key hid =>
            refine ⟨n, a, b, Nat.le_trans c (filter_of_prefix (List.prefix_refl _) ?_)⟩
            intro x hx
            rw [eq_of_beq hx]
            exact decide_eq_true hid
      · obtain ⟨k, hk⟩ := htes _ he; cases hk
    · intro data pk he
      rcases List.mem_append.1 he with he | he
      · rcases List.mem_append.1 he with he | he
        · obtain ⟨n, a, b, c⟩ := ih.2 data pk he
          exact ⟨n, a, b, Nat.le_trans c (hpre _)⟩
        · obtain ⟨data', hc, hd⟩ := hdsm _ he
          obtain ⟨n, a, _, b, c⟩ := blocks_needed hc
          cases hd with
          | pkr root pk hid =>
            refine ⟨n, a, b hid, Nat.le_trans c (filter_of_prefix (List.prefix_refl _) ?_)⟩
            intro x hx
            rw [eq_of_beq hx]
            exact decide_eq_true hid
      · obtain ⟨k, hk⟩ := htes _ he; cases hk

theorem filter_split {α : Type} (l : List α) (f : α → Nat) :
    (l.filter (fun x => decide (f x < 12))).length + (l.filter (fun x => decide (12 ≤ f x))).length ≤ l.length := by
  induction l with
  | nil => simp
  | cons a l ih =>
    simp only [List.filter_cons]
    by_cases h : f a < 12
    · have : ¬ 12 ≤ f a := by omega
      simp [h, this]; omega
    · have : 12 ≤ f a := by omega
      simp [h, this]; omega

/-- The subframes received are subframes heard whole, each once if the pages are in chronological order. -/
theorem heard_of_received {rs : List Received} (hr : ReceivedIn (pagesOf hist) rs)
    (hord : (pagesOf hist).Pairwise (fun p q => p.sub.abs ≤ q.sub.abs)) :
    ∃ l : List (Svn × Gst), l.Nodup ∧ l.length = rs.length ∧ ∀ x ∈ l, HeardWhole hist x.1 x.2 := by
  refine ⟨rs.map (fun r => (r.svn, r.gst)), (received_once hr hord).1, by rw [List.length_map], ?_⟩
  intro x hx
  obtain ⟨r, h, rfl⟩ := List.mem_map.1 hx
  exact received_heard hr h

/-- **C95**  A DSM-KROOT of `n` blocks is reported only when at least `n`, and at least 7, HKROOT messages were received whole: the messages of different
satellites or different subframes. -/
theorem C95_kroot_needs (h : Logs S (Osnma.new S root0 pk0 slow) hist log o)
    (hord : (pagesOf hist).Pairwise (fun p q => p.sub.abs ≤ q.sub.abs)) {hd : NmaHeader} {data : List Byte} {pk : PublicKey C} {k : Key} {g : Gst}
    (he : KeyEvent.kroot hd data pk k g ∈ log) :
    ∃ l : List (Svn × Gst), l.Nodup ∧ data.length ≤ 13 * l.length ∧ 7 ≤ l.length ∧ ∀ x ∈ l, HeardWhole hist x.1 x.2 := by
  obtain ⟨rs, hr, hm⟩ := C62_reference_machine h
  obtain ⟨l, h1, h2, h3⟩ := heard_of_received hr hord
  obtain ⟨n, a, b, c⟩ := (machine_needs hm).1 _ _ _ _ _ he
  have := List.length_filter_le (fun x : Received => decide (x.dsmCall.header.dsmId < 12)) rs
  exact ⟨l, h1, by omega, by omega, h3⟩

/-- **C95**  Without a public key from the start, 13 more are needed: the DSM-PKR. -/
theorem C95_kroot_needs_pkr (h : Logs S (Osnma.new S root0 none slow) hist log o)
    (hord : (pagesOf hist).Pairwise (fun p q => p.sub.abs ≤ q.sub.abs)) {hd : NmaHeader} {data : List Byte} {pk : PublicKey C} {k : Key} {g : Gst}
    (he : KeyEvent.kroot hd data pk k g ∈ log) :
    ∃ l : List (Svn × Gst), l.Nodup ∧ data.length + 169 ≤ 13 * l.length ∧ 20 ≤ l.length ∧ ∀ x ∈ l, HeardWhole hist x.1 x.2 := by
  obtain ⟨rs, hr, hm⟩ := C62_reference_machine h
  obtain ⟨l, h1, h2, h3⟩ := heard_of_received hr hord
  obtain ⟨n, a, b, c⟩ := (machine_needs hm).1 _ _ _ _ _ he
  obtain ⟨l₁, l₂, hl⟩ := List.append_of_mem he
  obtain ⟨_, ⟨ht, _⟩⟩ := (keyInv_run h).good l₁ _ l₂ hl
  rcases ht with ht | ⟨data', ht⟩
  · cases ht
  · obtain ⟨n', a', b', c'⟩ := (machine_needs hm).2 data' pk (by rw [hl]; exact List.mem_append_left _ ht)
    have := filter_split rs (fun x => x.dsmCall.header.dsmId)
    exact ⟨l, h1, by omega, by omega, h3⟩

/-- What a getter returns needs a KROOT. -/
theorem kroot_of_get (hS : S.Consistent) (h0 : (Osnma.new S root0 pk0 slow : Osnma C).Fresh S)
    (h : Logs S (Osnma.new S root0 pk0 slow) hist log o) {kd : NavKind} {svn : Svn} {d : NavMessageData}
    (hd : o.get S kd svn = .ok (some d)) : ∃ hd data pk k g, KeyEvent.kroot hd data pk k g ∈ log := by
  obtain ⟨us, hau⟩ := get_authentic hS h0 h kd hd
  obtain ⟨u, hu⟩ := List.exists_mem_of_ne_nil us (C31_some_tag hau)
  have h1 : 0 < us.count u := List.count_pos_iff.2 hu
  have h2 := hau.once u
  have h3 : 0 < timesAccepted log u.key := by omega
  unfold timesAccepted at h3
  rw [List.countP_pos_iff] at h3
  obtain ⟨e, he, hk⟩ := h3
  cases e with
  | tesla k =>
    obtain ⟨l₁, l₂, hl⟩ := List.append_of_mem he
    obtain ⟨hd, data, pk, kr, g, n, hm, _⟩ := (((keyInv_run h).good l₁ _ l₂ hl).2).2.1
    exact ⟨hd, data, pk, kr, g, by rw [hl]; exact List.mem_append_left _ hm⟩
  | kroot h data pk k g => cases hk
  | pkr data pk => cases hk
  | alert data => cases hk

/-- **C95**  If a getter returns data, then at least 7 HKROOT messages were received whole. -/
theorem C95_get_needs (hS : S.Consistent) (h0 : (Osnma.new S root0 pk0 slow : Osnma C).Fresh S)
    (h : run S (Osnma.new S root0 pk0 slow) hist = .ok o) (hord : (pagesOf hist).Pairwise (fun p q => p.sub.abs ≤ q.sub.abs))
    {kd : NavKind} {svn : Svn} {d : NavMessageData} (hd : o.get S kd svn = .ok (some d)) :
    ∃ l : List (Svn × Gst), l.Nodup ∧ 7 ≤ l.length ∧ ∀ x ∈ l, HeardWhole hist x.1 x.2 := by
  obtain ⟨log, hl⟩ := Logs.of_run h
  obtain ⟨_, _, _, _, _, he⟩ := kroot_of_get hS h0 hl hd
  obtain ⟨l, h1, _, h3, h4⟩ := C95_kroot_needs hl hord he
  exact ⟨l, h1, h3, h4⟩

/-- **C95**  If the receiver was constructed without a public key, then at least 20. -/
theorem C95_get_needs_pkr (hS : S.Consistent) (h0 : (Osnma.new S root0 none slow : Osnma C).Fresh S)
    (h : run S (Osnma.new S root0 none slow) hist = .ok o) (hord : (pagesOf hist).Pairwise (fun p q => p.sub.abs ≤ q.sub.abs))
    {kd : NavKind} {svn : Svn} {d : NavMessageData} (hd : o.get S kd svn = .ok (some d)) :
    ∃ l : List (Svn × Gst), l.Nodup ∧ 20 ≤ l.length ∧ ∀ x ∈ l, HeardWhole hist x.1 x.2 := by
  obtain ⟨log, hl⟩ := Logs.of_run h
  obtain ⟨_, _, _, _, _, he⟩ := kroot_of_get hS h0 hl hd
  obtain ⟨l, h1, _, h3, h4⟩ := C95_kroot_needs_pkr hl hord he
  exact ⟨l, h1, h3, h4⟩

theorem product_length {α : Type} (sats : List α) : ∀ n : Nat, ((List.range n).flatMap (fun i => sats.map (fun v => (v, i)))).length = sats.length * n
  | 0 => by simp
  | n + 1 => by
    rw [List.range_succ, List.flatMap_append, List.length_append, product_length sats n]
    simp [Nat.mul_succ]

/-- `N` messages of the satellites `sats` take time. -/
theorem takes_time {l : List (Svn × Gst)} (hnd : l.Nodup) (hal : ∀ x ∈ l, x.2.Aligned) {sats : List Svn} (hs : ∀ x ∈ l, x.1 ∈ sats) (hne : l ≠ []) :
    ∃ x ∈ l, ∃ y ∈ l, x.2.abs ≤ y.2.abs ∧ (l.length : Int) ≤ sats.length * ((y.2.abs - x.2.abs) / 30 + 1) := by
  have hmin : ∀ l : List (Svn × Gst), l ≠ [] → ∃ x ∈ l, ∀ y ∈ l, x.2.abs ≤ y.2.abs := by
    intro l
    induction l with
    | nil => intro h; exact absurd rfl h
    | cons a l ih =>
      intro _
      by_cases hl : l = []
      · subst hl; exact ⟨a, by simp, by simp⟩
      · obtain ⟨x, hx, hy⟩ := ih hl
        by_cases hle : a.2.abs ≤ x.2.abs
        · refine ⟨a, by simp, ?_⟩
          intro y h
          rcases List.mem_cons.1 h with rfl | h
          · exact Int.le_refl _
          · exact Int.le_trans hle (hy y h)
        · refine ⟨x, List.mem_cons_of_mem _ hx, ?_⟩
          intro y h
          rcases List.mem_cons.1 h with rfl | h
          · omega
          · exact hy y h
  have hmax : ∀ l : List (Svn × Gst), l ≠ [] → ∃ x ∈ l, ∀ y ∈ l, y.2.abs ≤ x.2.abs := by
    intro l
    induction l with
    | nil => intro h; exact absurd rfl h
    | cons a l ih =>
      intro _
      by_cases hl : l = []
      · subst hl; exact ⟨a, by simp, by simp⟩
      · obtain ⟨x, hx, hy⟩ := ih hl
        by_cases hle : x.2.abs ≤ a.2.abs
        · refine ⟨a, by simp, ?_⟩
          intro y h
          rcases List.mem_cons.1 h with rfl | h
          · exact Int.le_refl _
          · exact Int.le_trans (hy y h) hle
        · refine ⟨x, List.mem_cons_of_mem _ hx, ?_⟩
          intro y h
          rcases List.mem_cons.1 h with rfl | h
          · omega
          · exact hy y h
  obtain ⟨x, hx, hx'⟩ := hmin l hne
  obtain ⟨y, hy, hy'⟩ := hmax l hne
  refine ⟨x, hx, y, hy, hx' y hy, ?_⟩
  have hxa := hal x hx
  have hya := hal y hy
  unfold Gst.Aligned at hxa hya
  have hxy := hx' y hy
  have hnd' : (l.map (fun z => (z.1, ((z.2.abs - x.2.abs) / 30).toNat))).Nodup := by
    unfold List.Nodup at hnd ⊢
    rw [List.pairwise_map]
    refine List.Pairwise.imp_of_mem ?_ hnd
    intro a b ha hb hab e
    apply hab
    have e1 : a.1 = b.1 := (Prod.mk.inj e).1
    have e2 : ((a.2.abs - x.2.abs) / 30).toNat = ((b.2.abs - x.2.abs) / 30).toNat := (Prod.mk.inj e).2
    have h1 := hx' a ha
    have h2 := hx' b hb
    have h3 := hal a ha
    have h4 := hal b hb
    unfold Gst.Aligned at h3 h4
    exact Prod.ext e1 (Gst.abs_inj (by omega))
  have := length_of_sub (l₂ := (List.range (((y.2.abs - x.2.abs) / 30).toNat + 1)).flatMap (fun i => sats.map (fun v => (v, i)))) hnd' (by
    intro a ha
    obtain ⟨z, hz, rfl⟩ := List.mem_map.1 ha
    rw [List.mem_flatMap]
    refine ⟨((z.2.abs - x.2.abs) / 30).toNat, ?_, List.mem_map.2 ⟨z.1, hs z hz, rfl⟩⟩
    rw [List.mem_range]
    have h1 := hx' z hz
    have h2 := hy' z hz
    omega)
  rw [List.length_map, product_length] at this
  have e : ((y.2.abs - x.2.abs) / 30 + 1 : Int) = ((((y.2.abs - x.2.abs) / 30).toNat + 1 : Nat) : Int) := by omega
  rw [e, ← Int.natCast_mul]
  exact Int.ofNat_le.2 this

/-- **C95**  If only the satellites `sats` are heard, the first authentication takes at least 7 / `sats.length` subframes: between the first and the
last subframe heard whole, both included (20 / `sats.length` without a public key from the start). -/
theorem C95_get_takes (hS : S.Consistent) (h0 : (Osnma.new S root0 pk0 slow : Osnma C).Fresh S)
    (h : run S (Osnma.new S root0 pk0 slow) hist = .ok o) (hord : (pagesOf hist).Pairwise (fun p q => p.sub.abs ≤ q.sub.abs))
    {sats : List Svn} (hsats : ∀ p ∈ pagesOf hist, p.svn ∈ sats)
    {kd : NavKind} {svn : Svn} {d : NavMessageData} (hd : o.get S kd svn = .ok (some d)) :
    ∃ v g v' g', HeardWhole hist v g ∧ HeardWhole hist v' g' ∧ g.abs ≤ g'.abs ∧
      (if pk0 = none then 20 else 7 : Int) ≤ sats.length * ((g'.abs - g.abs) / 30 + 1) := by
  have key : ∃ l : List (Svn × Gst), l.Nodup ∧ (if pk0 = none then 20 else 7) ≤ l.length ∧ ∀ x ∈ l, HeardWhole hist x.1 x.2 := by
    cases hp : pk0 with
    | none =>
      subst hp
      simpa using C95_get_needs_pkr hS h0 h hord hd
    | some pk =>
      rw [hp] at h h0
      simpa using C95_get_needs hS h0 h hord hd
  obtain ⟨l, h1, h2, h3⟩ := key
  have hpage : ∀ x ∈ l, ∃ p ∈ pagesOf hist, p.svn = x.1 ∧ p.sub = x.2 := by
    intro x hx
    have := (h3 x hx).length_le
    rw [List.length_map, List.length_range] at this
    unfold pagesIn at this
    obtain ⟨p, hp⟩ := List.exists_mem_of_length_pos (l := (pagesOf hist).filter (fun p => p.svn == x.1 && p.sub == x.2)) (by omega)
    rw [List.mem_filter, Bool.and_eq_true] at hp
    exact ⟨p, hp.1, eq_of_beq hp.2.1, eq_of_beq hp.2.2⟩
  obtain ⟨x, hx, y, hy, hxy, hle⟩ := takes_time h1 (fun x hx => by
    obtain ⟨p, _, _, e⟩ := hpage x hx
    rw [← e]
    exact p.gst.subframe_aligned) (sats := sats) (fun x hx => by
    obtain ⟨p, hp, e, _⟩ := hpage x hx
    rw [← e]
    exact hsats p hp) (by
    rintro rfl
    revert h2
    split <;> simp)
  refine ⟨x.1, x.2, y.1, y.2, h3 x hx, h3 y hy, hxy, Int.le_trans ?_ hle⟩
  split <;> rename_i hp <;> simp only [hp, if_true, if_false] at h2 <;> omega

theorem ReceivedMack.heardWhole {v : Svn} {g : Gst} {st : NmaStatus} {msg : MackMessage} (h : ReceivedMack hist v g st msg) : HeardWhole hist v g := by
  obtain ⟨ps, h1, h2, h3, _⟩ := h
  unfold HeardWhole pagesIn
  rw [← h2]
  refine List.Sublist.map _ ?_
  have := h1.filter (fun p => p.svn == v && p.sub == g)
  rw [List.filter_eq_self.2 (fun q hq => by simp [(h3 q hq).1, (h3 q hq).2])] at this
  exact this

/-- **C95**  From the data to its authentication it takes three subframes (Slow MAC: thirteen): all the words with the data come in a subframe before
that of the tag, whose MACK message is received whole, and that with the key one (eleven) subframes after it, again received whole. -/
theorem C95_data_to_key (hS : S.Consistent) (h0 : (Osnma.new S root0 pk0 slow : Osnma C).Fresh S)
    (h : run S (Osnma.new S root0 pk0 slow) hist = .ok o) (hwords : Chronological (inavsOf hist))
    {kd : NavKind} {svn : Svn} {d : NavMessageData} (hd : o.get S kd svn = .ok (some d)) :
    ∃ v g v' g', HeardWhole hist v g ∧ HeardWhole hist v' g' ∧ g.abs + (if slow then 330 else 30) ≤ g'.abs ∧
      ∀ f ∈ kd.fields, ∃ c ∈ inavsOf hist, c.svn = svn ∧ kd.carries c f = true ∧ c.gst.subframe.abs + 30 ≤ g.abs := by
  obtain ⟨us, e, es, n, hau⟩ := C78_in_time hS h0 h kd hd
  have hne : us ≠ [] := by
    rintro rfl
    simp at n
    omega
  obtain ⟨p, hp⟩ := List.exists_mem_of_ne_nil us hne
  obtain ⟨hpr, hin⟩ := hau p hp
  obtain ⟨msg, hm, _⟩ := hpr.mack
  obtain ⟨v', st', msg', hm', _⟩ := hpr.sent
  refine ⟨_, _, _, _, hm.heardWhole, hm'.heardWhole, ?_, ?_⟩
  · rcases hpr.rightKey with ⟨_, _, a, b⟩ | ⟨_, _, a, b⟩ | ⟨_, _, a⟩
    · rw [b]; simp only [Bool.false_eq_true, if_false]; omega
    · rw [b]; simp only [Bool.false_eq_true, if_false]; omega
    · split <;> omega
  · intro f hf
    have hsub : inavsOf hist = inavsOf (hist.take p.1) ++ inavsOf (hist.drop p.1) := by rw [← inavsOf_append, List.take_append_drop]
    rw [hsub] at hwords
    obtain ⟨c, hc⟩ := (hin.latest (Chronological.pre hwords)).2 f hf
    unfold NavKind.latest at hc
    have := List.mem_of_getLast? hc
    rw [List.mem_filter, Bool.and_eq_true] at this
    obtain ⟨h1, h2, h3⟩ := this
    unfold wordsUpTo at h1
    rw [List.mem_filter] at h1
    have h4 := of_decide_eq_true h1.2
    exact ⟨c, by rw [hsub]; exact List.mem_append_left _ h1.1, eq_of_beq h2, h3, by omega⟩

/-- Where a KROOT of a log comes from. -/
theorem kroot_completes {rs : List Received} (hm : KeyMachine root0 pk0 rs log) {hd : NmaHeader} {data : List Byte} {pk : PublicKey C} {k : Key} {g : Gst}
    (he : KeyEvent.kroot hd data pk k g ∈ log) :
    ∃ rs₁ r, rs₁ ++ [r] <+: rs ∧ r.gst = g ∧ CompletesDsmWith (rs₁.map Received.dsmCall) r.dsmCall data := by
  induction hm with
  | nil => cases he
  | @step rs log l₁ l₂ r hm h₁ h₂ ih =>
    rcases List.mem_append.1 he with he | he
    · rcases List.mem_append.1 he with he | he
      · obtain ⟨rs₁, r', a, b, c⟩ := ih he
        exact ⟨rs₁, r', a.trans (List.prefix_append _ _), b, c⟩
      · rcases h₁ with ⟨e', ⟨data', hc, hd⟩, rfl⟩ | ⟨rfl, _⟩
        · rw [List.mem_singleton] at he
          subst he
          cases hd
          exact ⟨rs, r, List.prefix_refl _, rfl, hc⟩
        · cases he
    · rcases h₂ with ⟨e', ⟨k', hk, _⟩, rfl⟩ | ⟨rfl, _⟩
      · rw [List.mem_singleton] at he; rw [hk] at he; cases he
      · cases he

/-- **C95**  On a genuine broadcast, a receiver with the public key has accepted a KROOT by the end of a subframe exactly if it has heard all the blocks, each in the
subframe of some satellite heard whole. -/
theorem C95_kroot_exact {b : Broadcast C} (hb : b.Sound) (h : Logs S (Osnma.new S root0 (some b.pk) slow) hist log o) (hh : Heard b hist)
    (hord : (pagesOf hist).Pairwise (fun p q => p.sub.abs ≤ q.sub.abs)) (til : Gst) :
    (∃ hd data pk k g, KeyEvent.kroot hd data pk k g ∈ log ∧ g.abs ≤ til.abs) ↔ KrootHeard b hist til := by
  constructor
  · rintro ⟨hd, data, pk, k, g, he, hle⟩ i hi
    obtain ⟨rs, hr, hm⟩ := C62_reference_machine h
    have hsent := received_sent hr hh
    obtain ⟨rs₁, r, hp, hg, hc⟩ := kroot_completes hm he
    have hs := hb.sizes
    have hin : ∀ x ∈ rs₁ ++ [r], b.Sent x := fun x hx => hsent x (hp.subset hx)
    have hblk := blocksOf_sent hb hin
    have hid : r.dsmCall.header.dsmId = b.dsmId := (hblk r.dsmCall (List.mem_map_of_mem (by simp))).1
    have hall : ∀ d ∈ rs₁.map Received.dsmCall, d.header.dsmId = b.dsmId := by
      intro d hd
      exact (hblk d (by rw [List.map_append]; exact List.mem_append_left _ hd)).1
    have hblk' : BlocksOf b.dsmId b.kroot (sinceId (rs₁.map Received.dsmCall) b.dsmId ++ [r.dsmCall]) := by
      rw [sinceId_all hall]
      simpa using hblk
    obtain ⟨_, _, hcomp⟩ := (completes_of hb.id hb.size hs.1 hs.2 hid hblk' data).1 hc
    obtain ⟨d, hd, hdi⟩ := (complete_iff hblk' hb.id hb.size hs.1 hs.2).1 hcomp i hi
    rw [sinceId_all hall] at hd
    have hd' : d ∈ (rs₁ ++ [r]).map Received.dsmCall := by simpa using hd
    obtain ⟨x, hx, rfl⟩ := List.mem_map.1 hd'
    have hxs := hin x hx
    obtain ⟨j, hj, hbj⟩ := hb.blocks x.svn x.gst hxs.1
    have hdrop : (b.hkroot x.svn x.gst).val.drop 1 = BitVec.ofNat 8 (16 * b.dsmId + j) :: byteField b.kroot (13 * j) 13 := by rw [hbj]; rfl
    have hji := (hxs.block hb hj hdrop).2.1
    rw [hdi] at hji
    subst hji
    refine ⟨x.svn, x.gst, ?_, received_heard hr (hp.subset hx), hdrop⟩
    have hsub := received_sublist hr
    have hsort : (rs.map Received.gst).Pairwise (fun a c => a.abs ≤ c.abs) :=
      List.Pairwise.sublist hsub (List.pairwise_map.2 hord)
    have hsort' : ((rs₁ ++ [r]).map Received.gst).Pairwise (fun a c => a.abs ≤ c.abs) := hsort.sublist (hp.sublist.map _)
    rw [List.map_append, List.pairwise_append] at hsort'
    rcases List.mem_append.1 hx with hx | hx
    · have := hsort'.2.2 x.gst (List.mem_map_of_mem hx) r.gst (by simp)
      rw [hg] at this
      exact Int.le_trans this hle
    · rw [List.mem_singleton] at hx
      rw [hx, hg]; exact hle
  · intro hk
    obtain ⟨g, ks, ks', hle, hl⟩ := C75_kroot_accepted hb h hh hord hk
    exact ⟨b.header, b.kroot, b.pk, b.root, g, by rw [hl]; simp, hle⟩

/-- **C95**  So on a genuine broadcast nothing is authenticated before all the blocks of the DSM-KROOT were heard. -/
theorem C95_get_needs_kroot {b : Broadcast C} (hS : S.Consistent) (hb : b.Sound) (h : run S (Osnma.new S root0 (some b.pk) slow) hist = .ok o)
    (hh : Heard b hist) (hord : (pagesOf hist).Pairwise (fun p q => p.sub.abs ≤ q.sub.abs)) {kd : NavKind} {svn : Svn} {d : NavMessageData}
    (hd : o.get S kd svn = .ok (some d)) : KrootHeard b hist b.last := by
  obtain ⟨log, hl⟩ := Logs.of_run h
  obtain ⟨hd, data, pk, k, g, he⟩ := kroot_of_get hS fresh_key hl hd
  obtain ⟨rs, hr, hm⟩ := C62_reference_machine hl
  obtain ⟨rs₁, r, hp, hg, _⟩ := kroot_completes hm he
  refine (C95_kroot_exact hb hl hh hord b.last).1 ⟨hd, data, pk, k, g, he, ?_⟩
  rw [← hg]
  exact (received_sent hr hh r (hp.subset (by simp))).1.2.2

/-! ## From above -/

theorem mem_takeWhile_le {α : Type} {f : α → Int} {t : Int} : ∀ {l : List α}, l.Pairwise (fun a b => f a ≤ f b) → ∀ {a : α}, a ∈ l → f a < t →
    a ∈ l.takeWhile (fun x => decide (f x < t))
  | [], _, _, h, _ => by cases h
  | b :: l, hp, a, ha, hlt => by
    rw [List.pairwise_cons] at hp
    rcases List.mem_cons.1 ha with rfl | ha'
    · simp [hlt]
    · have : f b < t := Int.lt_of_le_of_lt (hp.1 a ha') hlt
      rw [List.takeWhile_cons, if_pos (by simpa using this)]
      exact List.mem_cons_of_mem _ (mem_takeWhile_le hp.2 ha' hlt)

theorem SendsData.expected {kd : NavKind} {v : Svn} {bits : List Bool} {part : NavField → List Bool} (h : SendsData hist kd v bits part)
    {p : List InavCall} (hp : ∀ c ∈ p, c ∈ inavsOf hist) (hall : ∀ f ∈ kd.fields, ∃ c ∈ p, c.svn = v ∧ kd.carries c f = true) :
    kd.expected p v = bits := by
  rw [h.parts]
  unfold NavKind.expected
  rw [List.flatMap_def, List.flatMap_def]
  refine congrArg List.flatten (List.map_congr_left ?_)
  intro f hf
  obtain ⟨c, hc, hv, hcar⟩ := hall f hf
  have hne : p.filter (fun c => c.svn == v && kd.carries c f) ≠ [] :=
    List.ne_nil_of_mem (List.mem_filter.2 ⟨hc, by simp [hv, hcar]⟩)
  unfold NavKind.fieldAfter NavKind.latest
  cases hl : (p.filter (fun c => c.svn == v && kd.carries c f)).getLast? with
  | none => rw [List.getLast?_eq_none_iff] at hl; exact absurd hl hne
  | some x =>
    have := List.mem_of_getLast? hl
    rw [List.mem_filter, Bool.and_eq_true] at this
    exact h.same x (hp x this.1) (eq_of_beq this.2.1) f hf this.2.2

/-- One satellite heard whole in consecutive subframes: the data of the subframe `it - 1`, a tag for it in the subframe `it`, the key of the tag in
the subframe `ik`, and the blocks of the DSM-KROOT cyclically, all of them up to there. -/
theorem one_satellite {b : Broadcast C} {slow : Bool} (hS : S.Consistent) (hb : b.Sound) (h : run S (Osnma.new S root0 (some b.pk) slow) hist = .ok o)
    (hh : Heard b hist) (hord : CallsInOrder hist) (hfit : Fits S (inavsOf hist))
    (hroom : ∀ g : Gst, ∃ sats : List Svn, sats.length ≤ S.numSats ∧ ∀ p ∈ pagesOf hist, p.sub = g → p.svn ∈ sats)
    (hweek : ∀ c ∈ inavsOf hist, 7650 ≤ c.gst.abs)
    {kd : NavKind} {v : Svn} {bits : List Bool} {part : NavField → List Bool} {m off it ik : Nat} {g : Nat → Gst}
    (hdep : ik - it + 1 < S.navDepth) (hdep' : ik - it < S.mackDepth)
    (hm : b.kroot.length = 13 * m) (hmk : m ≤ ik + 1) (hit : 1 ≤ it) (hik : it < ik)
    (hg : ∀ i, i ≤ ik → b.On (g i) ∧ (g i).abs = (g 0).abs + 30 * i)
    (hblk : ∀ i, i ≤ ik → (b.hkroot v (g i)).val.drop 1 =
      BitVec.ofNat 8 (16 * b.dsmId + (off + i) % m) :: byteField b.kroot (13 * ((off + i) % m)) 13)
    (hwhole : ∀ i, i ≤ ik → HeardWhole hist v (g i))
    (hdata : SendsData hist kd v bits part)
    (hwords : ∀ f ∈ kd.fields, ∃ c ∈ inavsOf hist, c.svn = v ∧ kd.carries c f = true ∧ c.gst.subframe = g (it - 1))
    {t : TagSpec} (ht : t ∈ mackTags (b.mack v (g it)) b.root.chain v) (hself : t.prnd = v.val)
    (hadkd : (kd = .ced ∧ t.adkd = 0 ∧ ik = it + 1 ∧ slow = false) ∨ (kd = .timing ∧ t.adkd = 4 ∧ ik = it + 1 ∧ slow = false) ∨
      (kd = .ced ∧ t.adkd = 12 ∧ ik = it + 11)) (hcop : 1 ≤ t.cop) (hlen : 40 ≤ t.tag.length)
    (hver : t.Verifies C (b.key (g ik)) v (g it) b.header.nmaStatus bits)
    (hright : MackRight C (b.key (g (it + 1))) b.root.chain (b.mack v (g it)) v (g it)) :
    ∃ d, o.get S kd v = .ok (some d) ∧ d.data = bits ∧ 40 ≤ d.authbits := by
  have hm6 : 6 ≤ m := by have := hb.size; omega
  have hg1 := (hg ik (by omega)).2
  have hg2 := (hg it (by omega)).2
  have hg3 := (hg (it - 1) (by omega)).2
  have hg4 := (hg (it + 1) (by omega)).2
  have e21 : (g ik).abs = (g it).abs + 30 * ((ik - it : Nat) : Int) := by omega
  have e32 : (g it).abs = (g (it - 1)).abs + 30 := by omega
  have hk := (hb.keys (g ik) (hg ik (by omega)).1).1
  let early := hist.takeWhile (fun c => decide (c.gst.subframe.abs < (g ik).abs))
  have hpre : early <+: hist := List.takeWhile_prefix _
  have htake : hist.take early.length = early := (List.prefix_iff_eq_take.1 hpre).symm
  have hin : ∀ c ∈ inavsOf hist, c.gst.subframe.abs < (g ik).abs → c ∈ inavsOf early := by
    intro c hc hlt
    rw [mem_inavsOf] at hc ⊢
    exact mem_takeWhile_le (f := fun c : Call => c.gst.subframe.abs) hord hc hlt
  have hsome : ∃ f, f ∈ kd.fields := by cases kd <;> exact ⟨_, List.mem_cons_self ..⟩
  have hw2 : ∀ f ∈ kd.fields, ∃ c ∈ inavsOf early, c.svn = v ∧ kd.carries c f = true := by
    intro f hf
    obtain ⟨c, hc, h1, h2, h3⟩ := hwords f hf
    exact ⟨c, hin c hc (by rw [h3]; omega), h1, h2⟩
  have hu : TagHeard b S slow hist hist kd v bits ⟨b.key (g ik), v, g it, b.header.nmaStatus, t⟩ := by
    refine ⟨⟨(hg it (by omega)).1, ?_, ?_, rfl, ht, ?_, hself, ?_, hver, hwhole it (by omega), ?_, ?_, ?_, ?_, ?_⟩, ?_, ?_⟩
    · dsimp only; rw [hk]; exact (hg ik (by omega)).1
    · dsimp only; rw [hk]
    · intro g' hg'
      dsimp only at hg'
      obtain rfl : g' = g (it + 1) := Gst.abs_inj (by omega)
      exact hright
    · unfold TagUse.RightKey
      dsimp only
      rw [hk]
      rcases hadkd with ⟨h1, h2, h3, h4⟩ | ⟨h1, h2, h3, h4⟩ | ⟨h1, h2, h3⟩
      · exact .inl ⟨h1, h2, by omega, h4⟩
      · exact .inr (.inl ⟨h1, h2, by omega, h4⟩)
      · exact .inr (.inr ⟨h1, h2, by omega⟩)
    · refine hdata.expected (fun c hc => (List.mem_filter.1 hc).1) ?_
      intro f hf
      obtain ⟨c, hc, h1, h2, h3⟩ := hwords f hf
      exact ⟨c, List.mem_filter.2 ⟨hc, decide_eq_true (by rw [h3]; dsimp only; omega)⟩, h1, h2⟩
    · intro f hf
      obtain ⟨c, hc, h1, h2, h3⟩ := hwords f hf
      refine ⟨c, hc, h1, h2, ?_, ?_⟩ <;> rw [h3] <;> dsimp only <;> omega
    · obtain ⟨f, hf⟩ := hsome
      obtain ⟨c, hc, h1, h2, h3⟩ := hwords f hf
      refine ⟨c, hc, ?_⟩
      rw [h3]; dsimp only; omega
    · dsimp only; rw [hk]; omega
    · dsimp only; rw [hk]; omega
    · refine ⟨v, ?_⟩
      dsimp only; rw [hk]
      exact hwhole ik (by omega)
    · intro i hi
      have him : i < m := by omega
      dsimp only; rw [hk]
      have hoff : off % m < m := Nat.mod_lt _ (by omega)
      have hj : ∃ j, j < m ∧ (off + j) % m = i := by
        by_cases hle : off % m ≤ i
        · refine ⟨i - off % m, by omega, ?_⟩
          rw [Nat.add_mod, Nat.mod_eq_of_lt (show i - off % m < m by omega), Nat.add_sub_cancel' hle, Nat.mod_eq_of_lt him]
        · refine ⟨i + m - off % m, by omega, ?_⟩
          rw [Nat.add_mod, Nat.mod_eq_of_lt (show i + m - off % m < m by omega),
            show off % m + (i + m - off % m) = i + m by omega, Nat.add_mod_right, Nat.mod_eq_of_lt him]
      obtain ⟨j, hj, hji⟩ := hj
      have hgj := (hg j (by omega)).2
      refine ⟨v, g j, by omega, hwhole j (by omega), ?_⟩
      have := hblk j (by omega)
      rw [hji] at this
      exact this
  obtain ⟨d, h1, h2, h3⟩ := C75_authenticates hS hb h hh hord hfit hroom hweek kd v bits early.length hpre.length_le
    (by
      obtain ⟨f, hf⟩ := hsome
      obtain ⟨c, hc, hv, _⟩ := hw2 f hf
      rw [htake]
      exact ⟨c, hc, hv⟩)
    (by
      intro i hi1 hi2
      have hsub : ∀ {c}, c ∈ early → c ∈ hist.take i := by
        intro c hc
        rw [← htake] at hc
        exact (List.take_prefix_take_left hi1).subset hc
      refine hdata.expected (fun c hc => ?_) ?_
      · rw [mem_inavsOf] at hc ⊢
        exact List.mem_of_mem_take hc
      · intro f hf
        obtain ⟨c, hc, h1, h2⟩ := hw2 f hf
        rw [mem_inavsOf] at hc
        exact ⟨c, mem_inavsOf.2 (hsub hc), h1, h2⟩)
    [⟨b.key (g ik), v, g it, b.header.nmaStatus, t⟩] (by simp)
    (by
      intro u hu'
      rw [List.mem_singleton] at hu'
      subst hu'
      refine ⟨hu, ?_⟩
      intro c hc
      rw [htake] at hc
      have := List.all_eq_true.1 (List.all_takeWhile (l := hist) (p := fun c => decide (c.gst.subframe.abs < (g ik).abs))) c hc
      dsimp only
      rw [hk]
      exact of_decide_eq_true this)
    (by simpa using hlen)
  refine ⟨d, h1, h2, ?_⟩
  simp only [List.map_cons, List.map_nil, List.sum_cons, List.sum_nil] at h3
  omega

/-- **C95**  A receiver with the public key hears one satellite `v` whole in as many consecutive subframes as the DSM-KROOT has blocks, and the
satellite sends the blocks one after the other, beginning with any; it sends the same data in all of them, and a tag of at least 40 bits for its own
data in the last but one.  Then the data is authenticated, whatever else is heard of the broadcast. -/
theorem C95_one_satellite {b : Broadcast C} (hS : S.Consistent) (hb : b.Sound) (h : run S (Osnma.new S root0 (some b.pk) false) hist = .ok o)
    (hh : Heard b hist) (hord : CallsInOrder hist) (hfit : Fits S (inavsOf hist))
    (hroom : ∀ g : Gst, ∃ sats : List Svn, sats.length ≤ S.numSats ∧ ∀ p ∈ pagesOf hist, p.sub = g → p.svn ∈ sats)
    (hweek : ∀ c ∈ inavsOf hist, 7650 ≤ c.gst.abs) (hdep : 3 ≤ S.navDepth) (hdep' : 2 ≤ S.mackDepth)
    {kd : NavKind} {v : Svn} {bits : List Bool} {part : NavField → List Bool} {m off : Nat} {g : Nat → Gst}
    (hm : b.kroot.length = 13 * m)
    (hg : ∀ i, i < m → b.On (g i) ∧ (g i).abs = (g 0).abs + 30 * i)
    (hblk : ∀ i, i < m → (b.hkroot v (g i)).val.drop 1 =
      BitVec.ofNat 8 (16 * b.dsmId + (off + i) % m) :: byteField b.kroot (13 * ((off + i) % m)) 13)
    (hwhole : ∀ i, i < m → HeardWhole hist v (g i))
    (hdata : SendsData hist kd v bits part)
    (hwords : ∀ i, i < m → ∀ f ∈ kd.fields, ∃ c ∈ inavsOf hist, c.svn = v ∧ kd.carries c f = true ∧ c.gst.subframe = g i)
    {t : TagSpec} (ht : t ∈ mackTags (b.mack v (g (m - 2))) b.root.chain v) (hself : t.prnd = v.val)
    (hadkd : t.adkd = match kd with | .ced => 0 | .timing => 4) (hcop : 1 ≤ t.cop) (hlen : 40 ≤ t.tag.length)
    (hver : t.Verifies C (b.key (g (m - 1))) v (g (m - 2)) b.header.nmaStatus bits)
    (hright : MackRight C (b.key (g (m - 1))) b.root.chain (b.mack v (g (m - 2))) v (g (m - 2))) :
    ∃ d, o.get S kd v = .ok (some d) ∧ d.data = bits ∧ 40 ≤ d.authbits := by
  have hm6 : 6 ≤ m := by have := hb.size; omega
  refine one_satellite hS hb h hh hord hfit hroom hweek (it := m - 2) (ik := m - 1) (off := off) (by omega) (by omega) hm (by omega) (by omega) (by omega)
    (fun i hi => hg i (by omega)) (fun i hi => hblk i (by omega)) (fun i hi => hwhole i (by omega)) hdata (hwords _ (by omega)) ht hself ?_ hcop hlen
    hver ?_
  · cases kd with
    | ced => exact .inl ⟨rfl, hadkd, by omega, rfl⟩
    | timing => exact .inr (.inl ⟨rfl, hadkd, by omega, rfl⟩)
  · rw [show m - 2 + 1 = m - 1 by omega]; exact hright

/-- **C95**  The same for the Slow MAC, also for a receiver that uses no other tags: thirteen consecutive subframes of one satellite (or as many as the
DSM-KROOT has blocks) are enough; the data is that of the first, and a Slow MAC tag of at least 40 bits for it comes in the second.
(`C95_data_to_key` says that a receiver that uses only the Slow MAC needs thirteen.)  Here `n` is the number of subframes. -/
theorem C95_one_satellite_slow {b : Broadcast C} {slow : Bool} (hS : S.Consistent) (hb : b.Sound)
    (h : run S (Osnma.new S root0 (some b.pk) slow) hist = .ok o)
    (hh : Heard b hist) (hord : CallsInOrder hist) (hfit : Fits S (inavsOf hist))
    (hroom : ∀ g : Gst, ∃ sats : List Svn, sats.length ≤ S.numSats ∧ ∀ p ∈ pagesOf hist, p.sub = g → p.svn ∈ sats)
    (hweek : ∀ c ∈ inavsOf hist, 7650 ≤ c.gst.abs) (hdep : 13 ≤ S.navDepth) (hdep' : 12 ≤ S.mackDepth)
    {v : Svn} {bits : List Bool} {part : NavField → List Bool} {m n off : Nat} {g : Nat → Gst}
    (hm : b.kroot.length = 13 * m) (hn : n = max m 13)
    (hg : ∀ i, i < n → b.On (g i) ∧ (g i).abs = (g 0).abs + 30 * i)
    (hblk : ∀ i, i < n → (b.hkroot v (g i)).val.drop 1 =
      BitVec.ofNat 8 (16 * b.dsmId + (off + i) % m) :: byteField b.kroot (13 * ((off + i) % m)) 13)
    (hwhole : ∀ i, i < n → HeardWhole hist v (g i))
    (hdata : SendsData hist .ced v bits part)
    (hwords : ∀ f ∈ NavKind.fields .ced, ∃ c ∈ inavsOf hist, c.svn = v ∧ NavKind.carries .ced c f = true ∧ c.gst.subframe = g (n - 13))
    {t : TagSpec} (ht : t ∈ mackTags (b.mack v (g (n - 12))) b.root.chain v) (hself : t.prnd = v.val)
    (hadkd : t.adkd = 12) (hcop : 1 ≤ t.cop) (hlen : 40 ≤ t.tag.length)
    (hver : t.Verifies C (b.key (g (n - 1))) v (g (n - 12)) b.header.nmaStatus bits)
    (hright : MackRight C (b.key (g (n - 11))) b.root.chain (b.mack v (g (n - 12))) v (g (n - 12))) :
    ∃ d, o.get S .ced v = .ok (some d) ∧ d.data = bits ∧ 40 ≤ d.authbits := by
  refine one_satellite hS hb h hh hord hfit hroom hweek (it := n - 12) (ik := n - 1) (off := off) (by omega) (by omega) hm (by omega) (by omega) (by omega)
    (fun i hi => hg i (by omega)) (fun i hi => hblk i (by omega)) (fun i hi => hwhole i (by omega)) hdata ?_ ht hself
    (.inr (.inr ⟨rfl, hadkd, by omega⟩)) hcop hlen hver ?_
  · rw [show n - 12 - 1 = n - 13 by omega]; exact hwords
  · rw [show n - 12 + 1 = n - 11 by omega]; exact hright

end Verif
