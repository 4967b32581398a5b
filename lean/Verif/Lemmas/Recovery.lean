import Verif.Lemmas.Broadcast

/-! # Lemmas: what a block of a DSM does to the key machine -/

namespace Verif
open CollectSubframe CollectDsm

variable {C : Crypto} {root0 : Option MerkleTreeNode} {pk0 : Option (PublicKey C)}

/-- The machine on a prefix. -/
theorem KeyMachine.prefix {rs₁ rs₂ : List Received} {log : List (KeyEvent C)} (h : KeyMachine root0 pk0 (rs₁ ++ rs₂) log) :
    ∃ log₁ log₂, KeyMachine root0 pk0 rs₁ log₁ ∧ log = log₁ ++ log₂ := by
  induction rs₂ using snoc_induction generalizing log with
  | h0 => rw [List.append_nil] at h; exact ⟨log, [], h, by simp⟩
  | h1 l r ih =>
    rw [← List.append_assoc] at h
    generalize hx : rs₁ ++ l ++ [r] = x at h
    cases h with
    | nil => simp at hx
    | @step rs lo l₁ l₂ r' h' h₁ h₂ =>
      obtain ⟨rfl, rfl⟩ := append_singleton_cancel hx
      obtain ⟨a, b, e1, e2⟩ := ih h'
      exact ⟨a, b ++ l₁ ++ l₂, e1, by rw [e2]; simp⟩

/-- One step of the machine. -/
theorem KeyMachine.snoc_inv {rs : List Received} {r : Received} {log' : List (KeyEvent C)} (h : KeyMachine root0 pk0 (rs ++ [r]) log') :
    ∃ log l₁ l₂, log' = log ++ l₁ ++ l₂ ∧ KeyMachine root0 pk0 rs log ∧
      Exactly (fun e => ∃ data, CompletesDsmWith (rs.map Received.dsmCall) r.dsmCall data ∧ DsmMessage root0 pk0 log r data e) l₁ ∧
      Exactly (fun e => ∃ k, e = .tesla k ∧ TeslaMessage (log ++ l₁) r k) l₂ := by
  generalize hx : rs ++ [r] = x at h
  cases h with
  | nil => simp at hx
  | @step rs lo l₁ l₂ r' h' h₁ h₂ =>
    obtain ⟨rfl, rfl⟩ := append_singleton_cancel hx
    exact ⟨lo, l₁, l₂, rfl, h', h₁, h₂⟩

theorem teslas_of {l : List (KeyEvent C)} {log : List (KeyEvent C)} {r : Received}
    (h : Exactly (fun e => ∃ k, e = .tesla k ∧ TeslaMessage log r k) l) : ∃ ks : List Key, l = ks.map .tesla := by
  rcases h with ⟨e, ⟨k, rfl, _⟩, rfl⟩ | ⟨rfl, _⟩
  · exact ⟨[k], rfl⟩
  · exact ⟨[], rfl⟩

theorem keysHeld_teslas (log : List (KeyEvent C)) (ks : List Key) : keysHeld pk0 (log ++ ks.map .tesla) = keysHeld pk0 log := by
  unfold keysHeld
  rw [List.foldl_append]
  generalize log.foldl keysAfter (pk0, none) = x
  induction ks generalizing x with
  | nil => rfl
  | cons k ks ih => rw [List.map_cons, List.foldl_cons]; exact ih _

theorem takeWhile_append_all {α : Type} {p : α → Bool} {l m : List α} (h : ∀ x ∈ l, p x = true) :
    (l ++ m).takeWhile p = l ++ m.takeWhile p := by
  induction l with
  | nil => rfl
  | cons a l ih =>
    rw [List.cons_append, List.takeWhile_cons, if_pos (h a (by simp)), ih (fun x hx => h x (by simp [hx]))]; rfl

theorem sinceId_append_same {ds es : List DsmCall} {id : Nat} (h : ∀ d ∈ es, d.header.dsmId = id) :
    sinceId (ds ++ es) id = sinceId ds id ++ es := by
  unfold sinceId
  rw [List.reverse_append, takeWhile_append_all (fun x hx => by simpa using h x (List.mem_reverse.1 hx)), List.reverse_append,
    List.reverse_reverse]

theorem sinceId_other {ds : List DsmCall} {id : Nat} (h : ∀ d, ds.getLast? = some d → d.header.dsmId ≠ id) : sinceId ds id = [] := by
  rcases List.eq_nil_or_concat ds with rfl | ⟨l, a, rfl⟩
  · rfl
  · rw [List.concat_eq_append] at h ⊢
    unfold sinceId
    rw [List.reverse_append]
    simp only [List.reverse_cons, List.reverse_nil, List.nil_append, List.cons_append]
    rw [List.takeWhile_cons, if_neg (by simpa using h a (by simp))]
    rfl

theorem Complete.append {id : Nat} {r : List DsmCall} (h : Complete id r) (es : List DsmCall) : Complete id (r ++ es) := by
  induction es using snoc_induction with
  | h0 => simpa using h
  | h1 l a ih => rw [← List.append_assoc]; exact ih.snoc a

/-- Once a DSM is complete, nothing is emitted for DSMs until the id changes. -/
theorem machine_stuck {rs₁ rs₂ : List Received} {log₁ log : List (KeyEvent C)} {id : Nat} (h₁ : KeyMachine root0 pk0 rs₁ log₁)
    (h : KeyMachine root0 pk0 (rs₁ ++ rs₂) log) (hc : Complete id (sinceId (rs₁.map Received.dsmCall) id))
    (hid : ∀ r ∈ rs₂, r.dsmCall.header.dsmId = id) : ∃ ks : List Key, log = log₁ ++ ks.map .tesla := by
  induction rs₂ using snoc_induction generalizing log with
  | h0 =>
    rw [List.append_nil] at h
    exact ⟨[], by rw [C62_machine_deterministic h h₁]; simp⟩
  | h1 l r ih =>
    rw [← List.append_assoc] at h
    obtain ⟨lo, l₁, l₂, rfl, hlo, e₁, e₂⟩ := h.snoc_inv
    obtain ⟨ks, rfl⟩ := ih hlo (fun r hr => hid r (by simp [hr]))
    obtain ⟨ks', rfl⟩ := teslas_of e₂
    have hnil : l₁ = [] := by
      rcases e₁ with ⟨e, ⟨data, hd, _⟩, _⟩ | ⟨rfl, _⟩
      · exfalso
        apply hd.notYet
        rw [hid r (by simp), List.map_append, sinceId_append_same (by
          intro d hd'
          obtain ⟨q, hq, rfl⟩ := List.mem_map.1 hd'
          exact hid q (by simp [hq]))]
        exact hc.append _
      · rfl
    subst hnil
    exact ⟨ks ++ ks', by simp⟩

/-- When the id has changed, the blocks of a DSM for which `ev` is to be emitted make the machine emit it. -/
theorem machine_recovers_gen {rs₁ rs₂ : List Received} {log₁ log : List (KeyEvent C)} {id n : Nat} {data : List Byte}
    {ev : Received → KeyEvent C} (h₁ : KeyMachine root0 pk0 rs₁ log₁) (h : KeyMachine root0 pk0 (rs₁ ++ rs₂) log)
    (hlast : ∀ r, rs₁.getLast? = some r → r.dsmCall.header.dsmId ≠ id) (ha : Announces id data n)
    (hb : BlocksOf id data (rs₂.map Received.dsmCall))
    (hev : ∀ r ∈ rs₂, ∀ ks : List Key, DsmMessage root0 pk0 (log₁ ++ ks.map .tesla) r data (ev r)) :
    (¬ Complete id (rs₂.map Received.dsmCall) → ∃ ks : List Key, log = log₁ ++ ks.map .tesla) ∧
    (Complete id (rs₂.map Received.dsmCall) → ∃ r ∈ rs₂, ∃ ks ks' : List Key,
      log = log₁ ++ ks.map .tesla ++ [ev r] ++ ks'.map .tesla) := by
  induction rs₂ using snoc_induction generalizing log with
  | h0 =>
    rw [List.append_nil] at h
    refine ⟨fun _ => ⟨[], by rw [C62_machine_deterministic h h₁]; simp⟩, fun hc => absurd hc (not_complete_nil id)⟩
  | h1 l r ih =>
    rw [← List.append_assoc] at h
    obtain ⟨lo, l₁, l₂, rfl, hlo, e₁, e₂⟩ := h.snoc_inv
    have hb' : BlocksOf id data (l.map Received.dsmCall) := fun d hd => hb d (by simp at hd ⊢; exact .inl hd)
    obtain ⟨i1, i2⟩ := ih hlo hb' (fun r hr => hev r (by simp [hr]))
    obtain ⟨ks', rfl⟩ := teslas_of e₂
    have hid' : ∀ r' ∈ l ++ [r], r'.dsmCall.header.dsmId = id := fun r' hr' => (hb _ (List.mem_map_of_mem hr')).1
    have hsince : sinceId ((rs₁ ++ l).map Received.dsmCall) id = l.map Received.dsmCall := by
      rw [List.map_append, sinceId_append_same (by
        intro d hd'
        obtain ⟨q, hq, rfl⟩ := List.mem_map.1 hd'
        exact hid' q (by simp [hq])), sinceId_other, List.nil_append]
      intro d hd'
      rw [List.getLast?_map, Option.map_eq_some_iff] at hd'
      obtain ⟨q, hq, rfl⟩ := hd'
      exact hlast q hq
    have hcomp := completes_of_gen (ds := (rs₁ ++ l).map Received.dsmCall) (p := r.dsmCall) ha (hid' r (by simp))
      (by rw [hsince]; simpa using hb)
    rw [hsince] at hcomp
    have hmap : (l ++ [r]).map Received.dsmCall = l.map Received.dsmCall ++ [r.dsmCall] := by simp
    rw [hmap]
    by_cases hc0 : Complete id (l.map Received.dsmCall)
    · have hnil : l₁ = [] := by
        rcases e₁ with ⟨e, ⟨x, hx, _⟩, _⟩ | ⟨rfl, _⟩
        · exact absurd hc0 ((hcomp x).1 hx).2.1
        · rfl
      subst hnil
      obtain ⟨q, hq, k1, k2, rfl⟩ := i2 hc0
      refine ⟨fun hn => absurd (hc0.snoc _) hn, fun _ => ⟨q, by simp [hq], k1, k2 ++ ks', by simp⟩⟩
    · obtain ⟨k1, rfl⟩ := i1 hc0
      by_cases hc1 : Complete id (l.map Received.dsmCall ++ [r.dsmCall])
      · have hm := hev r (by simp) k1
        have hone : l₁ = [ev r] := by
          rcases e₁ with ⟨e, ⟨x, hx, hm'⟩, rfl⟩ | ⟨_, hn⟩
          · rw [((hcomp x).1 hx).1] at hm'
            rw [hm'.unique hm]
          · exact absurd ⟨data, (hcomp data).2 ⟨rfl, hc0, hc1⟩, hm⟩ (hn _)
        subst hone
        exact ⟨fun hn => absurd hc1 hn, fun _ => ⟨r, by simp, k1, ks', rfl⟩⟩
      · have hnil : l₁ = [] := by
          rcases e₁ with ⟨e, ⟨x, hx, _⟩, _⟩ | ⟨rfl, _⟩
          · exact absurd ((hcomp x).1 hx).2.2 hc1
          · rfl
        subst hnil
        exact ⟨fun _ => ⟨k1 ++ ks', by simp⟩, fun hn => absurd hn hc1⟩

/-- When the id has changed, the blocks of a signed KROOT make the machine emit it. -/
theorem machine_recovers {rs₁ rs₂ : List Received} {log₁ log : List (KeyEvent C)} {id : Nat} {data : List Byte} {hd : NmaHeader}
    {pk : PublicKey C} {key : Key} {f : EcdsaFunction} {n : Nat} (h₁ : KeyMachine root0 pk0 rs₁ log₁)
    (h : KeyMachine root0 pk0 (rs₁ ++ rs₂) log)
    (hlast : ∀ r, rs₁.getLast? = some r → r.dsmCall.header.dsmId ≠ id) (hid : id < 12)
    (hb : BlocksOf id data (rs₂.map Received.dsmCall)) (hh : ∀ r ∈ rs₂, r.header = hd)
    (hpk : (keysHeld pk0 log₁).1 = some pk ∨ (keysHeld pk0 log₁).2 = some pk) (hname : pk.pkid = bitField data 4 4)
    (hsig : SignedKroot C pk.key hd data f n) (hsize : data.length = 13 * (bitField data 0 4 + 6)) (hkey : AnnouncedKey data key)
    (hpad : key.ZeroPadded) :
    (¬ Complete id (rs₂.map Received.dsmCall) → ∃ ks : List Key, log = log₁ ++ ks.map .tesla) ∧
    (Complete id (rs₂.map Received.dsmCall) → ∃ (g : Gst) (ks ks' : List Key),
      log = log₁ ++ ks.map .tesla ++ [.kroot hd data pk key g] ++ ks'.map .tesla) := by
  obtain ⟨hmin, hmax⟩ := hsig.size hsize
  obtain ⟨i1, i2⟩ := machine_recovers_gen (ev := fun r => .kroot hd data pk key r.gst) h₁ h hlast (.kroot hid hsize hmin hmax) hb (by
    intro r hr ks
    have hr' : r.header = hd := hh r hr
    rw [← hr']
    exact .kroot pk key (by rw [(hb _ (List.mem_map_of_mem hr)).1]; exact hid) (by rw [keysHeld_teslas]; exact hpk) hname
      ⟨f, n, by rw [hr']; exact hsig⟩ hkey hpad)
  refine ⟨i1, fun hc => ?_⟩
  obtain ⟨r, _, ks, ks', e⟩ := i2 hc
  exact ⟨r.gst, ks, ks', e⟩

theorem alertIn_teslas {log : List (KeyEvent C)} (h : ¬ AlertIn log) (ks : List Key) : ¬ AlertIn (log ++ ks.map .tesla) := by
  rintro ⟨e, he, ha⟩
  rcases List.mem_append.1 he with he | he
  · exact h ⟨e, he, ha⟩
  · obtain ⟨k, _, rfl⟩ := List.mem_map.1 he
    exact ha

/-- When the id has changed, the blocks of a DSM-PKR with a proved key make the machine emit it. -/
theorem machine_recovers_pkr {rs₁ rs₂ : List Received} {log₁ log : List (KeyEvent C)} {id : Nat} {data : List Byte} {root : MerkleTreeNode}
    {pk : PublicKey C} (h₁ : KeyMachine (some root) pk0 rs₁ log₁) (h : KeyMachine (some root) pk0 (rs₁ ++ rs₂) log)
    (hlast : ∀ r, rs₁.getLast? = some r → r.dsmCall.header.dsmId ≠ id) (hid : 12 ≤ id)
    (hb : BlocksOf id data (rs₂.map Received.dsmCall)) (hna : ¬ AlertIn log₁)
    (hsize : data.length = 13 * (bitField data 0 4 + 6)) (hmax : bitField data 0 4 ≤ 10) (hpk : MerkleProvedKey C root.val data pk) :
    (¬ Complete id (rs₂.map Received.dsmCall) → ∃ ks : List Key, log = log₁ ++ ks.map .tesla) ∧
    (Complete id (rs₂.map Received.dsmCall) → ∃ ks ks' : List Key, log = log₁ ++ ks.map .tesla ++ [.pkr data pk] ++ ks'.map .tesla) := by
  have hmin : 7 ≤ bitField data 0 4 := by
    have : 163 ≤ data.length := by
      rcases hpk.key with ⟨_, h, _⟩ | ⟨_, h, _⟩ <;> omega
    omega
  obtain ⟨i1, i2⟩ := machine_recovers_gen (ev := fun _ => .pkr data pk) h₁ h hlast (.pkr hid hsize hmin hmax) hb (by
    intro r hr ks
    exact .pkr root pk (by rw [(hb _ (List.mem_map_of_mem hr)).1]; exact hid) rfl (alertIn_teslas hna ks) hpk)
  refine ⟨i1, fun hc => ?_⟩
  obtain ⟨r, _, ks, ks', e⟩ := i2 hc
  exact ⟨ks, ks', e⟩

theorem ReceivedIn.nil_inv {rs : List Received} (h : ReceivedIn [] rs) : rs = [] := h.unique .nil

/-- The subframes completed by a prefix of the pages. -/
theorem ReceivedIn.prefix {ps qs : List Page} {rs : List Received} (h : ReceivedIn (ps ++ qs) rs) :
    ∃ rs₁ rs₂, ReceivedIn ps rs₁ ∧ rs = rs₁ ++ rs₂ := by
  induction qs using snoc_induction generalizing rs with
  | h0 => rw [List.append_nil] at h; exact ⟨rs, [], h, by simp⟩
  | h1 l p ih =>
    rw [← List.append_assoc] at h
    generalize hx : ps ++ l ++ [p] = x at h
    cases h with
    | nil => simp at hx
    | skip p' h' hn =>
      obtain ⟨rfl, rfl⟩ := append_singleton_cancel hx
      exact ih h'
    | got p' r' h' hr =>
      obtain ⟨rfl, rfl⟩ := append_singleton_cancel hx
      obtain ⟨a, b, e1, e2⟩ := ih h'
      exact ⟨a, b ++ [r'], e1, by rw [e2]; simp⟩

end Verif
