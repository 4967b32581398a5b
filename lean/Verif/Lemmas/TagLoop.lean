import Verif.Lemmas.Tags

/-! # Lemmas: the effect of a whole MACK on the store -/

namespace Verif

theorem tagsGain_congr {C : Crypto} {key : Key} {prna : Svn} {gst : Gst} {st : NmaStatus} {nbits : Nat}
    {e e' : Svn → Option NavItem} (h : SameEntry e e') (ts : List TagSpec) (x : NavItem) :
    tagsGain C key prna gst st nbits e ts x = tagsGain C key prna gst st nbits e' ts x := by
  unfold tagsGain
  congr 1
  apply List.map_congr_left
  intro t _
  exact tagGain_congr h t x

namespace CollectNavMessage
variable {S : Storage} {C : Crypto}

/-- Gains of the tags of a given ADKD of a list, for the CED. -/
noncomputable def cedGain (S : Storage) (C : Crypto) (n : CollectNavMessage) (key : Key) (prna : Svn) (gst : Gst) (st : NmaStatus)
    (gnav : Gst) (adkd : Nat) (ts : List TagSpec) : NavItem → Nat :=
  tagsGain C key prna gst st 549 (n.entryAt S n.ced gnav) (ts.filter (fun t => t.adkd == adkd))

/-- Gains of the ADKD 4 tags of a list, for the timing parameters. -/
noncomputable def timingGain (S : Storage) (C : Crypto) (n : CollectNavMessage) (key : Key) (prna : Svn) (gst : Gst)
    (st : NmaStatus) (gnav : Gst) (ts : List TagSpec) : NavItem → Nat :=
  tagsGain C key prna gst st 141 (n.entryAt S n.timing gnav) (ts.filter (fun t => t.adkd == 4))

section
variable {key : Key} {prna : Svn} {gst gnav : Gst} {st : NmaStatus}

theorem cedGain_gains (n : CollectNavMessage) (a b : NavItem → Nat) (adkd : Nat) (ts : List TagSpec) :
    cedGain S C (n.gains a b) key prna gst st gnav adkd ts = cedGain S C n key prna gst st gnav adkd ts := by
  funext x
  exact tagsGain_congr (entryAt_gains n n.ced gnav a) _ x

theorem timingGain_gains (n : CollectNavMessage) (a b : NavItem → Nat) (ts : List TagSpec) :
    timingGain S C (n.gains a b) key prna gst st gnav ts = timingGain S C n key prna gst st gnav ts := by
  funext x
  exact tagsGain_congr (entryAt_gains n n.timing gnav b) _ x

theorem cedGain_cons (n : CollectNavMessage) (adkd : Nat) (t : TagSpec) (ts : List TagSpec) (x : NavItem) :
    cedGain S C n key prna gst st gnav adkd (t :: ts) x =
      cedGain S C n key prna gst st gnav adkd [t] x + cedGain S C n key prna gst st gnav adkd ts x := by
  unfold cedGain
  rw [← tagsGain_append, ← List.filter_append]; rfl

theorem timingGain_cons (n : CollectNavMessage) (t : TagSpec) (ts : List TagSpec) (x : NavItem) :
    timingGain S C n key prna gst st gnav (t :: ts) x =
      timingGain S C n key prna gst st gnav [t] x + timingGain S C n key prna gst st gnav ts x := by
  unfold timingGain
  rw [← tagsGain_append, ← List.filter_append]; rfl

theorem gains_gains (n : CollectNavMessage) {a b a' b' : NavItem → Nat} (ha : ∀ x m, a' (x.addAuthbits m) = a' x)
    (hb : ∀ x m, b' (x.addAuthbits m) = b' x) :
    (n.gains a b).gains a' b' = n.gains (fun x => a x + a' x) (fun x => b x + b' x) := by
  unfold gains
  dsimp only
  rw [addGains_addGains ha, addGains_addGains hb]

theorem gains_zero {n : CollectNavMessage} (hc : AuthOk n.ced) (ht : AuthOk n.timing) {a b : NavItem → Nat}
    (ha : ∀ x ∈ n.ced, a x = 0) (hb : ∀ x ∈ n.timing, b x = 0) : n.gains a b = n := by
  unfold gains
  rw [addGains_zero hc ha, addGains_zero ht hb]

theorem gains_ced_only {n : CollectNavMessage} (ht : AuthOk n.timing) {a b : NavItem → Nat} (hb : ∀ x ∈ n.timing, b x = 0) :
    n.gains a b = { n with ced := addGains a n.ced } := by
  unfold gains
  rw [addGains_zero ht hb]

theorem gains_timing_only {n : CollectNavMessage} (hc : AuthOk n.ced) {a b : NavItem → Nat} (ha : ∀ x ∈ n.ced, a x = 0) :
    n.gains a b = { n with timing := addGains b n.timing } := by
  unfold gains
  rw [addGains_zero hc ha]

theorem cedGain_one (n : CollectNavMessage) (adkd : Nat) {t : TagSpec} (x : NavItem) :
    cedGain S C n key prna gst st gnav adkd [t] x =
      if t.adkd = adkd then tagGain C key prna gst st 549 (n.entryAt S n.ced gnav) t x else 0 := by
  unfold cedGain
  by_cases h : t.adkd = adkd
  · simp [h, tagsGain]
  · simp [h, tagsGain]

theorem timingGain_one (n : CollectNavMessage) {t : TagSpec} (x : NavItem) :
    timingGain S C n key prna gst st gnav [t] x =
      if t.adkd = 4 then tagGain C key prna gst st 141 (n.entryAt S n.timing gnav) t x else 0 := by
  unfold timingGain
  by_cases h : t.adkd = 4
  · simp [h, tagsGain]
  · simp [h, tagsGain]

theorem tagGain_no_svn {nbits : Nat} {e : Svn → Option NavItem} {t : TagSpec} (h : ¬ (1 ≤ t.prnd ∧ t.prnd ≤ 36)) (x : NavItem) :
    tagGain C key prna gst st nbits e t x = 0 := by
  apply tagGain_eq_zero
  rintro ⟨_, _, svn, _, h3, _⟩
  have := svn.h1; have := svn.h36
  omega

theorem adkdOf_eq (n : Nat) : (Mack.adkdOf n = .InavCed ↔ n = 0) ∧ (Mack.adkdOf n = .InavTiming ↔ n = 4) ∧
    (Mack.adkdOf n = .SlowMac ↔ n = 12) := by
  unfold Mack.adkdOf
  split <;> simp_all

theorem prnd_cases (n : Nat) :
    (∃ s : Svn, s.val = n ∧ (Mack.prndOf n).toU8 = some n ∧ Svn.tryFrom (n : Int) = some s) ∨
    (¬ (1 ≤ n ∧ n ≤ 36) ∧ ((Mack.prndOf n).toU8 = none ∨ ∃ m, (Mack.prndOf n).toU8 = some m ∧ Svn.tryFrom (m : Int) = none)) := by
  by_cases h : 1 ≤ n ∧ n ≤ 36
  · left
    refine ⟨⟨n, h.1, h.2⟩, rfl, ?_, ?_⟩
    · simp [Mack.prndOf, h, Prnd.toU8]
    · exact Svn.tryFrom_val ⟨n, h.1, h.2⟩
  · right
    refine ⟨h, ?_⟩
    by_cases h255 : n = 255
    · right
      exact ⟨255, by subst h255; rfl, by decide⟩
    · left
      simp [Mack.prndOf, h, h255, Prnd.toU8]

variable {msg : MackMessage} {n : CollectNavMessage} {c : Chain}

/-- The effect of tag number `j`, fast MAC. -/
theorem processTagJ_eq (hu : key.MacUsable) (ha : gnav.isSubframe = true) (hl : Lens S n) (hc : AuthOk n.ced)
    (ht : AuthOk n.timing) {j : Nat} (hj0 : 0 < j) (hj : j < c.numTags) :
    processTagJ S C key (mackOf msg c) prna gst gnav st n j =
      .ok (n.gains (cedGain S C n key prna gst st gnav 0 [mackTag (bitsOf msg.val) c.tagSizeBits prna j])
        (timingGain S C n key prna gst st gnav [mackTag (bitsOf msg.val) c.tagSizeBits prna j])) := by
  have hnt := c.numTags_le
  have hts := c.tagSize_le
  obtain ⟨f1, f2, f3, f4, _, f6, f7⟩ := Mack.tagBlock_fields msg c prna hj0 hj
  have fcop := Mack.mackTag_cop_lt (bitsOf msg.val) c.tagSizeBits prna j
  unfold processTagJ
  rw [Mack.tagAndInfo_ok msg c hj0 hj]
  simp only [Res.ok_bind, f1, f2, f3, f4]
  generalize ht' : mackTag (bitsOf msg.val) c.tagSizeBits prna j = t at *
  have had := adkdOf_eq t.adkd
  rcases prnd_cases t.prnd with ⟨s, h1, h2, h3⟩ | ⟨h1, h2⟩
  · simp only [h2]
    cases hadk : Mack.adkdOf t.adkd with
    | InavCed =>
      have h0 := had.1.1 hadk
      simp only [h3]
      rw [processCedTag_eq hu f6 (by omega) (by omega) fcop h1 ha hl hc, gains_ced_only ht]
      · congr 2
        apply addGains_congr
        intro x _
        rw [cedGain_one, if_pos h0]
      · intro x _
        rw [timingGain_one, if_neg (by omega)]
    | InavTiming =>
      have h0 := had.2.1.1 hadk
      simp only [h3]
      rw [processTimingTag_eq hu f6 (by omega) (by omega) fcop h1 ha hl ht, gains_timing_only hc]
      · congr 2
        apply addGains_congr
        intro x _
        rw [timingGain_one, if_pos h0]
      · intro x _
        rw [cedGain_one, if_neg (by omega)]
    | SlowMac =>
      have h0 := had.2.2.1 hadk
      simp only [Res.pure_eq]
      rw [gains_zero hc ht]
      · intro x _; rw [cedGain_one, if_neg (by omega)]
      · intro x _; rw [timingGain_one, if_neg (by omega)]
    | Reserved =>
      have h0 : t.adkd ≠ 0 := fun h => by rw [had.1.2 h] at hadk; cases hadk
      have h4 : t.adkd ≠ 4 := fun h => by rw [had.2.1.2 h] at hadk; cases hadk
      simp only [Res.pure_eq]
      rw [gains_zero hc ht]
      · intro x _; rw [cedGain_one, if_neg h0]
      · intro x _; rw [timingGain_one, if_neg h4]
  · have hz : n.gains (cedGain S C n key prna gst st gnav 0 [t]) (timingGain S C n key prna gst st gnav [t]) = n := by
      apply gains_zero hc ht
      · intro x _
        rw [cedGain_one]
        split
        · exact tagGain_no_svn h1 x
        · rfl
      · intro x _
        rw [timingGain_one]
        split
        · exact tagGain_no_svn h1 x
        · rfl
    rw [hz]
    rcases h2 with h2 | ⟨m, h2, h3⟩
    · simp [h2]
    · simp only [h2, h3]
      cases Mack.adkdOf t.adkd <;> rfl

/-- The effect of tag number `j`, Slow MAC. -/
theorem processSlowTagJ_eq (hu : key.MacUsable) (ha : gnav.isSubframe = true) (hl : Lens S n) (hc : AuthOk n.ced)
    (ht : AuthOk n.timing) {j : Nat} (hj0 : 0 < j) (hj : j < c.numTags) :
    processSlowTagJ S C key (mackOf msg c) prna gst gnav st n j =
      .ok (n.gains (cedGain S C n key prna gst st gnav 12 [mackTag (bitsOf msg.val) c.tagSizeBits prna j])
        (fun _ => 0)) := by
  have hnt := c.numTags_le
  have hts := c.tagSize_le
  obtain ⟨f1, f2, f3, f4, _, f6, f7⟩ := Mack.tagBlock_fields msg c prna hj0 hj
  have fcop := Mack.mackTag_cop_lt (bitsOf msg.val) c.tagSizeBits prna j
  unfold processSlowTagJ
  rw [Mack.tagAndInfo_ok msg c hj0 hj]
  simp only [Res.ok_bind, f1, f2, f3, f4]
  generalize ht' : mackTag (bitsOf msg.val) c.tagSizeBits prna j = t at *
  have had := adkdOf_eq t.adkd
  by_cases h12 : t.adkd = 12
  · simp only [had.2.2.2 h12, ne_eq, not_true_eq_false, if_false]
    rcases prnd_cases t.prnd with ⟨s, h1, h2, h3⟩ | ⟨h1, h2⟩
    · simp only [h2, h3]
      rw [processCedTag_eq hu f6 (by omega) (by omega) fcop h1 ha hl hc, gains_ced_only ht (by intros; rfl)]
      congr 2
      apply addGains_congr
      intro x _
      rw [cedGain_one, if_pos h12]
    · have hz : n.gains (cedGain S C n key prna gst st gnav 12 [t]) (fun _ => 0) = n := by
        apply gains_zero hc ht
        · intro x _
          rw [cedGain_one, if_pos h12]
          exact tagGain_no_svn h1 x
        · intros; rfl
      rw [hz]
      rcases h2 with h2 | ⟨m, h2, h3⟩
      · simp [h2]
      · simp only [h2, h3]; rfl
  · have hne : Mack.adkdOf t.adkd ≠ .SlowMac := fun h => h12 (had.2.2.1 h)
    rw [if_pos hne]
    simp only [Res.pure_eq]
    rw [gains_zero hc ht]
    · intro x _; rw [cedGain_one, if_neg h12]
    · intros; rfl

theorem loop_fast (hu : key.MacUsable) (ha : gnav.isSubframe = true) (js : List Nat)
    (hjs : ∀ j ∈ js, 0 < j ∧ j < c.numTags) :
    ∀ {n : CollectNavMessage}, Lens S n → AuthOk n.ced → AuthOk n.timing →
    loopM (processTagJ S C key (mackOf msg c) prna gst gnav st) js n =
      .ok (n.gains (cedGain S C n key prna gst st gnav 0 (js.map (mackTag (bitsOf msg.val) c.tagSizeBits prna)))
        (timingGain S C n key prna gst st gnav (js.map (mackTag (bitsOf msg.val) c.tagSizeBits prna)))) := by
  induction js with
  | nil =>
    intro n hl hc ht
    rw [loopM_nil, gains_zero hc ht]
    · intros; rfl
    · intros; rfl
  | cons j js ih =>
    intro n hl hc ht
    have hj := hjs j (by simp)
    rw [loopM_cons, processTagJ_eq hu ha hl hc ht hj.1 hj.2]
    simp only [Res.ok_bind]
    rw [ih (fun k hk => hjs k (List.mem_cons_of_mem _ hk)) (hl.gains _ _) (addGains_ok _ _) (addGains_ok _ _)]
    rw [cedGain_gains, timingGain_gains, gains_gains]
    · congr 2
      · funext x; exact (cedGain_cons _ _ _ _ x).symm
      · funext x; exact (timingGain_cons _ _ _ x).symm
    · intros; rfl
    · intros; rfl

theorem loop_slow (hu : key.MacUsable) (ha : gnav.isSubframe = true) (js : List Nat)
    (hjs : ∀ j ∈ js, 0 < j ∧ j < c.numTags) :
    ∀ {n : CollectNavMessage}, Lens S n → AuthOk n.ced → AuthOk n.timing →
    loopM (processSlowTagJ S C key (mackOf msg c) prna gst gnav st) js n =
      .ok (n.gains (cedGain S C n key prna gst st gnav 12 (js.map (mackTag (bitsOf msg.val) c.tagSizeBits prna)))
        (fun _ => 0)) := by
  induction js with
  | nil =>
    intro n hl hc ht
    rw [loopM_nil, gains_zero hc ht]
    · intros; rfl
    · intros; rfl
  | cons j js ih =>
    intro n hl hc ht
    have hj := hjs j (by simp)
    rw [loopM_cons, processSlowTagJ_eq hu ha hl hc ht hj.1 hj.2]
    simp only [Res.ok_bind]
    rw [ih (fun k hk => hjs k (List.mem_cons_of_mem _ hk)) (hl.gains _ _) (addGains_ok _ _) (addGains_ok _ _)]
    rw [cedGain_gains, gains_gains]
    · congr 2
      · funext x; exact (cedGain_cons _ _ _ _ x).symm
    · intros; rfl
    · intros; rfl

theorem mackTags_eq (msg : MackMessage) (c : Chain) (prna : Svn) :
    mackTags msg c prna = mackTag (bitsOf msg.val) c.tagSizeBits prna 0 ::
      (List.range' 1 (c.numTags - 1)).map (mackTag (bitsOf msg.val) c.tagSizeBits prna) := by
  have := c.numTags_pos
  unfold mackTags
  have : (480 - 8 * c.keySizeBytes) / (c.tagSizeBits + 16) = (c.numTags - 1) + 1 := by
    show c.numTags = _; omega
  rw [this, List.range_eq_range', List.range'_succ]
  rfl

/-- The effect of a MACK, fast MAC: every stored item gains exactly the lengths of the tags of the
MACK that count for it. -/
theorem processMack_eq (hu : key.MacUsable) (hg : gst.addSeconds (-30) = .ok gnav) (ha : gnav.isSubframe = true)
    (hl : Lens S n) (hc : AuthOk n.ced) (ht : AuthOk n.timing) :
    processMack S C n (mackOf msg c) key prna gst st =
      .ok (n.gains (cedGain S C n key prna gst st gnav 0 (mackTags msg c prna))
        (timingGain S C n key prna gst st gnav (mackTags msg c prna))) := by
  have hts := c.tagSize_le
  unfold processMack
  rw [hg, Mack.cop_ok msg c prna, Mack.tag0_ok msg c prna, Mack.numTags_ok]
  simp only [Res.ok_bind]
  have f7 := Mack.mackTag_zero_len msg c prna
  have h0 : (mackTag (bitsOf msg.val) c.tagSizeBits prna 0).ctr = 0 + 1 := rfl
  have hsv : prna.val = (mackTag (bitsOf msg.val) c.tagSizeBits prna 0).prnd := rfl
  have had : (mackTag (bitsOf msg.val) c.tagSizeBits prna 0).adkd = 0 := rfl
  rw [processCedTag_eq hu h0 (by omega) (by omega) (Mack.mackTag_cop_lt _ _ _ _) hsv ha hl hc]
  simp only [Res.ok_bind]
  rw [mackTags_eq]
  generalize mackTag (bitsOf msg.val) c.tagSizeBits prna 0 = t0 at *
  have e1 : ({ n with ced := addGains (tagGain C key prna gst st 549 (n.entryAt S n.ced gnav) t0) n.ced } : CollectNavMessage)
      = n.gains (cedGain S C n key prna gst st gnav 0 [t0]) (timingGain S C n key prna gst st gnav [t0]) := by
    rw [gains_ced_only ht]
    · congr 1
      apply addGains_congr
      intro x _
      rw [cedGain_one, if_pos had]
    · intro x _; rw [timingGain_one, if_neg (by omega)]
  rw [e1, loop_fast hu ha _ _ (hl.gains _ _) (addGains_ok _ _) (addGains_ok _ _),
    cedGain_gains, timingGain_gains, gains_gains]
  · congr 2
    · funext x; exact (cedGain_cons _ _ _ _ x).symm
    · funext x; exact (timingGain_cons _ _ _ x).symm
  · intros; rfl
  · intros; rfl
  · intro j hj
    rw [List.mem_range'_1] at hj
    omega

/-- The effect of a MACK, Slow MAC. -/
theorem processMackSlowmac_eq (hu : key.MacUsable) (hg : gst.addSeconds (-30) = .ok gnav) (ha : gnav.isSubframe = true)
    (hl : Lens S n) (hc : AuthOk n.ced) (ht : AuthOk n.timing) :
    processMackSlowmac S C n (mackOf msg c) key prna gst st =
      .ok (n.gains (cedGain S C n key prna gst st gnav 12 (mackTags msg c prna)) (fun _ => 0)) := by
  unfold processMackSlowmac
  rw [hg, Mack.numTags_ok]
  simp only [Res.ok_bind]
  rw [loop_slow hu ha _ _ hl hc ht, mackTags_eq]
  · congr 2
  · intro j hj
    rw [List.mem_range'_1] at hj
    omega

/-- Without any assumption on the key: if a CED tag does not make the code panic, it has the same
effect. -/
theorem processCedTag_of_ok {t : TagSpec} {j : Nat} (hct : t.ctr = j + 1) (hj : j + 1 ≤ 255)
    (ht : t.tag.length ≤ 128) (hc16 : t.cop < 16) {svn : Svn} (hsv : svn.val = t.prnd)
    (ha : gnav.isSubframe = true) (hl : Lens S n) (hok : AuthOk n.ced) {n' : CollectNavMessage}
    (h : processCedTag S C n key t.tag t.cop gst gnav svn prna j st = .ok n') :
    n' = { n with ced := addGains (tagGain C key prna gst st 549 (n.entryAt S n.ced gnav) t) n.ced } := by
  by_cases hu : key.MacUsable
  · rw [processCedTag_eq hu hct hj ht hc16 hsv ha hl hok] at h
    cases h; rfl
  · unfold processCedTag at h
    by_cases hcop : t.cop = 0
    · rw [if_pos hcop] at h
      obtain ⟨b, hb, _⟩ := Res.bind_eq_ok.1 h
      exfalso
      unfold validateDummyTag at hb
      simp only [hj, decide_true, Res.assert_true, Res.ok_bind] at hb
      split at hb
      · rw [Key.validateTag0Dummy_eq _ _ _ _ _ (by decide)] at hb
        exact hu (Key.validateTag0_usable hb)
      · rw [Key.validateTagDummy_eq _ _ _ _ _ _ _ (by decide)] at hb
        exact hu (Key.validateTag_usable hb)
    · rw [if_neg hcop, findItem_eq hl.lc hl.lg ha] at h
      simp only [Res.ok_bind] at h
      cases he : n.entryAt S n.ced gnav svn with
      | none =>
        rw [he] at h
        simp only [Res.pure_eq, Res.ok.injEq] at h
        rw [addGains_zero hok (fun x _ => gain_zero_of_entry hsv (.inr (by intro y hy; rw [he] at hy; cases hy)) x)]
        exact h.symm
      | some y =>
        rw [he] at h
        dsimp only at h
        by_cases hage : y.maxAge + 1 ≤ t.cop
        · rw [if_pos (by omega)] at h
          obtain ⟨b, hb, _⟩ := Res.bind_eq_ok.1 h
          exfalso
          unfold validateTag at hb
          simp only [hj, decide_true, Res.assert_true, Res.ok_bind] at hb
          split at hb
          · obtain ⟨r, hr, _⟩ := Res.bind_eq_ok.1 hb
            exact hu (Key.validateTag0_usable hr)
          · obtain ⟨r, hr, _⟩ := Res.bind_eq_ok.1 hb
            exact hu (Key.validateTag_usable hr)
        · rw [if_neg (by omega)] at h
          simp only [Res.pure_eq, Res.ok.injEq] at h
          rw [addGains_zero hok (fun x _ => gain_zero_of_entry hsv (.inr (by intro y' hy; rw [he] at hy; cases hy; exact hage)) x)]
          exact h.symm

theorem processSlowTagJ_of_ok (ha : gnav.isSubframe = true) (hl : Lens S n) (hc : AuthOk n.ced)
    (ht : AuthOk n.timing) {j : Nat} (hj0 : 0 < j) (hj : j < c.numTags) {n' : CollectNavMessage}
    (h : processSlowTagJ S C key (mackOf msg c) prna gst gnav st n j = .ok n') :
    n' = n.gains (cedGain S C n key prna gst st gnav 12 [mackTag (bitsOf msg.val) c.tagSizeBits prna j])
        (fun _ => 0) := by
  by_cases hu : key.MacUsable
  · rw [processSlowTagJ_eq hu ha hl hc ht hj0 hj] at h
    cases h; rfl
  have hnt := c.numTags_le
  have hts := c.tagSize_le
  obtain ⟨f1, f2, f3, f4, _, f6, f7⟩ := Mack.tagBlock_fields msg c prna hj0 hj
  have fcop := Mack.mackTag_cop_lt (bitsOf msg.val) c.tagSizeBits prna j
  unfold processSlowTagJ at h
  rw [Mack.tagAndInfo_ok msg c hj0 hj] at h
  simp only [Res.ok_bind, f1, f2, f3, f4] at h
  generalize ht' : mackTag (bitsOf msg.val) c.tagSizeBits prna j = t at *
  have had := adkdOf_eq t.adkd
  by_cases h12 : t.adkd = 12
  · simp only [had.2.2.2 h12, ne_eq, not_true_eq_false, if_false] at h
    rcases prnd_cases t.prnd with ⟨s, h1, h2, h3⟩ | ⟨h1, h2⟩
    · simp only [h2, h3] at h
      rw [processCedTag_of_ok f6 (by omega) (by omega) fcop h1 ha hl hc h, gains_ced_only ht (by intros; rfl)]
      congr 1
      apply addGains_congr
      intro x _
      rw [cedGain_one, if_pos h12]
    · have hz : n.gains (cedGain S C n key prna gst st gnav 12 [t]) (fun _ => 0) = n := by
        apply gains_zero hc ht
        · intro x _
          rw [cedGain_one, if_pos h12]
          exact tagGain_no_svn h1 x
        · intros; rfl
      rw [hz]
      rcases h2 with h2 | ⟨m, h2, h3⟩
      · simp only [h2, Res.pure_eq, Res.ok.injEq] at h; exact h.symm
      · simp only [h2, h3, Res.pure_eq, Res.ok.injEq] at h; exact h.symm
  · have hne : Mack.adkdOf t.adkd ≠ .SlowMac := fun h => h12 (had.2.2.1 h)
    rw [if_pos hne] at h
    simp only [Res.pure_eq, Res.ok.injEq] at h
    rw [gains_zero hc ht]
    · exact h.symm
    · intro x _; rw [cedGain_one, if_neg h12]
    · intros; rfl

theorem loop_slow_of_ok (ha : gnav.isSubframe = true) (js : List Nat)
    (hjs : ∀ j ∈ js, 0 < j ∧ j < c.numTags) :
    ∀ {n n' : CollectNavMessage}, Lens S n → AuthOk n.ced → AuthOk n.timing →
    loopM (processSlowTagJ S C key (mackOf msg c) prna gst gnav st) js n = .ok n' →
      n' = n.gains (cedGain S C n key prna gst st gnav 12 (js.map (mackTag (bitsOf msg.val) c.tagSizeBits prna)))
        (fun _ => 0) := by
  induction js with
  | nil =>
    intro n n' hl hc ht h
    rw [loopM_nil] at h
    cases h
    rw [gains_zero hc ht]
    · intros; rfl
    · intros; rfl
  | cons j js ih =>
    intro n n' hl hc ht h
    have hj := hjs j (by simp)
    rw [loopM_cons] at h
    obtain ⟨n1, h1, h2⟩ := Res.bind_eq_ok.1 h
    have e1 := processSlowTagJ_of_ok ha hl hc ht hj.1 hj.2 h1
    subst e1
    have e2 := ih (fun k hk => hjs k (List.mem_cons_of_mem _ hk)) (hl.gains _ _) (addGains_ok _ _) (addGains_ok _ _) h2
    rw [e2, cedGain_gains, gains_gains]
    · congr 1
      · funext x; exact (cedGain_cons _ _ _ _ x).symm
    · intros; rfl
    · intros; rfl

theorem processMackSlowmac_of_ok (hg : gst.addSeconds (-30) = .ok gnav) (ha : gnav.isSubframe = true)
    (hl : Lens S n) (hc : AuthOk n.ced) (ht : AuthOk n.timing) {n' : CollectNavMessage}
    (h : processMackSlowmac S C n (mackOf msg c) key prna gst st = .ok n') :
    n' = n.gains (cedGain S C n key prna gst st gnav 12 (mackTags msg c prna)) (fun _ => 0) := by
  unfold processMackSlowmac at h
  rw [hg, Mack.numTags_ok] at h
  simp only [Res.ok_bind] at h
  rw [loop_slow_of_ok ha _ _ hl hc ht h, mackTags_eq]
  · congr 1
  · intro j hj
    rw [List.mem_range'_1] at hj
    omega

end
end CollectNavMessage
end Verif
