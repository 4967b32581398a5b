import Verif.Spec.NavApi
import Verif.Lemmas.Authentic

/-! # Lemmas: `CollectNavMessage` used directly -/

namespace Verif
open CollectNavMessage
open CollectSubframe (snoc_induction)

namespace CollectNavMessage
variable {S : Storage} {C : Crypto} {key : Key} {prna : Svn} {gst gnav : Gst} {st : NmaStatus} {n n' : CollectNavMessage}

theorem findItem_aligned {arr : List NavItem} {svn : Svn} {r : Option NavItem} (h : findItem S n arr svn gnav = .ok r) :
    gnav.isSubframe = true := by
  unfold findItem findGst at h
  obtain ⟨_, h1, _⟩ := Res.bind_eq_ok.1 h
  obtain ⟨_, h2, _⟩ := Res.bind_eq_ok.1 h1
  exact Res.assert_eq_ok.1 h2

theorem validateTag_usable {tag : List Bool} {p j nbits : Nat} {y : NavItem} {arr arr' : List NavItem}
    (h : validateTag C key tag gst p prna j st nbits y arr = .ok arr') : key.MacUsable := by
  unfold validateTag at h
  obtain ⟨_, _, h1⟩ := Res.bind_eq_ok.1 h
  dsimp only at h1
  split at h1
  · obtain ⟨r, h2, _⟩ := Res.bind_eq_ok.1 h1
    exact Key.validateTag0_usable h2
  · obtain ⟨r, h2, _⟩ := Res.bind_eq_ok.1 h1
    exact Key.validateTag_usable h2

/-- With an unusable key or time, a tag that does not make the code panic has no effect. -/
theorem processCedTag_skip (hs : ¬ (key.MacUsable ∧ gnav.isSubframe = true)) {tag : List Bool} {cop j : Nat} {svn : Svn}
    (h : processCedTag S C n key tag cop gst gnav svn prna j st = .ok n') : n' = n := by
  unfold processCedTag at h
  split at h
  · obtain ⟨_, _, h2⟩ := Res.bind_eq_ok.1 h
    exact (Res.ok.inj h2).symm
  · obtain ⟨r, h1, h2⟩ := Res.bind_eq_ok.1 h
    cases r with
    | none => exact (Res.ok.inj h2).symm
    | some y =>
      dsimp only at h2
      split at h2
      · obtain ⟨a, h3, _⟩ := Res.bind_eq_ok.1 h2
        exact absurd ⟨validateTag_usable h3, findItem_aligned h1⟩ hs
      · exact (Res.ok.inj h2).symm

theorem processTimingTag_skip (hs : ¬ (key.MacUsable ∧ gnav.isSubframe = true)) {tag : List Bool} {cop j : Nat} {svn : Svn}
    (h : processTimingTag S C n key tag cop gst gnav svn prna j st = .ok n') : n' = n := by
  unfold processTimingTag at h
  split at h
  · obtain ⟨_, _, h2⟩ := Res.bind_eq_ok.1 h
    exact (Res.ok.inj h2).symm
  · obtain ⟨r, h1, h2⟩ := Res.bind_eq_ok.1 h
    cases r with
    | none => exact (Res.ok.inj h2).symm
    | some y =>
      dsimp only at h2
      split at h2
      · obtain ⟨a, h3, _⟩ := Res.bind_eq_ok.1 h2
        exact absurd ⟨validateTag_usable h3, findItem_aligned h1⟩ hs
      · exact (Res.ok.inj h2).symm

theorem processTagJ_skip (hs : ¬ (key.MacUsable ∧ gnav.isSubframe = true)) {mack : Mack} {j : Nat}
    (h : processTagJ S C key mack prna gst gnav st n j = .ok n') : n' = n := by
  unfold processTagJ at h
  obtain ⟨t, _, h⟩ := Res.bind_eq_ok.1 h
  split at h
  · exact (Res.ok.inj h).symm
  · split at h
    · split at h
      · exact processCedTag_skip hs h
      · exact (Res.ok.inj h).symm
    · split at h
      · exact processTimingTag_skip hs h
      · exact (Res.ok.inj h).symm
    · exact (Res.ok.inj h).symm
    · exact (Res.ok.inj h).symm

theorem processSlowTagJ_skip (hs : ¬ (key.MacUsable ∧ gnav.isSubframe = true)) {mack : Mack} {j : Nat}
    (h : processSlowTagJ S C key mack prna gst gnav st n j = .ok n') : n' = n := by
  unfold processSlowTagJ at h
  obtain ⟨t, _, h⟩ := Res.bind_eq_ok.1 h
  split at h
  · exact (Res.ok.inj h).symm
  · split at h
    · exact (Res.ok.inj h).symm
    · split at h
      · exact processCedTag_skip hs h
      · exact (Res.ok.inj h).symm

theorem loopM_skip {α : Type} {f : CollectNavMessage → α → Res CollectNavMessage} (hf : ∀ n n' a, f n a = .ok n' → n' = n)
    (l : List α) : ∀ {n n'}, loopM f l n = .ok n' → n' = n := by
  induction l with
  | nil => intro n n' h; rw [loopM_nil] at h; exact (Res.ok.inj h).symm
  | cons a l ih =>
    intro n n' h
    rw [loopM_cons] at h
    obtain ⟨m, h1, h2⟩ := Res.bind_eq_ok.1 h
    rw [ih h2, hf _ _ _ h1]

/-- A MACK that does not make the code panic has the effect of its tags, or (unusable key or time) none. -/
theorem processMack_effect {msg : MackMessage} {c : Chain} (hi : Inv S n)
    (h : processMack S C n (.new msg c.keySizeBits c.tagSizeBits) key prna gst st = .ok n') :
    n' = n.useGains S C (tagUses msg c key prna gst st 0) (tagUses msg c key prna gst st 4) ∨ n' = n := by
  have h' := h
  unfold processMack at h'
  obtain ⟨gnav, hg, h'⟩ := Res.bind_eq_ok.1 h'
  by_cases hs : key.MacUsable ∧ gnav.isSubframe = true
  · left
    have e := processMack_eq (S := S) (C := C) (msg := msg) (c := c) (prna := prna) (st := st) hs.1 hg hs.2 hi.lens hi.okc hi.okt
    unfold mackOf at e
    rw [e] at h
    rw [← Res.ok.inj h]
    unfold useGains tagUses
    rw [usesGain_map hg, usesGain_map hg]
    rfl
  · right
    obtain ⟨_, _, h'⟩ := Res.bind_eq_ok.1 h'
    obtain ⟨_, _, h'⟩ := Res.bind_eq_ok.1 h'
    obtain ⟨m, h1, h'⟩ := Res.bind_eq_ok.1 h'
    obtain ⟨_, _, h'⟩ := Res.bind_eq_ok.1 h'
    rw [loopM_skip (fun _ _ _ => processTagJ_skip hs) _ h', processCedTag_skip hs h1]

theorem processMackSlowmac_effect {msg : MackMessage} {c : Chain} (hi : Inv S n)
    (h : processMackSlowmac S C n (.new msg c.keySizeBits c.tagSizeBits) key prna gst st = .ok n') :
    n' = n.useGains S C (tagUses msg c key prna gst st 12) [] ∨ n' = n := by
  have h' := h
  unfold processMackSlowmac at h'
  obtain ⟨gnav, hg, h'⟩ := Res.bind_eq_ok.1 h'
  by_cases hs : key.MacUsable ∧ gnav.isSubframe = true
  · left
    have e := processMackSlowmac_eq (S := S) (C := C) (msg := msg) (c := c) (prna := prna) (st := st) hs.1 hg hs.2 hi.lens hi.okc hi.okt
    unfold mackOf at e
    rw [e] at h
    rw [← Res.ok.inj h]
    unfold useGains tagUses
    rw [usesGain_map hg]
    rfl
  · right
    obtain ⟨_, _, h'⟩ := Res.bind_eq_ok.1 h'
    exact loopM_skip (fun _ _ _ => processSlowTagJ_skip hs) _ h'

end CollectNavMessage

variable {S : Storage} {C : Crypto}

/-! ## One call -/

/-- What a call does to the authentication bits. -/
theorem NavOp.effect {n n' : CollectNavMessage} (hi : Inv S n) {op : NavOp} (h : op.run C S n = .ok n') :
    (∃ w s g b, op = .feed w s g b ∧ n.feed S w s g b = .ok n') ∨ (op = .resetAuthbits ∧ n' = n.resetAuthbits) ∨
    (op ≠ .resetAuthbits ∧ (∀ w s g b, op ≠ .feed w s g b) ∧ ∃ us vs, n' = n.useGains S C us vs ∧ us.Sublist (op.tags .ced) ∧ vs.Sublist (op.tags .timing)) := by
  cases op with
  | feed w s g b => exact .inl ⟨w, s, g, b, rfl, h⟩
  | processMack msg c key prna gst st =>
    refine .inr (.inr ⟨by simp, by simp, ?_⟩)
    rcases processMack_effect hi h with h | rfl
    · exact ⟨_, _, h, .refl _, .refl _⟩
    · exact ⟨[], [], (useGains_nil hi).symm, List.nil_sublist _, List.nil_sublist _⟩
  | processMackSlowmac msg c key prna gst st =>
    refine .inr (.inr ⟨by simp, by simp, ?_⟩)
    rcases processMackSlowmac_effect hi h with h | rfl
    · exact ⟨_, _, h, .refl _, .refl _⟩
    · exact ⟨[], [], (useGains_nil hi).symm, List.nil_sublist _, List.nil_sublist _⟩
  | resetAuthbits => exact .inr (.inl ⟨rfl, (Res.ok.inj h).symm⟩)

theorem NavOp.tags_cop {kd : NavKind} {op : NavOp} {u : TagUse} (h : u ∈ op.tags kd) : u.tag.cop < 16 := by
  have : ∀ {msg c key prna gst st a}, u ∈ tagUses msg c key prna gst st a → u.tag.cop < 16 := by
    intro msg c key prna gst st a hu
    obtain ⟨t, ht, rfl⟩ := List.mem_map.1 hu
    exact mackTags_cop_lt (List.mem_filter.1 ht).1
  cases op <;> cases kd <;> simp only [NavOp.tags, List.not_mem_nil] at h <;> exact this h

/-! ## The store as a part of a receiver -/

/-- A receiver with the given store; only the store matters. -/
def boxOf (S : Storage) (C : Crypto) (n : CollectNavMessage) : Osnma C :=
  let o : Osnma C := Osnma.new S none none false
  { o with data := { o.data with data := { o.data.data with navmessage := n } } }

theorem boxOf_feed {n n' : CollectNavMessage} {c : InavCall} (h : n.feed S c.word c.svn c.gst c.band = .ok n') :
    (boxOf S C n).feedInav S c.word c.svn c.gst c.band = .ok (boxOf S C n') := by
  unfold Osnma.feedInav
  show (n.feed S c.word c.svn c.gst c.band >>= _) = _
  rw [h]; rfl

theorem boxOf_get (n : CollectNavMessage) (kd : NavKind) (svn : Svn) : (boxOf S C n).get S kd svn = n.getKind S kd svn := by
  cases kd <;> rfl

/-- Calls of `feed_inav` with the same words. -/
def asCalls (p : List InavCall) : List Call := p.map (fun c => .inav c.word c.svn c.gst c.band)

theorem inavsOf_asCalls (p : List InavCall) : inavsOf (asCalls p) = p := by
  induction p with
  | nil => rfl
  | cons c p ih =>
    unfold asCalls inavsOf at *
    simp only [List.map_cons, List.filterMap_cons, ih]

theorem navFeeds_snoc (ops : List NavOp) (op : NavOp) : navFeeds (ops ++ [op]) = navFeeds ops ++ navFeeds [op] := by
  simp [navFeeds, List.filterMap_append]

theorem sinceReset_reset (ops : List NavOp) : sinceReset (ops ++ [.resetAuthbits]) = [] := by
  simp [sinceReset]

theorem sinceReset_snoc {ops : List NavOp} {op : NavOp} (h : op ≠ .resetAuthbits) : sinceReset (ops ++ [op]) = sinceReset ops ++ [op] := by
  unfold sinceReset
  rw [List.reverse_append, List.reverse_singleton, List.singleton_append, List.takeWhile_cons]
  cases op <;> simp_all

theorem tagsSubmitted_snoc {kd : NavKind} {ops : List NavOp} {op : NavOp} (h : op ≠ .resetAuthbits) :
    tagsSubmitted kd (ops ++ [op]) = tagsSubmitted kd ops ++ op.tags kd := by
  unfold tagsSubmitted; rw [sinceReset_snoc h]; simp

/-- Invariant of the store. -/
def ApiInv (S : Storage) (C : Crypto) (ops : List NavOp) (n : CollectNavMessage) : Prop :=
  ∃ L, NavInv S (asCalls (navFeeds ops)) (boxOf S C n) L

theorem ApiInv.inv {ops : List NavOp} {n : CollectNavMessage} (h : ApiInv S C ops n) : Inv S n := by
  obtain ⟨L, h⟩ := h; exact h.inv

theorem ApiInv.new (hS : S.Consistent) : ApiInv S C [] (.new S) := by
  have h0 : (Osnma.fromMerkleTree S ⟨List.replicate 32 0#8, by simp⟩ none false : Osnma C).Fresh S := .inl ⟨_, _, _, rfl⟩
  exact ⟨[], ⟨(NavInv.fresh hS h0).rep, (NavInv.fresh hS h0).inv, rfl⟩⟩

theorem ApiInv.step (hS : S.Consistent) {ops : List NavOp} {n n' : CollectNavMessage} {op : NavOp} (h : ApiInv S C ops n)
    (hop : op.run C S n = .ok n') : ApiInv S C (ops ++ [op]) n' := by
  obtain ⟨L, hL⟩ := h
  rcases op.effect hL.inv hop with ⟨w, s, g, b, rfl, h⟩ | ⟨rfl, rfl⟩ | ⟨_, hf, us, vs, rfl, _⟩
  · have := hL.inav hS (c := ⟨w, s, g, b⟩) (boxOf_feed h)
    refine ⟨_, this.rep, this.inv, ?_⟩
    rw [this.core, inavsOf_inav, inavsOf_asCalls, inavsOf_asCalls, navFeeds_snoc]
    rfl
  · have hr : Rep S n.resetAuthbits (L.map (fun s => ⟨s.gst, s.ced.map NavItem.resetAuthbits, s.timing.map NavItem.resetAuthbits⟩)) :=
      map_rep hL.rep NavItem.resetAuthbits NavItem.resetAuthbits rfl rfl
    refine ⟨_, hr, ⟨hr.lens, ?_, ?_⟩, ?_⟩
    · intro x hx
      obtain ⟨y, _, rfl⟩ := List.mem_map.1 hx
      exact Nat.zero_le _
    · intro x hx
      obtain ⟨y, _, rfl⟩ := List.mem_map.1 hx
      exact Nat.zero_le _
    · rw [inavsOf_asCalls, navFeeds_snoc, show navFeeds [.resetAuthbits] = [] from rfl, List.append_nil, ← inavsOf_asCalls (navFeeds ops),
        ← hL.core, List.map_map]
      apply List.map_congr_left
      intro s _
      simp only [NavSlot.core, Function.comp_def, List.map_map]
      rfl
  · have hn : navFeeds (ops ++ [op]) = navFeeds ops := by
      rw [navFeeds_snoc]
      cases op with
      | feed w s g b => exact absurd rfl (hf w s g b)
      | _ => simp [navFeeds]
    refine ⟨_, Rep.useGains hL.rep us vs, useGains_inv hL.inv us vs, ?_⟩
    rw [hn, ← hL.core, List.map_map]
    apply List.map_congr_left
    intro s _
    exact NavSlot.gain_core s _ _

theorem navCalls_snoc {ops : List NavOp} {op : NavOp} {n : CollectNavMessage} (h : navCalls C S (ops ++ [op]) = .ok n) :
    ∃ m, navCalls C S ops = .ok m ∧ op.run C S m = .ok n := by
  unfold navCalls at h ⊢
  rw [loopM_append] at h
  obtain ⟨m, h1, h2⟩ := Res.bind_eq_ok.1 h
  rw [loopM_cons] at h2
  obtain ⟨m', h3, h4⟩ := Res.bind_eq_ok.1 h2
  rw [loopM_nil] at h4
  rw [← Res.ok.inj h4]
  exact ⟨m, h1, h3⟩

theorem apiInv_calls (hS : S.Consistent) {ops : List NavOp} : ∀ {n}, navCalls C S ops = .ok n → ApiInv S C ops n := by
  induction ops using snoc_induction with
  | h0 =>
    intro n h
    rw [← Res.ok.inj h]
    exact ApiInv.new hS
  | h1 ops op ih =>
    intro n h
    obtain ⟨m, h1, h2⟩ := navCalls_snoc h
    exact (ih h1).step hS h2

/-- Tags that vouch for the bits of an entry. -/
def Vouched (C : Crypto) (ops : List NavOp) (kd : NavKind) (x : NavItem) : Prop :=
  ∃ us : List TagUse, us.Sublist (tagsSubmitted kd ops) ∧ x.authbits = min 65535 (us.map (fun u => u.tag.tag.length)).sum ∧
    ∀ u ∈ us, ∃ v, x.svn = some v ∧ u.Vouches C v (x.messageBits kd.nbits)

/-- All that holds of an entry. -/
structure ItemInv (C : Crypto) (ops : List NavOp) (kd : NavKind) (x : NavItem) : Prop where
  vouched : Vouched C ops kd x
  prov : ProvInv (navFeeds ops) kd x

theorem Vouched.zero {ops : List NavOp} {kd : NavKind} {x : NavItem} (h : x.authbits = 0) : Vouched C ops kd x :=
  ⟨[], List.nil_sublist _, by simpa using h, by simp⟩

theorem Vouched.mono {ops : List NavOp} {kd : NavKind} {x : NavItem} {op : NavOp} (ho : op ≠ .resetAuthbits) (h : Vouched C ops kd x) :
    Vouched C (ops ++ [op]) kd x := by
  obtain ⟨us, h1, h2, h3⟩ := h
  refine ⟨us, ?_, h2, h3⟩
  rw [tagsSubmitted_snoc ho]
  exact h1.trans (List.sublist_append_left _ _)

theorem ItemInv.new (ops : List NavOp) (kd : NavKind) : ItemInv C ops kd kd.newItem :=
  ⟨.zero (NavKind.newItem_authbits kd), .new _ kd⟩

theorem ApiInv.wf (hS : S.Consistent) {ops : List NavOp} {n : CollectNavMessage} (h : ApiInv S C ops n) (kd : NavKind) :
    ∀ x ∈ n.arr kd, x.Wf kd := by
  obtain ⟨L, hL⟩ := h
  intro x hx
  rcases (Rep.mem hL.rep).1 hx with ⟨s, hs, hx⟩ | ⟨rfl, _⟩
  · exact (hL.good hS kd hs).wf x hx
  · exact NavItem.wf_new kd

theorem itemInv_step (hS : S.Consistent) {ops : List NavOp} {n n' : CollectNavMessage} {op : NavOp} (hn : ApiInv S C ops n)
    (ih : ∀ kd, ∀ x ∈ n.arr kd, ItemInv C ops kd x) (hop : op.run C S n = .ok n') :
    ∀ kd, ∀ x ∈ n'.arr kd, ItemInv C (ops ++ [op]) kd x := by
  intro kd x' hx'
  rcases op.effect hn.inv hop with ⟨w, s, g, b, rfl, h⟩ | ⟨rfl, rfl⟩ | ⟨ho, hf, us, vs, rfl, hus, hvs⟩
  · have ho : NavOp.feed w s g b ≠ .resetAuthbits := by simp
    have hfs : navFeeds (ops ++ [.feed w s g b]) = navFeeds ops ++ [⟨w, s, g, b⟩] := navFeeds_snoc _ _
    have hmono : ∀ y, ItemInv C ops kd y → ItemInv C (ops ++ [.feed w s g b]) kd y := by
      intro y hy
      refine ⟨hy.vouched.mono ho, hy.prov.mono ?_⟩
      intro c hc; rw [hfs]; simp [hc]
    obtain ⟨L, hL⟩ := id hn
    rcases arr_mem_feed hS hL (c := ⟨w, s, g, b⟩) (boxOf_feed h) (kd := kd) (x' := x') hx' with rfl | ⟨x, h1, h2, y, h3, h4⟩
    · exact .new _ kd
    · have hx : ItemInv C ops kd x := by
        rcases h1 with h1 | rfl
        · exact ih kd x h1
        · exact .new _ kd
      have hy : ItemInv C ops kd y ∧ y.Wf kd := by
        rcases h3 with rfl | rfl
        · exact ⟨hx, h2⟩
        · exact ⟨⟨hx.vouched, hx.prov.older⟩, h2.older⟩
      rcases h4 with rfl | rfl
      · exact hmono _ hy.1
      · refine ⟨?_, by rw [hfs]; exact hy.1.prov.feed hy.2 ⟨w, s, g, b⟩⟩
        rcases NavItem.feedUpd_auth (kd.upd ⟨w, s, g, b⟩) s y with h | ⟨e1, e2, e3⟩
        · exact .zero h
        · rcases Nat.eq_zero_or_pos y.authbits with hz | hpos
          · exact .zero (by rw [e1, hz])
          · obtain ⟨us, k1, k2, k3⟩ := hy.1.vouched.mono ho
            refine ⟨us, k1, by rw [e1]; exact k2, ?_⟩
            intro u hu
            obtain ⟨v, hv, hp⟩ := k3 u hu
            have hb : (NavItem.feedUpd (kd.upd ⟨w, s, g, b⟩) s y).messageBits kd.nbits = y.messageBits kd.nbits := by
              unfold NavItem.messageBits; rw [e2]
            refine ⟨v, ?_, by rw [hb]; exact hp⟩
            rw [NavItem.feedUpd_svn]
            rcases e3 with e3 | e3 <;> rw [hv] at e3
            · exact e3.symm
            · cases e3
  · have : ∃ x ∈ n.arr kd, x' = x.resetAuthbits := by
      cases kd <;> (obtain ⟨x, hx, rfl⟩ := List.mem_map.1 hx'; exact ⟨x, hx, rfl⟩)
    obtain ⟨x, hx, rfl⟩ := this
    have hp := (ih kd x hx).prov
    refine ⟨.zero rfl, ?_, ?_, ?_⟩
    · intro h; exact ⟨rfl, (hp.unassigned h).2⟩
    · intro v hv i f a h1 h2 h3
      refine Delivered.mono (hp.recent v hv i f a h1 h2 h3) ?_
      intro c hc; rw [navFeeds_snoc]; simp [hc]
    · intro v hv h; exact absurd rfl h
  · have hfs : navFeeds (ops ++ [op]) = navFeeds ops := by
      rw [navFeeds_snoc]
      cases op with
      | feed w s g b => exact absurd rfl (hf w s g b)
      | _ => simp [navFeeds]
    have : ∃ ws, ws.Sublist (op.tags kd) ∧ ∃ x ∈ n.arr kd, x' = x.addAuthbits (usesGain S C n (n.arr kd) kd.nbits ws x) := by
      cases kd
      · obtain ⟨x, hx, rfl⟩ := List.mem_map.1 hx'; exact ⟨us, hus, x, hx, rfl⟩
      · obtain ⟨x, hx, rfl⟩ := List.mem_map.1 hx'; exact ⟨vs, hvs, x, hx, rfl⟩
    obtain ⟨ws, hws, x, hx, rfl⟩ := this
    have hp := (ih kd x hx).prov
    obtain ⟨us0, a1, a2, a3⟩ := (ih kd x hx).vouched
    refine ⟨?_, ?_⟩
    · classical
      refine ⟨us0 ++ ws.filter (fun u => decide (u.Counts S C n (n.arr kd) kd.nbits x)), ?_, ?_, ?_⟩
      · rw [tagsSubmitted_snoc ho]
        exact a1.append (List.filter_sublist.trans hws)
      · rw [usesGain_filter, List.map_append, List.sum_append]
        show min 65535 (x.authbits + _) = _
        rw [a2]; omega
      · intro u hu
        rcases List.mem_append.1 hu with hu | hu
        · exact a3 u hu
        · have hcnt := of_decide_eq_true (List.mem_filter.1 hu).2
          obtain ⟨c1, c2, v, y, c3, c4, c5, c6, c7, c8⟩ := hcnt
          exact ⟨v, c6, ⟨c3.symm, c2, c1, c8⟩⟩
    · rw [hfs]
      refine ⟨?_, hp.recent, ?_⟩
      · intro hn
        have hn' : x.svn = none := hn
        rw [usesGain_unassigned _ _ _ _ hn', NavItem.addAuthbits_zero (by rw [(hp.unassigned hn').1]; omega)]
        exact hp.unassigned hn'
      · intro v hv hab i f hf
        have hv' : x.svn = some v := hv
        show Delivered (navFeeds ops) kd v (x.seg kd i f) f
        by_cases hx0 : x.authbits = 0
        · have hpos : 0 < usesGain S C n (n.arr kd) kd.nbits ws x := by
            rcases Nat.eq_zero_or_pos (usesGain S C n (n.arr kd) kd.nbits ws x) with hz | hz
            · rw [hz, NavItem.addAuthbits_zero (by omega)] at hab; exact absurd hx0 hab
            · exact hz
          obtain ⟨u, hu, _, _, svn, y, _, h4, h5, h6, h7, _⟩ := usesGain_pos hpos
          have hcop := NavOp.tags_cop (hws.subset hu)
          have hym := entryBefore_mem h4
          have hys : y.svn = some svn := by
            unfold entryBefore at h4
            split at h4
            · exact entryAt_svn h4
            · cases h4
          have hyw := hn.wf hS kd y hym
          rw [hv'] at h6; cases h6
          rw [NavItem.seg_of_data h7 hf]
          have hlt : i < kd.fields.length := (List.getElem?_eq_some_iff.1 hf).1
          have hia : i < y.age.length := by rw [hyw.age]; exact hlt
          refine (ih kd y hym).prov.recent v hys i f y.age[i] hf (List.getElem?_eq_getElem hia) ?_
          have := NavItem.maxAge_le.1 (Nat.le_refl y.maxAge) _ (List.getElem_mem hia)
          omega
        · exact hp.auth v hv' hx0 i f hf

theorem itemInv_calls (hS : S.Consistent) {ops : List NavOp} :
    ∀ {n}, navCalls C S ops = .ok n → ∀ kd, ∀ x ∈ n.arr kd, ItemInv C ops kd x := by
  induction ops using snoc_induction with
  | h0 =>
    intro n h kd x hx
    rw [← Res.ok.inj h] at hx
    have : x = kd.newItem := by
      cases kd <;> exact List.eq_of_mem_replicate hx
    rw [this]; exact .new _ kd
  | h1 ops op ih =>
    intro n h
    obtain ⟨m, h1, h2⟩ := navCalls_snoc h
    exact itemInv_step hS (apiInv_calls hS h1) (ih h1) h2

end Verif
