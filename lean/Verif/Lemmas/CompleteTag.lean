import Verif.Lemmas.CompleteNav
import Verif.Lemmas.Chains
import Verif.Props.Keys

/-! # Lemmas: genuine tags are checked, and count -/

namespace Verif
open CollectNavMessage

variable {C : Crypto} {S : Storage}

theorem Mack.validate_right {k : Key} {c : Chain} {msg : MackMessage} {prna : Svn} {g : Gst} (h : MackRight C k c msg prna g) :
    ∃ m, (Mack.new msg c.keySizeBits c.tagSizeBits).validate C k prna g = .ok (.ok m) := by
  obtain ⟨h1, slots, h2, h3, h4, h5⟩ := h
  refine (Mack.validate_iff msg k c prna g).2 ⟨h1, slots, h2, ?_, h4, h5⟩
  intro j hj
  have : j < slots.length := by
    unfold flexSlots at hj
    have := (List.mem_filter.1 hj).1
    simpa using this
  rw [h3] at this
  exact this

theorem usableMack_of {d : OsnmaData C} {vk : Key} {c : Chain} {g : Gst} {v : Svn} {msg : MackMessage} {st : NmaStatus}
    (hget : d.mack.get S v g = .ok (some (msg, st))) (h : MackRight C vk c msg v g) : d.usableMack S vk c g v = some (msg, st) := by
  unfold OsnmaData.usableMack
  rw [hget]
  dsimp only
  obtain ⟨m, hm⟩ := Mack.validate_right h
  rw [hm]

theorem mem_cedUses_of {d : OsnmaData C} {key : Key} {sk : Option Key} {gm gs : Gst} {u : TagUse} (h : u ∈ d.fastUses S key gm 0 u.prna ∨
    u ∈ d.slowUses S key sk gs u.prna) : u ∈ d.cedUses S key sk gm gs := by
  unfold OsnmaData.cedUses
  rw [List.mem_flatMap]
  exact ⟨u.prna, Svn.mem_iter _, List.mem_append.2 h⟩

theorem mem_timingUses_of {d : OsnmaData C} {key : Key} {gm : Gst} {u : TagUse} (h : u ∈ d.fastUses S key gm 4 u.prna) :
    u ∈ d.timingUses S key gm := by
  unfold OsnmaData.timingUses
  rw [List.mem_flatMap]
  exact ⟨u.prna, Svn.mem_iter _, h⟩

/-- Every DSM-KROOT verified announces chain `id`. -/
def OneChain (log : List (KeyEvent C)) (id : Nat) : Prop := ∀ e ∈ log, ∀ h, e.header? = some h → h.chainId = id

theorem lastHeader_snoc (l : List (KeyEvent C)) (e : KeyEvent C) :
    lastHeader (l ++ [e]) = match e.header? with
      | some h => some h
      | none => lastHeader l := by
  unfold lastHeader
  rw [List.filterMap_append, List.filterMap_cons]
  cases e.header? <;> simp

theorem lastHeader_mem {l : List (KeyEvent C)} {h : NmaHeader} (hl : lastHeader l = some h) : ∃ e ∈ l, e.header? = some h := by
  unfold lastHeader at hl
  exact List.mem_filterMap.1 (List.mem_of_getLast? hl)

theorem OneChain.noChange {log : List (KeyEvent C)} {id : Nat} (h : OneChain log id) (t : Int) : NoChangeAfter log t := by
  intro l₁ hd data pk key g l₂ e _ h' hl hne
  exfalso
  apply hne
  obtain ⟨x, hx, hh⟩ := lastHeader_mem hl
  rw [h x (by rw [e]; simp [hx]) h' hh, h (.kroot hd data pk key g) (by rw [e]; simp) hd rfl]

/-- The chain in force is that of the last header. -/
theorem force_last {log : List (KeyEvent C)} {cif : ChainInForce} (h : force log = some cif) :
    ∃ hd, lastHeader log = some hd ∧ hd.chainId = cif.cid := by
  induction log using CollectSubframe.snoc_induction generalizing cif with
  | h0 => cases h
  | h1 l e ih =>
    rw [force_append] at h
    simp only [List.foldl_cons, List.foldl_nil] at h
    rw [lastHeader_snoc]
    cases e with
    | kroot hd dd pk key g =>
      simp only [forceStep] at h
      split at h
      · cases h
      · cases h; exact ⟨hd, rfl, rfl⟩
    | pkr => exact ih h
    | alert => cases h
    | tesla => exact ih h

/-- The time noted for a change of chain. -/
theorem force_since {log : List (KeyEvent C)} {id : Nat} {g : Gst} (h : force log = some ⟨id, some g⟩) :
    ∃ l₁ hd data pk key l₂ h', log = l₁ ++ .kroot hd data pk key g :: l₂ ∧ (∀ e ∈ l₂, e.header? = none) ∧ lastHeader l₁ = some h' ∧
      h'.chainId ≠ hd.chainId := by
  induction log using CollectSubframe.snoc_induction with
  | h0 => cases h
  | h1 l e ih =>
    rw [force_append] at h
    simp only [List.foldl_cons, List.foldl_nil] at h
    have later : force l = some ⟨id, some g⟩ → e.header? = none →
        ∃ l₁ hd data pk key l₂ h', l ++ [e] = l₁ ++ .kroot hd data pk key g :: l₂ ∧ (∀ e ∈ l₂, e.header? = none) ∧ lastHeader l₁ = some h' ∧
          h'.chainId ≠ hd.chainId := by
      intro h he
      obtain ⟨l₁, hd, data, pk, key, l₂, h', e1, e2, e3, e4⟩ := ih h
      refine ⟨l₁, hd, data, pk, key, l₂ ++ [e], h', by rw [e1]; simp, ?_, e3, e4⟩
      intro x hx
      rcases List.mem_append.1 hx with hx | hx
      · exact e2 x hx
      · rw [List.mem_singleton] at hx; rw [hx]; exact he
    cases e with
    | kroot hd dd pk key g' =>
      simp only [forceStep] at h
      split at h
      · cases h
      · rw [Option.some.injEq, ChainInForce.mk.injEq, Option.bind_eq_some_iff] at h
        obtain ⟨_, cif, h1, h2⟩ := h
        split at h2
        · cases h2
          obtain ⟨h', e1, e2⟩ := force_last h1
          rename_i hne
          exact ⟨l, hd, dd, pk, key, [], h', rfl, by simp, e1, by rw [e2]; exact hne⟩
        · cases h2
    | pkr => exact later h rfl
    | alert => cases h
    | tesla => exact later h rfl

section
variable {root0 : Option MerkleTreeNode} {pk0 : Option (PublicKey C)} {slow : Bool}

/-- The subframe of the page that completes a subframe. -/
theorem Osnma.Completes.sub_inv {o o' : Osnma C} {d : OsnmaDataMessage} {s : Svn} {g : Gst} {hist : List Call} (hp : PagesInv S hist o)
    (k : Osnma.Completes S o o' d s g) : k.g = Page.sub ⟨d, s, g⟩ := by
  obtain ⟨outs, ho, _⟩ := hp
  obtain ⟨hg, _⟩ := C04_collected_subframe (pagesOf hist) ⟨d, s, g⟩ _ _ outs _ _ _ ho k.hfeed
  exact hg

/-- The same for a history without panics. -/
theorem Osnma.Completes.sub {o o' : Osnma C} {d : OsnmaDataMessage} {s : Svn} {g : Gst} (hS : S.Consistent)
    (h0 : (Osnma.new S root0 pk0 slow : Osnma C).Fresh S) {hist : List Call}
    (h : run S (Osnma.new S root0 pk0 slow) hist = .ok o) (k : Osnma.Completes S o o' d s g) : k.g = Page.sub ⟨d, s, g⟩ :=
  k.sub_inv (received_run hS h0 h)

/-- The key with which the MACK of eleven subframes before is checked, when the chain did not change since. -/
theorem KeyArrives.slow_one {log : List (KeyEvent C)} {o o' : Osnma C} {d : OsnmaDataMessage} {s : Svn} {g : Gst}
    (hf : o'.data.data.key.chainInForce = force log) (hinv : KeyInv root0 pk0 log o'.data.data.merkleTree o'.data.data.pubkey o'.data.data.key)
    (k : KeyArrives S o o' d s g) (hone : NoChangeAfter log (k.g.abs - 300)) :
    ∃ vk n, k.slowKey = some vk ∧ vk.chain = k.cur.chain ∧ vk.gst.abs = k.g.abs - 300 ∧
      Derives C k.cur.chain n (k.g, (mackKey k.msg k.cur.chain k.g).bytes) (vk.gst, vk.bytes) := by
  have hkey' : o'.data.data.key = k.ks := by rw [k.hnew]
  rw [hkey'] at hf hinv
  have hks : k.ks.chainInForce = k.d1.key.chainInForce ∧ k.ks.Has (mackKey k.msg k.cur.chain k.g) := by
    have hks := k.hks
    unfold KeyStore.storeKey at hks
    dsimp only at hks
    split at hks
    · have e := Res.ok.inj hks; exact ⟨by rw [← e], .inl (by rw [← e])⟩
    · split at hks
      · have e := Res.ok.inj hks; exact ⟨by rw [← e], .inr (by rw [← e])⟩
      · cases hks
  obtain ⟨_, cif, e1, e2⟩ := KeyStore.currentKey_some k.hcur
  rw [← hks.1, hf] at e1
  obtain ⟨cid, since⟩ := cif
  obtain rfl : k.cur.chain.id = cid := e2
  have hforce := e1
  rw [e1] at hf
  have hcur : k.ks.currentKey = some (mackKey k.msg k.cur.chain k.g) :=
    KeyStore.currentKey_of_has (s := since) hinv.kdist hks.2 hf
  have hsk := k.hsk
  unfold OsnmaData.slowmacKey at hsk
  obtain ⟨gK, h1, h⟩ := Res.bind_eq_ok.1 hsk
  have hgk := ((Gst.addSeconds_eq_ok (by omega)).1 h1).2
  have hgk : gK.abs = k.g.abs + -300 := hgk
  have hp : k.ks.keyPastChain gK = some (mackKey k.msg k.cur.chain k.g) := by
    unfold KeyStore.keyPastChain
    rw [hf]
    cases since with
    | none => exact hcur
    | some g0 =>
      rw [Option.bind_some]
      dsimp only
      obtain ⟨l₁, hd, data, pk, key, l₂, h', f1, f2, f3, f4⟩ := force_since hforce
      have := hone l₁ hd data pk key g0 l₂ f1 f2 h' f3 f4
      rw [if_neg]
      · exact hcur
      · intro hcmp
        rw [Gst.cmp_gt] at hcmp
        omega
  dsimp only at h
  rw [hp] at h
  dsimp only at h
  have hka : (mackKey k.msg k.cur.chain k.g).gst.Aligned := k.hal
  have hga : gK.Aligned := by have := k.hal; unfold Gst.Aligned at *; omega
  rw [Gst.subframesDifference_aligned hka hga] at h
  have hkg : (mackKey k.msg k.cur.chain k.g).gst.abs = k.g.abs := rfl
  simp only [Res.ok_bind] at h
  rw [if_pos (by rw [hkg, hgk]; omega)] at h
  obtain ⟨r, hr, h⟩ := Res.bind_eq_ok.1 h
  simp only [Res.pure_eq, Res.ok.injEq] at h
  obtain ⟨e1, e2⟩ := Key.derive_gst hr
  refine ⟨r, _, h.symm, e1, ?_, Key.derive_derives hr⟩
  rw [e2, hkg, hgk]
  omega

/-- A genuine tag is among those checked when its key arrives, and counts for the data. -/
theorem KeyArrives.counts_inv (hS : S.Consistent) {hist : List Call}
    {log : List (KeyEvent C)} {o o' : Osnma C} {d : OsnmaDataMessage} {s : Svn} {g : Gst} (hpi : PagesInv S hist o)
    (hpi' : PagesInv S (hist ++ [.osnma d s g]) o') (hnav : NavInv S hist o (o.stored S)) (honly : o.data.data.onlySlowmac = slow)
    (hf : o'.data.data.key.chainInForce = force log) (hinv : KeyInv root0 pk0 log o'.data.data.merkleTree o'.data.data.pubkey o'.data.data.key)
    (k : KeyArrives S o o' d s g) (hord : InOrder S (hist ++ [.osnma d s g]) k.g)
    {kd : NavKind} {u : TagUse} {v : Svn} {bits : List Bool} (hu : u.Genuine C S slow (hist ++ [.osnma d s g]) kd v bits)
    (hkey : u.key = mackKey k.msg k.cur.chain k.g)
    (hplace : ∃ q r, inavsOf hist = q ++ r ∧ KeepsPlace S kd q v r ∧
      ∀ c ∈ q, c.svn = v → c.gst.subframe.abs < u.gst.abs - 30 * u.tag.cop)
    (hone : u.tag.adkd = 12 → NoChangeAfter (log) (u.gst.abs + 30)) :
    u ∈ k.uses kd ∧ ∀ x : NavItem, x.svn = some v → x.messageBits kd.nbits = bits →
      u.Counts S C o.data.data.navmessage (o.data.data.navmessage.arr kd) kd.nbits x := by
  have hd' : o'.data.data.mack = k.d1.mack := by rw [k.hnew]
  have hs1 : k.d1.onlySlowmac = slow := by rw [k.d1_nav.2.2]; exact honly
  have hgm := ((Gst.addSeconds_eq_ok (by omega)).1 k.hgm).2
  have hgs := ((Gst.addSeconds_eq_ok (by omega)).1 k.hgs).2
  have hkg : u.key.gst = k.g := by rw [hkey]; rfl
  have hkc : u.key.chain = k.cur.chain := by rw [hkey]; rfl
  have hinavs : inavsOf (hist ++ [.osnma d s g]) = inavsOf hist := by simp [inavsOf]
  obtain ⟨msg, hw, htag, hright⟩ := hu.mack
  -- the MACK is in the store
  have hp : pagesOf (hist ++ [Call.osnma d s g]) = pagesOf hist ++ [⟨d, s, g⟩] := by
    have hz := k.hz
    rw [pagesOf_snoc]
    simp only [pagesOf, List.filterMap_cons, hz, Bool.false_eq_true, if_false, List.filterMap_nil]
  have htop : ∀ p ∈ pagesOf (hist ++ [.osnma d s g]), p.sub.abs ≤ k.g.abs := by
    have hsub := k.toCompletes.sub_inv hpi
    have hpg := hord.pages
    rw [hp] at hpg ⊢
    intro p hpm
    rw [hsub]
    rcases List.mem_append.1 hpm with hpm | hpm
    · exact (List.pairwise_append.1 hpg).2.2 p hpm _ (by simp)
    · rw [List.mem_singleton] at hpm; subst hpm; exact Int.le_refl _
  have hget := whole_get_inv hS hpi' hord.pages hord.roomPages htop hw (by rw [← hkg]; exact hu.depthMack)
  rw [hd'] at hget
  refine ⟨?_, ?_⟩
  · have hfast : u.key.gst.abs = u.gst.abs + 30 → u.gst = k.gstMack ∧
        ({ k.d1 with key := k.ks } : OsnmaData C).usableMack S (mackKey k.msg k.cur.chain k.g) (mackKey k.msg k.cur.chain k.g).chain k.gstMack
          u.prna = some (msg, u.st) := by
      intro he
      have hug : u.gst = k.gstMack := Gst.abs_inj (by rw [hkg] at he; omega)
      have hr := hright u.key 0 rfl he (.zero _)
      rw [hkey, hug] at hr
      rw [hug] at hget
      exact ⟨hug, usableMack_of (d := { k.d1 with key := k.ks }) hget hr⟩
    have htag' : u.tag ∈ mackTags msg (mackKey k.msg k.cur.chain k.g).chain u.prna := by rw [hkey] at htag; exact htag
    rcases hu.rightKey with ⟨rfl, a1, a2, a3⟩ | ⟨rfl, a1, a2, a3⟩ | ⟨rfl, a1, a2⟩
    · obtain ⟨b1, b2⟩ := hfast a2
      refine mem_cedUses_of (.inl ?_)
      rw [OsnmaData.mem_fastUses]
      exact ⟨hs1.trans a3, msg, b2, hkey, rfl, b1, htag', a1⟩
    · obtain ⟨b1, b2⟩ := hfast a2
      refine mem_timingUses_of ?_
      rw [OsnmaData.mem_fastUses]
      exact ⟨hs1.trans a3, msg, b2, hkey, rfl, b1, htag', a1⟩
    · have hug : u.gst = k.gstSlow := Gst.abs_inj (by rw [hkg] at a2; omega)
      obtain ⟨vk, n, v1, v2, v3, v4⟩ := k.slow_one hf hinv (by have := hone a1; rwa [show u.gst.abs + 30 = k.g.abs - 300 from by rw [hkg] at a2; omega] at this)
      refine mem_cedUses_of (.inr ?_)
      rw [OsnmaData.mem_slowUses]
      have hr := hright vk n (by rw [v2, hkc]) (by rw [hkg] at a2; omega) (by rw [hkc, hkey]; exact v4)
      rw [hkey, hug] at hr
      rw [hug] at hget
      exact ⟨vk, msg, v1, usableMack_of (d := { k.d1 with key := k.ks }) hget hr, hkey, rfl, hug, htag', a1⟩
  · intro x hxv hxb
    -- the time before
    have hgb : ∃ gb : Gst, u.gst.addSeconds (-30) = .ok gb := by
      obtain ⟨c, _, hcg⟩ := hu.alive
      have := c.gst.subframe.abs_representable
      simp only [Representable] at this
      exact Gst.addSeconds_neg_returns (g := u.gst) (s := 30) (by decide) (by decide) (by omega)
    obtain ⟨gb, hgb⟩ := hgb
    have hgba := ((Gst.addSeconds_eq_ok (by omega)).1 hgb).2
    have hdata := hu.data
    have hrec := hu.recent
    have hali := hu.alive
    unfold wordsUpTo at hdata
    rw [hinavs] at hdata hrec hali
    have hdep := hu.depthNav
    rw [hkg] at hdep
    obtain ⟨y, y1, y2, y3⟩ := entry_found_inv hS hnav (by have := hord.words; rwa [hinavs] at this) (top := k.g.abs) (by have := hord.noneAhead; rwa [hinavs] at this)
      (g := gb) (by obtain ⟨c, c1, c2⟩ := hali; exact ⟨c, c1, by omega⟩) (by omega) kd v u.tag.cop
      (by obtain ⟨q, r, p1, p2, p3⟩ := hplace; exact ⟨q, r, p1, p2, fun c c1 c2 => by have := p3 c c1 c2; omega⟩)
      (by intro f hf
          obtain ⟨c, c1, c2, c3, c4, c5⟩ := hrec f hf
          exact ⟨c, c1, c2, c3, by omega, by omega⟩)
    have hgb' : gb.abs = u.gst.abs - 30 := by omega
    unfold wordsUpTo at y2
    rw [hgb', hdata] at y2
    refine ⟨hu.status, by omega, v, y, hu.prnd.symm, ?_, y3, hxv, by rw [hxb, y2], by rw [hxb]; exact hu.verifies⟩
    rw [entryBefore_eq hgb]
    exact y1

/-- The same for a history without panics. -/
theorem KeyArrives.counts (hS : S.Consistent) (h0 : (Osnma.new S root0 pk0 slow : Osnma C).Fresh S) {hist : List Call}
    {log : List (KeyEvent C)} {o o' : Osnma C} {d : OsnmaDataMessage} {s : Svn} {g : Gst}
    (hl : Logs S (Osnma.new S root0 pk0 slow) hist log o) (hc : o.feedOsnma S d s g = .ok o')
    (k : KeyArrives S o o' d s g) (hord : InOrder S (hist ++ [.osnma d s g]) k.g)
    {kd : NavKind} {u : TagUse} {v : Svn} {bits : List Bool} (hu : u.Genuine C S slow (hist ++ [.osnma d s g]) kd v bits)
    (hkey : u.key = mackKey k.msg k.cur.chain k.g)
    (hplace : ∃ q r, inavsOf hist = q ++ r ∧ KeepsPlace S kd q v r ∧
      ∀ c ∈ q, c.svn = v → c.gst.subframe.abs < u.gst.abs - 30 * u.tag.cop)
    (hone : u.tag.adkd = 12 → NoChangeAfter (log ++ o.events S (.osnma d s g)) (u.gst.abs + 30)) :
    u ∈ k.uses kd ∧ ∀ x : NavItem, x.svn = some v → x.messageBits kd.nbits = bits →
      u.Counts S C o.data.data.navmessage (o.data.data.navmessage.arr kd) kd.nbits x := by
  have hl' : Logs S (Osnma.new S root0 pk0 slow) (hist ++ [.osnma d s g]) (log ++ o.events S (.osnma d s g)) o' := .snoc _ hl hc
  exact k.counts_inv hS (received_run hS h0 hl.run) (received_run hS h0 hl'.run) (navInv_run hS h0 hl.run) (onlySlowmac_run hS h0 hl.run)
    (force_run hl') (keyInv_run hl') hord hu hkey hplace hone

end
end Verif
