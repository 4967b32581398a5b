import Verif.Lemmas.NavFrames
import Verif.Lemmas.CompleteTag
import Verif.Lemmas.KeyMachine

/-! # Lemmas: the tags of the reference machine and those that the library checks -/

namespace Verif
open CollectNavMessage

variable {S : Storage} {C : Crypto}

/-! ## MACK messages accepted -/

theorem Mack.accepted_iff (msg : MackMessage) (k : Key) (c : Chain) (v : Svn) (g : Gst) :
    (∃ m, (Mack.new msg c.keySizeBits c.tagSizeBits).validate C k v g = .ok (.ok m)) ↔ MackAccepted C k c msg v g :=
  Mack.validate_iff msg k c v g

theorem MackAccepted.congr {k k' : Key} {c : Chain} {msg : MackMessage} {v : Svn} {g : Gst} (hc : k.chain = k'.chain)
    (hb : k.bytes = k'.bytes) (h : MackAccepted C k c msg v g) : MackAccepted C k' c msg v g := by
  obtain ⟨h1, slots, h2, h3, h4, h5⟩ := h
  refine ⟨?_, slots, by rw [← hc]; exact h2, h3, ?_, h5⟩
  · unfold Key.MacUsable at *; rw [← hc]; exact h1
  · unfold MacseqOk macBits at *; rw [← hc, ← hb]; exact h4

theorem tagsOf_accepted {d : OsnmaData C} {macks : List MackCall} {key vk : Key} {ok : Key → Prop} {g : Gst} {adkd : Nat} {v : Svn}
    (hget : d.mack.get S v g = .ok (expectedMack S macks v g))
    (hok : ∀ msg, (∃ vk', ok vk' ∧ MackAccepted C vk' key.chain msg v g) ↔ MackAccepted C vk key.chain msg v g) :
    OsnmaData.tagsOf key g adkd v (d.usableMack S vk key.chain g v) = acceptedTags C S macks key ok g adkd v := by
  unfold OsnmaData.usableMack acceptedTags
  rw [hget]
  cases expectedMack S macks v g with
  | none => rfl
  | some r =>
    obtain ⟨msg, st⟩ := r
    dsimp only
    have hiff := Mack.accepted_iff (C := C) msg vk key.chain v g
    by_cases ha : MackAccepted C vk key.chain msg v g
    · obtain ⟨m, hm⟩ := hiff.2 ha
      rw [if_pos ((hok msg).2 ha), hm]
      rfl
    · rw [if_neg (fun h => ha ((hok msg).1 h))]
      have : ∀ m, (Mack.new msg key.chain.keySizeBits key.chain.tagSizeBits).validate C vk v g ≠ .ok (.ok m) :=
        fun m hm => ha (hiff.1 ⟨m, hm⟩)
      split
      · rename_i m hm
        exact absurd hm (this m)
      · rfl

theorem acceptedTags_none {macks : List MackCall} {key : Key} {ok : Key → Prop} {g : Gst} {adkd : Nat} {v : Svn} (h : ∀ vk, ¬ ok vk) :
    acceptedTags C S macks key ok g adkd v = [] := by
  unfold acceptedTags
  split
  · rfl
  · rw [if_neg]
    rintro ⟨vk, h1, _⟩
    exact h vk h1

/-! ## Keys of past times -/

theorem keyPastChain_before {ks : KeyStore} {c : Nat} {g t : Gst} (h : ks.chainInForce = some ⟨c, some g⟩) (hl : t.abs < g.abs) :
    ks.keyPastChain t = ks.keys.find? (fun k => k.chain.id != c) := by
  unfold KeyStore.keyPastChain
  rw [h, Option.bind_some]
  dsimp only
  rw [if_pos (Gst.cmp_gt.2 hl)]

theorem keyPastChain_after {ks : KeyStore} {c : Nat} {g t : Gst} (h : ks.chainInForce = some ⟨c, some g⟩) (hl : ¬ t.abs < g.abs) :
    ks.keyPastChain t = ks.currentKey := by
  unfold KeyStore.keyPastChain
  rw [h, Option.bind_some]
  dsimp only
  rw [if_neg (fun h => hl (Gst.cmp_gt.1 h))]

theorem keyPastChain_always {ks : KeyStore} {c : Nat} {t : Gst} (h : ks.chainInForce = some ⟨c, none⟩) : ks.keyPastChain t = ks.currentKey := by
  unfold KeyStore.keyPastChain
  rw [h, Option.bind_some]

theorem keyPastChain_none {ks : KeyStore} {t : Gst} (h : ks.chainInForce = none) : ks.keyPastChain t = none := by
  unfold KeyStore.keyPastChain
  rw [h, Option.bind_none]

theorem currentKey_of_force {ks : KeyStore} {cif : ChainInForce} (h : ks.chainInForce = some cif) :
    ks.currentKey = ks.keys.find? (fun k => k.chain.id == cif.cid) := by
  unfold KeyStore.currentKey
  rw [h, Option.bind_some]

theorem keyPastChain_source {ks : KeyStore} {log : List (KeyEvent C)} (hheld : (ks.key0, ks.key1) = teslaHeld log)
    (hforce : ks.chainInForce = force log) (t : Gst) : ks.keyPastChain t = sourceKey log t := by
  have hkeys : (teslaHeld log).1.toList ++ (teslaHeld log).2.toList = ks.keys := by rw [← hheld]; rfl
  unfold sourceKey
  rw [hkeys]
  cases hf : force log with
  | none => exact keyPastChain_none (hforce.trans hf)
  | some cif =>
    obtain ⟨c, start⟩ := cif
    have h := hforce.trans hf
    dsimp only
    cases start with
    | none => rw [keyPastChain_always h, currentKey_of_force h, Option.any_none, if_neg Bool.false_ne_true]
    | some g =>
      rw [Option.any_some]
      by_cases hl : t.abs < g.abs
      · rw [keyPastChain_before h hl, decide_eq_true hl, if_pos rfl]
      · rw [keyPastChain_after h hl, currentKey_of_force h, decide_eq_false hl, if_neg Bool.false_ne_true]

theorem keyPastChain_has {ks : KeyStore} {t : Gst} {k : Key} (h : ks.keyPastChain t = some k) : ks.Has k := by
  have hcur : ks.currentKey = some k → ks.Has k := fun h => (KeyStore.currentKey_some h).1
  cases hf : ks.chainInForce with
  | none => rw [keyPastChain_none hf] at h; cases h
  | some cif =>
    obtain ⟨c, start⟩ := cif
    cases start with
    | none => rw [keyPastChain_always hf] at h; exact hcur h
    | some g =>
      by_cases hl : t.abs < g.abs
      · rw [keyPastChain_before hf hl] at h; exact KeyStore.mem_keys.1 (List.mem_of_find?_eq_some h)
      · rw [keyPastChain_after hf hl] at h; exact hcur h

theorem int_steps {a b z : Int} (hz : a - b = 30 * z) (h : 0 ≤ z) : a - 30 * (z.toNat : Int) = b := by omega

theorem int_steps_unique {a b z : Int} {n : Nat} (hz : a - b = 30 * z) (h : b = a - 30 * n) : n = z.toNat := by omega

theorem subframesDifference_steps {a b : Gst} (ha : a.Aligned) (hb : b.Aligned) :
    ∃ z, a.subframesDifference b = .ok z ∧ a.abs - b.abs = 30 * z := by
  refine ⟨_, Gst.subframesDifference_aligned ha hb, ?_⟩
  unfold Gst.Aligned at ha hb
  omega

/-- The key of the MACSEQ of the Slow MAC messages is that of the past time. -/
theorem slowmacKey_pastKey {d : OsnmaData C} {key : Key} {log : List (KeyEvent C)} {sk : Option Key} (ha : key.gst.Aligned)
    (hk : ∀ k, d.key.Has k → k.gst.Aligned) (hheld : (d.key.key0, d.key.key1) = teslaHeld log) (hforce : d.key.chainInForce = force log)
    {t10 : Gst} (ht : t10.abs = key.gst.abs - 300) (h : d.slowmacKey key = .ok sk) :
    match sk with
    | some vk => PastKey log t10 vk ∧ ∀ vk', PastKey log t10 vk' → vk'.chain = vk.chain ∧ vk'.bytes = vk.bytes
    | none => ∀ vk, ¬ PastKey log t10 vk := by
  unfold OsnmaData.slowmacKey at h
  obtain ⟨gK, h1, h⟩ := Res.bind_eq_ok.1 h
  have hgk := ((Gst.addSeconds_eq_ok (by omega)).1 h1).2
  have hgt : gK = t10 := Gst.abs_inj (by omega)
  subst hgt
  rw [keyPastChain_source hheld hforce] at h
  cases hp : sourceKey log gK with
  | none =>
    rw [hp] at h
    simp only [Res.pure_eq, Res.ok.injEq] at h
    subst h
    rintro vk ⟨k, n, h2, _⟩
    rw [hp] at h2; cases h2
  | some k =>
    rw [hp] at h
    dsimp only at h
    have hhas : d.key.Has k := by
      have : d.key.keyPastChain gK = some k := by rw [keyPastChain_source hheld hforce, hp]
      exact keyPastChain_has this
    have hka := hk k hhas
    have hga : gK.Aligned := by unfold Gst.Aligned at *; omega
    obtain ⟨z, hz, hz30⟩ := subframesDifference_steps hka hga
    rw [hz] at h
    simp only [Res.ok_bind] at h
    split at h
    · rename_i hge
      obtain ⟨r, hr, h⟩ := Res.bind_eq_ok.1 h
      simp only [Res.pure_eq, Res.ok.injEq] at h
      subst h
      obtain ⟨e1, e2⟩ := Key.derive_gst hr
      have e3 : r.gst = gK := Gst.abs_inj (e2.trans (int_steps hz30 hge))
      refine ⟨⟨k, _, hp, e1, e3, Key.derive_derives hr⟩, ?_⟩
      rintro vk' ⟨k', n', f1, f2, f3, f4⟩
      rw [hp] at f1; cases f1
      refine ⟨by rw [f2, e1], ?_⟩
      have ht := f4.time
      dsimp only at ht
      rw [f3] at ht
      have hn := int_steps_unique hz30 ht
      rw [hn] at f4
      have := f4.det (Key.derive_derives hr)
      exact congrArg Prod.snd this
    · rename_i hge
      simp only [Res.pure_eq, Res.ok.injEq] at h
      subst h
      rintro vk ⟨k', n', f1, f2, f3, f4⟩
      rw [hp] at f1; cases f1
      have ht := f4.time
      dsimp only at ht
      rw [f3] at ht
      apply hge
      omega

/-- The tags that the library checks when a key arrives are those of the machine. -/
theorem uses_tagsDue {d : OsnmaData C} {macks : List MackCall} {key : Key} {log : List (KeyEvent C)} {sk : Option Key} {gm gs t10 : Gst}
    {slow : Bool} (hslow : d.onlySlowmac = slow) (ha : key.gst.Aligned) (hk : ∀ k, d.key.Has k → k.gst.Aligned)
    (hheld : (d.key.key0, d.key.key1) = teslaHeld log) (hforce : d.key.chainInForce = force log)
    (hget : ∀ v g, d.mack.get S v g = .ok (expectedMack S macks v g))
    (ht : t10.abs = key.gst.abs - 300) (h : d.slowmacKey key = .ok sk) :
    d.cedUses S key sk gm gs = tagsDue S slow macks log key gm t10 gs .ced ∧
      d.timingUses S key gm = tagsDue S slow macks log key gm t10 gs .timing := by
  have hfast : ∀ adkd v, d.fastUses S key gm adkd v = if slow then [] else acceptedTags C S macks key (· = key) gm adkd v := by
    intro adkd v
    unfold OsnmaData.fastUses
    rw [hslow]
    cases slow
    · simp only [Bool.false_eq_true, if_false]
      exact tagsOf_accepted (hget v gm) (fun msg => by simp)
    · rfl
  have hsl : ∀ v, d.slowUses S key sk gs v = acceptedTags C S macks key (PastKey log t10) gs 12 v := by
    intro v
    have := slowmacKey_pastKey ha hk hheld hforce ht h
    unfold OsnmaData.slowUses
    cases sk with
    | none => dsimp only at this ⊢; rw [acceptedTags_none this]
    | some vk =>
      dsimp only at this ⊢
      refine tagsOf_accepted (hget v gs) (fun msg => ?_)
      constructor
      · rintro ⟨vk', h1, h2⟩
        obtain ⟨e1, e2⟩ := this.2 vk' h1
        exact h2.congr e1 e2
      · intro h2; exact ⟨vk, this.1, h2⟩
  constructor
  · unfold OsnmaData.cedUses tagsDue
    congr 1; funext v; rw [hfast, hsl]
  · unfold OsnmaData.timingUses tagsDue
    congr 1; funext v; rw [hfast]

/-! ## Tags that count -/

theorem Frames.right {fs : List NavFrame} {L : List NavSlot} (h : Frames S fs L) {s : NavSlot} (hs : s ∈ L) : ∃ f ∈ fs, FrameOf S f s := by
  induction h with
  | nil => simp at hs
  | @cons f t fs L h _ ih =>
    rcases List.mem_cons.1 hs with rfl | hs
    · exact ⟨f, by simp, h⟩
    · obtain ⟨f', h1, h2⟩ := ih hs
      exact ⟨f', by simp [h1], h2⟩

theorem Frames.left {fs : List NavFrame} {L : List NavSlot} (h : Frames S fs L) {f : NavFrame} (hf : f ∈ fs) : ∃ s ∈ L, FrameOf S f s := by
  induction h with
  | nil => simp at hf
  | @cons g t fs L h _ ih =>
    rcases List.mem_cons.1 hf with rfl | hf
    · exact ⟨t, by simp, h⟩
    · obtain ⟨s, h1, h2⟩ := ih hf
      exact ⟨s, by simp [h1], h2⟩

theorem entryAt_slot {n : CollectNavMessage} {L : List NavSlot} (h : Rep S n L) {arr : List NavItem} {g : Gst} {v : Svn} {y : NavItem}
    (he : n.entryAt S arr g v = some y) : ∃ s ∈ L, s.gst = g := by
  unfold CollectNavMessage.entryAt at he
  cases hf : n.gsts.findIdx? (fun x => x == some g) with
  | none => rw [hf] at he; cases he
  | some i =>
    rw [List.findIdx?_eq_some_iff_getElem] at hf
    obtain ⟨hi, hp, _⟩ := hf
    obtain ⟨k, hk, rfl⟩ := pos_surj h.wp (by rw [← h.lg]; exact hi)
    have hg := h.gst k hk
    rw [List.getElem?_eq_getElem hi] at hg
    simp only [beq_iff_eq] at hp
    rw [hp, Option.some.injEq] at hg
    cases hL : L[k]? with
    | none => rw [hL] at hg; cases hg
    | some t =>
      rw [hL] at hg
      simp only [Option.map_some, Option.some.injEq] at hg
      exact ⟨t, List.mem_of_getElem? hL, hg.symm⟩

/-- The entry of a satellite in a subframe. -/
theorem FrameOf.entry {f : NavFrame} {s : NavSlot} (h : FrameOf S f s) (kd : NavKind) {x : NavItem} (hx : x ∈ s.items kd) {v : Svn}
    (hv : x.svn = some v) : f.Has v ∧ x.messageBits kd.nbits = f.data kd v ∧ x.maxAge = kd.oldestAge f.words v ∧
      x.minAge = kd.newestAge f.words v ∧ x.authbits = f.auth kd v := by
  have he := h.entries kd
  refine ⟨he.full.fed x hx v hv, ((he.full.inv x hx).bits (he.good.wf x hx) hv).1, ?_, ?_, he.auth x hx v hv⟩
  · unfold NavItem.maxAge NavKind.oldestAge; rw [he.age x hx v hv]
  · unfold NavItem.minAge NavKind.newestAge; rw [he.age x hx v hv]

theorem counts_iff {n : CollectNavMessage} {L : List NavSlot} (hr : Rep S n L) {fs : List NavFrame} (hf : Frames S fs L)
    (huniq : ∀ s ∈ L, ∀ t ∈ L, t.gst = s.gst → t = s) (kd : NavKind) {f : NavFrame} {s : NavSlot} (hfs : FrameOf S f s) {x : NavItem}
    (hx : x ∈ s.items kd) {v : Svn} (hv : x.svn = some v) (u : TagUse) :
    u.Counts S C n (n.arr kd) kd.nbits x ↔ u.CountsFor C fs kd v f := by
  obtain ⟨hHas, hbits, _, _, _⟩ := hfs.entry kd hx hv
  have hfind : ∀ t ∈ L, ∀ w, n.entryAt S (n.arr kd) t.gst w = (t.items kd).find? (fun x => x.svn == some w) :=
    fun t ht w => CollectNavMessage.Rep.entryAt hr kd ht (huniq t ht) w
  constructor
  · rintro ⟨h1, h2, svn, y, h3, h4, h5, h6, h7, h8⟩
    rw [hv] at h6; cases h6
    unfold entryBefore at h4
    cases hg : u.gst.addSeconds (-30) with
    | panic w => rw [hg] at h4; cases h4
    | ok g =>
      rw [hg] at h4
      dsimp only at h4
      have hgabs := ((Gst.addSeconds_eq_ok (by omega)).1 hg).2
      obtain ⟨t, ht, rfl⟩ := entryAt_slot hr h4
      rw [hfind t ht] at h4
      obtain ⟨e, he, het⟩ := hf.right ht
      have hyv := entryAt_svn (by rw [hfind t ht]; exact h4)
      obtain ⟨k1, k2, k3, _, _⟩ := het.entry kd (List.mem_of_find?_eq_some h4) hyv
      refine ⟨h1, h2, h3.symm, hHas, e, he, by rw [het.gst]; omega, k1, by rw [← k3]; exact h5, by rw [← hbits, ← k2]; exact h7, ?_⟩
      rw [← hbits]; exact h8
  · rintro ⟨h1, h2, h3, _, e, he, h4, h5, h6, h7, h8⟩
    obtain ⟨t, ht, het⟩ := hf.left he
    obtain ⟨c, hc, hcv⟩ := h5
    obtain ⟨y0, hy0, hy0v⟩ := (het.entries kd).full.all c hc
    rw [hcv] at hy0v
    have hsome : ((t.items kd).find? (fun x => x.svn == some v)).isSome := by
      rw [List.find?_isSome]; exact ⟨y0, hy0, by simp [hy0v]⟩
    obtain ⟨y, hy⟩ := Option.isSome_iff_exists.1 hsome
    have hyv : y.svn = some v := by simpa using List.find?_some hy
    obtain ⟨k1, k2, k3, _, _⟩ := het.entry kd (List.mem_of_find?_eq_some hy) hyv
    refine ⟨h1, h2, v, y, h3.symm, ?_, by rw [k3]; exact h6, hv, by rw [hbits, k2]; exact h7, by rw [hbits]; exact h8⟩
    have hg : u.gst.addSeconds (-30) = .ok t.gst := (Gst.addSeconds_eq_ok (by omega)).2 ⟨by omega, by rw [← het.gst]; omega⟩
    rw [entryBefore_eq hg, hfind t ht]; exact hy

theorem usesGain_gainFor {n : CollectNavMessage} {L : List NavSlot} (hr : Rep S n L) {fs : List NavFrame} (hf : Frames S fs L)
    (huniq : ∀ s ∈ L, ∀ t ∈ L, t.gst = s.gst → t = s) (kd : NavKind) {f : NavFrame} {s : NavSlot} (hfs : FrameOf S f s) {x : NavItem}
    (hx : x ∈ s.items kd) {v : Svn} (hv : x.svn = some v) (us : List TagUse) :
    usesGain S C n (n.arr kd) kd.nbits us x = gainFor C fs us kd v f := by
  unfold usesGain gainFor
  congr 1
  apply List.map_congr_left
  intro u _
  unfold tagGain
  have := counts_iff (C := C) hr hf huniq kd hfs hx hv u
  unfold TagUse.Counts at this
  by_cases hc : u.CountsFor C fs kd v f
  · rw [if_pos hc, if_pos (this.2 hc)]
  · rw [if_neg hc, if_neg (fun h => hc (this.1 h))]

open Classical in
theorem gainFor_unseen {fs : List NavFrame} {us : List TagUse} {kd : NavKind} {v : Svn} {f : NavFrame} (h : ¬ f.Has v) :
    gainFor C fs us kd v f = 0 := by
  unfold gainFor
  have : ∀ u ∈ us, (fun u : TagUse => if u.CountsFor C fs kd v f then u.tag.tag.length else 0) u = 0 := by
    intro u _
    dsimp only
    rw [if_neg]
    rintro ⟨_, _, _, h', _⟩
    exact h h'
  rw [List.map_congr_left this, List.map_const']
  simp

theorem EntriesOf.gain {n : Nat} {kd : NavKind} {p : List InavCall} {A : Svn → NavField → Nat} {a : Svn → Nat} {g : Gst} {l : List NavItem}
    (h : EntriesOf n kd p A a g l) {b : NavItem → Nat} {a' : Svn → Nat}
    (h1 : ∀ x ∈ l, ∀ v, x.svn = some v → a' v = min 65535 (a v + b x)) (h2 : ∀ x ∈ l, x.svn = none → b x = 0)
    (h3 : ∀ v, (∀ c ∈ p, c.svn ≠ v) → a' v = 0) : EntriesOf n kd p A a' g (addGains b l) := by
  unfold addGains
  refine ⟨h.good.add b, ⟨?_, ?_, ?_⟩, ?_, ?_, ?_, h3⟩
  · intro x hx
    obtain ⟨y, hy, rfl⟩ := List.mem_map.1 hx
    have := h.full.inv y hy
    exact ⟨this.unassigned, this.pad, this.field, this.any⟩
  · intro x hx v hv
    obtain ⟨y, hy, rfl⟩ := List.mem_map.1 hx
    exact h.full.fed y hy v hv
  · intro d hd
    obtain ⟨x, hx, hxs⟩ := h.full.all d hd
    exact ⟨_, List.mem_map_of_mem hx, hxs⟩
  · intro x hx v hv
    obtain ⟨y, hy, rfl⟩ := List.mem_map.1 hx
    exact h.age y hy v hv
  · intro x hx v hv
    obtain ⟨y, hy, rfl⟩ := List.mem_map.1 hx
    rw [h1 y hy v hv, ← h.auth y hy v hv]
    rfl
  · intro x hx hv
    obtain ⟨y, hy, rfl⟩ := List.mem_map.1 hx
    show min 65535 (y.authbits + b y) = 0
    rw [h.unassigned y hy hv, h2 y hy hv]; rfl

/-- The subframes after the tags are checked. -/
theorem Frames.tags {n : CollectNavMessage} {L : List NavSlot} (hr : Rep S n L) {fs : List NavFrame} (hf : Frames S fs L)
    (huniq : ∀ s ∈ L, ∀ t ∈ L, t.gst = s.gst → t = s) (us : NavKind → List TagUse) :
    Frames S (tagsChecked C us fs)
      (L.map (fun s => s.gain (usesGain S C n n.ced 549 (us .ced)) (usesGain S C n n.timing 141 (us .timing)))) := by
  have step : ∀ f s, FrameOf S f s →
      FrameOf S { f with auth := fun kd v => min 65535 (f.auth kd v + gainFor C fs (us kd) kd v f) }
        (s.gain (usesGain S C n n.ced 549 (us .ced)) (usesGain S C n n.timing 141 (us .timing))) := by
    intro f s hfs
    refine ⟨hfs.gst, hfs.last, hfs.chr, ?_⟩
    intro kd
    have key : ∀ kd : NavKind, EntriesOf S.numSats kd f.words (kd.fieldAge f.words)
        (fun v => min 65535 (f.auth kd v + gainFor C fs (us kd) kd v f)) s.gst
        (addGains (usesGain S C n (n.arr kd) kd.nbits (us kd)) (s.items kd)) := by
      intro kd
      refine (hfs.entries kd).gain ?_ ?_ ?_
      · intro x hx v hv
        rw [usesGain_gainFor hr hf huniq kd hfs hx hv]
      · intro x hx hv
        exact usesGain_unassigned _ _ _ _ hv
      · intro v hv
        rw [gainFor_unseen (by rintro ⟨c, hc, h⟩; exact hv c hc h), (hfs.entries kd).unseen v hv]; rfl
    cases kd
    · exact key .ced
    · exact key .timing
  unfold tagsChecked
  generalize hfn : (fun f : NavFrame => ({ f with auth := fun kd v => min 65535 (f.auth kd v + gainFor C fs (us kd) kd v f) } : NavFrame)) = fn at *
  have step' : ∀ f s, FrameOf S f s → FrameOf S (fn f) (s.gain (usesGain S C n n.ced 549 (us .ced)) (usesGain S C n n.timing 141 (us .timing))) := by
    intro f s h; rw [← hfn]; exact step f s h
  clear step hfn huniq hr
  induction hf with
  | nil => exact .nil
  | cons h _ ih => exact .cons (step' _ _ h) ih

end Verif
