import Verif.Lemmas.Authentic
import Verif.Lemmas.NavTags
import Verif.Lemmas.PlacesKept
import Verif.Spec.Disclosure

/-! # Lemmas: the data and the tag come before the key -/

namespace Verif
open CollectNavMessage

variable {C : Crypto} {S : Storage}

/-- The words received when a slot of the store was last written, if the words come in chronological order. -/
theorem slot_words {hist : List Call} {o : Osnma C} (hinv : NavInv S hist o (o.stored S)) {s : NavSlot} (hs : s ∈ o.stored S) :
    ∃ q, navHead S q = some s.core ∧ (∃ r, inavsOf hist = q ++ r) ∧
      (Chronological (inavsOf hist) → wordsUpTo hist s.gst.abs = q) := by
  obtain ⟨k, hk, he⟩ := List.mem_iff_getElem.1 hs
  have hks : (o.stored S)[k]? = some s := by rw [List.getElem?_eq_getElem hk, he]
  obtain ⟨q, r, h1, hhead, hrest⟩ := hinv.prefix hks
  refine ⟨q, hhead, ⟨r, h1⟩, ?_⟩
  intro hchr
  have h3 : ∀ c, r.head? = some c → c.gst.subframe ≠ s.gst := by
    intro c hc
    rcases hrest with ⟨_, rfl⟩ | ⟨_, c', r', rfl, hne⟩
    · cases hc
    · cases hc; exact hne
  obtain ⟨q', l, hql, h5⟩ := navHead_gst hhead
  have h5 : s.gst = l.gst.subframe := h5
  have hpw := hchr.pairwise
  rw [h1] at hpw
  have hpa := List.pairwise_append.1 hpw
  have hlm : l ∈ q := by rw [hql]; simp
  have hcq : Chronological q := by
    intro i a b ha hb
    have l1 : i < q.length := (List.getElem?_eq_some_iff.1 ha).1
    have l2 : i + 1 < q.length := (List.getElem?_eq_some_iff.1 hb).1
    exact hchr i a b (by rw [h1, List.getElem?_append_left l1]; exact ha) (by rw [h1, List.getElem?_append_left l2]; exact hb)
  have hq : ∀ d ∈ q, d.gst.subframe.abs ≤ s.gst.abs := by
    intro d hd
    rw [h5]
    rw [hql] at hd hcq
    exact hcq.le_last d hd
  have hr : ∀ d ∈ r, s.gst.abs < d.gst.subframe.abs := by
    intro d hd
    cases r with
    | nil => simp at hd
    | cons e r' =>
      have e1 : s.gst.abs ≤ e.gst.subframe.abs := by
        rw [h5]; exact hpa.2.2 l hlm e (by simp)
      have e2 : e.gst.subframe.abs ≠ s.gst.abs := fun hh => h3 e rfl (Gst.abs_inj hh)
      rcases List.mem_cons.1 hd with rfl | hd
      · omega
      · have := (List.pairwise_cons.1 hpa.2.1).1 d hd; omega
  unfold wordsUpTo
  rw [h1, List.filter_append, List.filter_eq_self.2 (by intro d hd; simpa using hq d hd),
    List.filter_eq_nil_iff.2 (by intro d hd; have := hr d hd; simp; omega), List.append_nil]

/-- The slot in which an entry is found. -/
theorem entryAt_mem {n : CollectNavMessage} {L : List NavSlot} (h : Rep S n L) (kd : NavKind) {g : Gst} {v : Svn} {y : NavItem}
    (he : n.entryAt S (n.arr kd) g v = some y) : ∃ s ∈ L, s.gst = g ∧ y ∈ s.items kd := by
  have hsl : ∀ k, k < S.navDepth → slotOf S.numSats (n.arr kd) (pos S.navDepth n.writePointer k)
    = (L[k]?.map (fun s => s.items kd)).getD (List.replicate S.numSats kd.newItem) := by
    intro k hk
    cases kd
    · exact h.ced k hk
    · exact h.timing k hk
  unfold CollectNavMessage.entryAt at he
  cases hf : n.gsts.findIdx? (fun x => x == some g) with
  | none => rw [hf] at he; cases he
  | some i =>
    rw [hf] at he
    dsimp only at he
    rw [List.findIdx?_eq_some_iff_getElem] at hf
    obtain ⟨hi, hp, _⟩ := hf
    obtain ⟨k, hk, rfl⟩ := pos_surj h.wp (by rw [← h.lg]; exact hi)
    have hg := h.gst k hk
    rw [List.getElem?_eq_getElem hi] at hg
    simp only [beq_iff_eq] at hp
    rw [hp, Option.some.injEq] at hg
    cases hL : L[k]? with
    | none => rw [hL] at hg; cases hg
    | some t =>
      rw [hL] at hg
      simp only [Option.map_some, Option.some.injEq] at hg
      refine ⟨t, List.mem_of_getElem? hL, hg.symm, ?_⟩
      have hs := hsl k hk
      rw [hL] at hs
      simp only [Option.map_some, Option.getD_some] at hs
      rw [← hs]
      exact List.mem_of_find?_eq_some he

theorem ReceivedData.of_segs {p : List InavCall} {kd : NavKind} {v : Svn} {y : NavItem}
    (h : ∀ (i : Nat) (f : NavField), kd.fields[i]? = some f → ∃ c ∈ p, c.svn = v ∧ kd.carries c f = true ∧ y.seg kd i f = f.bits c) :
    ReceivedData p kd v (y.messageBits kd.nbits) := by
  classical
  have h' : ∀ f : NavField, ∃ c : InavCall, f ∈ kd.fields → c ∈ p ∧ c.svn = v ∧ kd.carries c f = true ∧
      ∀ i, kd.fields[i]? = some f → y.seg kd i f = f.bits c := by
    intro f
    by_cases hf : f ∈ kd.fields
    · obtain ⟨i, hi⟩ := List.mem_iff_getElem?.1 hf
      obtain ⟨c, a, b, d, e⟩ := h i f hi
      refine ⟨c, fun _ => ⟨a, b, d, ?_⟩⟩
      intro j hj
      have : j = i := by
        have hnd : kd.fields.Nodup := by cases kd <;> decide
        have li := (List.getElem?_eq_some_iff.1 hi).1
        exact ((List.getElem?_inj (i := i) (j := j) li hnd).1 (by rw [hi, hj])).symm
      subst this
      exact e
    · obtain ⟨f0, hf0⟩ := kd.fields_nonempty
      obtain ⟨i, hi⟩ := List.mem_iff_getElem?.1 hf0
      obtain ⟨c, _⟩ := h i f0 hi
      exact ⟨c, fun hh => absurd hh hf⟩
  obtain ⟨W, hW⟩ := Classical.axiomOfChoice h'
  refine ⟨kd.fields.map W, by simp, ?_, ?_, ?_⟩
  · intro c hc
    obtain ⟨f, hf, rfl⟩ := List.mem_map.1 hc
    exact ⟨(hW f hf).1, (hW f hf).2.1⟩
  · intro x hx
    rw [List.zip_map_right, List.mem_map] at hx
    obtain ⟨⟨a, b⟩, hab, rfl⟩ := hx
    have hz : a = b ∧ a ∈ kd.fields := by
      rw [List.zip_eq_zipWith, List.zipWith_self, List.mem_map] at hab
      obtain ⟨f, hf, e⟩ := hab
      cases e; exact ⟨rfl, hf⟩
    obtain ⟨rfl, ha⟩ := hz
    exact (hW a ha).2.2.1
  · rw [NavItem.bits_of_segs (F := fun f => f.bits (W f)) (fun i f hf => (hW f (List.mem_of_getElem? hf)).2.2.2 i hf)]
    rw [List.zip_map_right, List.zip_eq_zipWith, List.zipWith_self, List.map_map, List.flatMap_map]
    rfl

section
variable {root0 : Option MerkleTreeNode} {pk0 : Option (PublicKey C)} {slow : Bool}

theorem ReceivedMack.of_earlier (hS : S.Consistent) {o0 : Osnma C} (h0 : o0.Fresh S) {hist : List Call} {o o' : Osnma C}
    {d : OsnmaDataMessage} {s : Svn} {g : Gst} (hrun : run S o0 hist = .ok o)
    (k : KeyArrives S o o' d s g) {vk : Key} {c : Chain} {gm : Gst} {v : Svn} {msg : MackMessage} {st : NmaStatus} (hne : gm ≠ k.g)
    (h : ({ k.d1 with key := k.ks } : OsnmaData C).usableMack S vk c gm v = some (msg, st)) : ReceivedMack hist v gm st msg := by
  obtain ⟨outs, _, hm1, hm2⟩ := received_run hS h0 hrun
  have hst : storeMacks S (emitted (pagesOf hist) outs ++ [⟨k.msg, s, k.g, (NmaHeader.mk k.b0).nmaStatus⟩]) = .ok k.d1.mack := by
    unfold storeMacks at hm1 ⊢
    rw [loopM_append, hm1]
    dsimp only
    rw [loopM_cons]
    dsimp only
    rw [k.d1_nav.2.1, k.hstore]
    rfl
  unfold OsnmaData.usableMack at h
  obtain ⟨m, r, h1, h2, h3⟩ := C10_get_sound hS _ v gm
  rw [hst] at h1; cases h1
  rw [show ({ k.d1 with key := k.ks } : OsnmaData C).mack = k.d1.mack from rfl, h2] at h
  cases r with
  | none => cases h
  | some p =>
    obtain ⟨m', st'⟩ := p
    dsimp only at h
    split at h
    · simp only [Option.some.injEq, Prod.mk.injEq] at h
      obtain ⟨rfl, rfl⟩ := h
      rcases List.mem_append.1 (h3 _ _ rfl) with hmem | hmem
      · exact hm2 _ hmem
      · simp only [List.mem_singleton, MackCall.mk.injEq] at hmem
        exact absurd hmem.2.2.1 hne
    · cases h

/-- Every tag that counts when a key arrives was in time. -/
theorem KeyArrives.inTime (hS : S.Consistent) (h0 : (Osnma.new S root0 pk0 slow : Osnma C).Fresh S) {hist : List Call}
    {log : List (KeyEvent C)} {o o' : Osnma C} {d : OsnmaDataMessage} {s : Svn} {g : Gst}
    (hl : Logs S (Osnma.new S root0 pk0 slow) hist log o)
    (k : KeyArrives S o o' d s g) {kd : NavKind} {u : TagUse} (hu : u ∈ k.uses kd) {x : NavItem}
    (hcnt : u.Counts S C o.data.data.navmessage (o.data.data.navmessage.arr kd) kd.nbits x) {v : Svn} (hv : x.svn = some v) :
    u.InTime S (Osnma.new S root0 pk0 slow) (hist ++ [.osnma d s g]) kd v (x.messageBits kd.nbits) hist.length := by
  have htake : (hist ++ [Call.osnma d s g]).take hist.length = hist := by simp
  have hkeq := k.uses_key hu
  have hinv := navInv_run hS h0 hl.run
  -- the entry
  obtain ⟨_, _, svn, y, _, c4, c5, c6, c7, _⟩ := hcnt
  rw [hv, Option.some.injEq] at c6
  subst c6
  have hym := entryBefore_mem c4
  have hyv : y.svn = some v := by
    unfold entryBefore at c4
    split at c4
    · exact entryAt_svn c4
    · cases c4
  -- the MACK message
  have hmack : ∃ m, ReceivedMack hist u.prna u.gst u.st m ∧ u.tag ∈ mackTags m u.key.chain u.prna := by
    have hgm := ((Gst.addSeconds_eq_ok (by omega)).1 k.hgm).2
    have hgs := ((Gst.addSeconds_eq_ok (by omega)).1 k.hgs).2
    have ne1 : k.gstMack ≠ k.g := by intro e; rw [e] at hgm; omega
    have ne2 : k.gstSlow ≠ k.g := by intro e; rw [e] at hgs; omega
    rw [hkeq]
    cases kd with
    | ced =>
      obtain ⟨_, m, e1, ⟨_, e3, _, e5⟩ | ⟨e3, _, sk, _, e6⟩⟩ := OsnmaData.mem_cedUses hu
      · rw [e3]; exact ⟨m, .of_earlier hS h0 hl.run k ne1 e5, e1⟩
      · rw [e3]; exact ⟨m, .of_earlier hS h0 hl.run k ne2 e6, e1⟩
    | timing =>
      obtain ⟨_, m, e1, _, e3, _, e5⟩ := OsnmaData.mem_timingUses hu
      rw [e3]; exact ⟨m, .of_earlier hS h0 hl.run k ne1 e5, e1⟩
  have hcop : u.tag.cop < 16 := by
    obtain ⟨m, _, hm⟩ := hmack
    unfold mackTags at hm
    obtain ⟨j, _, hj⟩ := List.mem_map.1 hm
    rw [← hj]
    have : ∀ l : List Bool, loadBe (l.take 4) < 16 := by
      intro l
      refine Nat.lt_of_lt_of_le (loadBe_lt _) (Nat.le_trans (Nat.pow_le_pow_right (by omega) (List.length_take_le 4 l)) (by decide))
    unfold mackTag
    dsimp only
    split <;> exact this _
  -- its slot
  cases hgb : u.gst.addSeconds (-30) with
  | panic w => unfold entryBefore at c4; rw [hgb] at c4; cases c4
  | ok gb =>
    have hgba := ((Gst.addSeconds_eq_ok (by omega)).1 hgb).2
    rw [entryBefore_eq hgb] at c4
    obtain ⟨sl, hs1, hs2, hs3⟩ := entryAt_mem hinv.rep kd c4
    obtain ⟨q, q1, ⟨r, q2⟩, q3⟩ := slot_words hinv hs1
    have hgood := hinv.good hS kd hs1
    have hwf := hgood.wf y hs3
    have hyc : y.core ∈ sl.core.items kd := by rw [NavSlot.core_items]; exact List.mem_map_of_mem hs3
    have hfr := navHead_fresh hS.sats_pos kd q sl.core q1 y.core hyc
    have hfield : ∀ (i : Nat) (f : NavField), kd.fields[i]? = some f → ∃ a c, a + 1 ≤ u.tag.cop ∧ kd.latest q v f = some c ∧
        y.seg kd i f = f.bits c ∧ (Contiguous q → c.gst.subframe.abs + 30 * (a : Int) = sl.gst.abs) := by
      intro i f hf
      have hi : i < y.age.length := by rw [hwf.age]; exact (List.getElem?_eq_some_iff.1 hf).1
      have hle := NavItem.maxAge_le.1 (Nat.le_refl y.maxAge) _ (List.getElem_mem hi)
      obtain ⟨c, e1, e2, e3⟩ := hfr.field v hyv i f y.age[i] hf (List.getElem?_eq_getElem hi) (by omega)
      exact ⟨y.age[i], c, by omega, e1, e2, e3⟩
    have hlatest : ∀ {f : NavField} {c : InavCall}, kd.latest q v f = some c → c ∈ q ∧ c.svn = v ∧ kd.carries c f = true := by
      intro f c hc
      unfold NavKind.latest at hc
      have := List.mem_of_getLast? hc
      rw [List.mem_filter] at this
      simpa using this
    have hbits : y.messageBits kd.nbits = kd.expected q v := by
      unfold NavKind.expected
      refine NavItem.bits_of_segs ?_
      intro i f hf
      obtain ⟨a, c, _, e1, e2, _⟩ := hfield i f hf
      unfold NavKind.fieldAfter
      rw [e1]
      exact e2
    have hga : sl.gst.abs = u.gst.abs - 30 := by rw [hs2]; omega
    refine ⟨⟨log, o, .osnma d s g, by simp, by rw [htake]; exact hl, ?_⟩, by rw [htake]; exact hmack, ?_, ?_, ?_⟩
    · rw [hkeq, k.events k.hz, OsnmaData.teslaEvents_accept k.hcur k.hal k.hlt k.hval]
      simp
    · rw [htake, c7]
      refine ReceivedData.of_segs ?_
      intro i f hf
      obtain ⟨a, c, _, e1, e2, _⟩ := hfield i f hf
      obtain ⟨l1, l2, l3⟩ := hlatest e1
      exact ⟨c, by rw [q2]; exact List.mem_append_left _ l1, l2, l3, e2⟩
    · rw [htake]
      intro hchr
      have := q3 hchr
      rw [hga] at this
      rw [this, c7]
      refine ⟨hbits.symm, ?_⟩
      intro f hf
      obtain ⟨i, hi⟩ := List.mem_iff_getElem?.1 hf
      obtain ⟨a, c, _, e1, _⟩ := hfield i f hi
      exact ⟨c, e1⟩
    · rw [htake]
      intro hcont f hf
      obtain ⟨i, hi⟩ := List.mem_iff_getElem?.1 hf
      obtain ⟨a, c, e0, e1, _, e3⟩ := hfield i f hi
      obtain ⟨l1, l2, l3⟩ := hlatest e1
      have := e3 (hcont.prefix q2)
      exact ⟨c, by rw [q2]; exact List.mem_append_left _ l1, l2, l3, by omega, by omega⟩

theorem TagUse.InTime.mono {o0 : Osnma C} {hist : List Call} {c : Call} {kd : NavKind} {v : Svn} {bits : List Bool} {i : Nat} {u : TagUse}
    (h : u.InTime S o0 hist kd v bits i) : u.InTime S o0 (hist ++ [c]) kd v bits i := by
  obtain ⟨log, o, c', a, b, e⟩ := h.accepted
  have hi : i < hist.length := (List.getElem?_eq_some_iff.1 a).1
  have ht : (hist ++ [c]).take i = hist.take i := List.take_append_of_le_length (by omega)
  exact ⟨⟨log, o, c', by rw [List.getElem?_append_left hi]; exact a, by rw [ht]; exact b, e⟩, by rw [ht]; exact h.tag,
    by rw [ht]; exact h.data, by rw [ht]; exact h.latest, by rw [ht]; exact h.recent⟩

theorem TagUse.InTime.lt {o0 : Osnma C} {hist : List Call} {kd : NavKind} {v : Svn} {bits : List Bool} {i : Nat} {u : TagUse}
    (h : u.InTime S o0 hist kd v bits i) : i < hist.length := by
  obtain ⟨log, o, c', a, b, e⟩ := h.accepted
  exact (List.getElem?_eq_some_iff.1 a).1

/-- Evidence for one entry of the store, with the calls. -/
def TimedEvidence (S : Storage) (root0 : Option MerkleTreeNode) (pk0 : Option (PublicKey C)) (slow : Bool) (hist : List Call) (kd : NavKind)
    (x : NavItem) : Prop :=
  ∃ us : List (Nat × TagUse), us.Nodup ∧ x.authbits = min 65535 (us.map (fun p => p.2.tag.tag.length)).sum ∧
    ∀ p ∈ us, ∃ v, x.svn = some v ∧ p.2.Proves root0 pk0 slow hist kd v (x.messageBits kd.nbits) ∧
      p.2.InTime S (Osnma.new S root0 pk0 slow) hist kd v (x.messageBits kd.nbits) p.1

theorem timed_evidence (hS : S.Consistent) (h0 : (Osnma.new S root0 pk0 slow : Osnma C).Fresh S) {hist : List Call} {o : Osnma C}
    (h : run S (Osnma.new S root0 pk0 slow) hist = .ok o) :
    ∀ kd, ∀ x ∈ o.data.data.navmessage.arr kd, TimedEvidence S root0 pk0 slow hist kd x := by
  have zero : ∀ (hist : List Call) (kd : NavKind) (x : NavItem), x.authbits = 0 → TimedEvidence S root0 pk0 slow hist kd x := by
    intro hist kd x hx
    exact ⟨[], by simp, by simpa using hx, by simp⟩
  have mono : ∀ (hist : List Call) (c : Call) (kd : NavKind) (x : NavItem), TimedEvidence S root0 pk0 slow hist kd x →
      TimedEvidence S root0 pk0 slow (hist ++ [c]) kd x := by
    intro hist c kd x ⟨us, e0, e1, e2⟩
    refine ⟨us, e0, e1, ?_⟩
    intro u hu
    obtain ⟨v, hv, hp, ht⟩ := e2 u hu
    exact ⟨v, hv, hp.mono, ht.mono⟩
  refine item_induction hS h0 (P := TimedEvidence S root0 pk0 slow) ?_ mono ?_ ?_ ?_ h
  · intro hist kd
    exact zero _ _ _ (by cases kd <;> rfl)
  · intro hist kd x hx
    exact hx
  · intro hist kd c x hw hx
    rcases NavItem.feedUpd_auth (kd.upd c) c.svn x with h | ⟨h1, h2, h3⟩
    · exact zero _ _ _ h
    · rcases Nat.eq_zero_or_pos x.authbits with hz | hpos
      · exact zero _ _ _ (by rw [h1, hz])
      · obtain ⟨us, e0, e1, e2⟩ := mono _ (.inav c.word c.svn c.gst c.band) _ _ hx
        refine ⟨us, e0, by rw [h1]; exact e1, ?_⟩
        intro u hu
        obtain ⟨v, hv, hp⟩ := e2 u hu
        have hb : (NavItem.feedUpd (kd.upd c) c.svn x).messageBits kd.nbits = x.messageBits kd.nbits := by
          unfold NavItem.messageBits; rw [h2]
        refine ⟨v, ?_, by rw [hb]; exact hp⟩
        rw [NavItem.feedUpd_svn]
        rcases h3 with h3 | h3 <;> rw [hv] at h3
        · exact h3.symm
        · cases h3
  · intro hist o o' d s g hrun hc ih k kd x hx
    obtain ⟨log, h1⟩ := Logs.of_run hrun
    obtain ⟨us, e0, e1, e2⟩ := ih kd x hx
    classical
    refine ⟨us ++ ((k.uses kd).filter (fun u => decide (u.Counts S C o.data.data.navmessage
      (o.data.data.navmessage.arr kd) kd.nbits x))).map (fun u => (hist.length, u)), ?_, ?_, ?_⟩
    · rw [List.nodup_append]
      refine ⟨e0, nodup_map_of_inj ((k.uses_nodup kd).filter _) (fun a b h => (Prod.mk.inj h).2), ?_⟩
      intro a ha b hb he
      obtain ⟨u, _, rfl⟩ := List.mem_map.1 hb
      obtain ⟨v, _, _, ht⟩ := e2 a ha
      have := ht.lt
      rw [he] at this
      exact absurd this (Nat.lt_irrefl _)
    · rw [usesGain_filter, List.map_append, List.sum_append, List.map_map]
      show min 65535 (x.authbits + _) = _
      rw [e1]
      simp only [Function.comp_def]
      omega
    · intro p hp
      rcases List.mem_append.1 hp with hu | hu
      · obtain ⟨v, hv, hp, ht⟩ := e2 p hu
        exact ⟨v, hv, hp.mono, ht.mono⟩
      · obtain ⟨u, hmem, rfl⟩ := List.mem_map.1 hu
        obtain ⟨hu, hcnt⟩ := List.mem_filter.1 hmem
        have hcnt := of_decide_eq_true hcnt
        obtain ⟨_, _, v, _, _, _, _, hv, _⟩ := id hcnt
        exact ⟨v, hv, k.proves hS h0 h1 hc hu hcnt hv, k.inTime hS h0 h1 hu hcnt hv⟩

end
end Verif
