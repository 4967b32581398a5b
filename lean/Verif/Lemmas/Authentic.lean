import Verif.Lemmas.KeyInv
import Verif.Lemmas.MackStorage
import Verif.Lemmas.Maclt
import Verif.Spec.Authentic
import Verif.Props.Keys
import Verif.Props.Subframe
import Verif.Props.MackStorage

/-! # Lemmas: end-to-end authenticity -/

namespace Verif
open CollectNavMessage

variable {C : Crypto} {S : Storage}

/-! ## Received MACK messages -/

theorem pagesOf_snoc (hist : List Call) (c : Call) : pagesOf (hist ++ [c]) = pagesOf hist ++ pagesOf [c] := by
  unfold pagesOf; rw [List.filterMap_append]

theorem ReceivedMack.mono {hist : List Call} {c : Call} {prna : Svn} {g : Gst} {st : NmaStatus} {msg : MackMessage}
    (h : ReceivedMack hist prna g st msg) : ReceivedMack (hist ++ [c]) prna g st msg := by
  obtain ⟨ps, h1, h2⟩ := h
  refine ⟨ps, ?_, h2⟩
  rw [pagesOf_snoc]
  exact h1.trans (List.sublist_append_left _ _)

theorem feedPages_snoc {s s1 s2 : CollectSubframe} {ps : List Page} {outs : List SubframeOut} {p : Page} {out : SubframeOut}
    (h : feedPages s ps = .ok (s1, outs)) (h' : s1.feed p.data p.svn p.gst = .ok (s2, out)) :
    feedPages s (ps ++ [p]) = .ok (s2, outs ++ [out]) := by
  induction ps generalizing s outs with
  | nil =>
    simp only [feedPages, Res.ok.injEq, Prod.mk.injEq] at h
    obtain ⟨rfl, rfl⟩ := h
    simp only [List.nil_append, feedPages, h']
  | cons q ps ih =>
    simp only [feedPages, List.cons_append] at h ⊢
    cases hq : s.feed q.data q.svn q.gst with
    | panic w => rw [hq] at h; cases h
    | ok x =>
      obtain ⟨s', o⟩ := x
      rw [hq] at h
      dsimp only at h ⊢
      cases hr : feedPages s' ps with
      | panic w => rw [hr] at h; cases h
      | ok y =>
        obtain ⟨s'', os⟩ := y
        rw [hr] at h
        simp only [Res.ok.injEq, Prod.mk.injEq] at h
        obtain ⟨rfl, rfl⟩ := h
        rw [ih hr]
        rfl

/-- The MACK messages stored when the pages `ps` give the results `outs`. -/
def emitted (ps : List Page) (outs : List SubframeOut) : List MackCall :=
  (ps.zip outs).filterMap (fun x => x.2.map (fun y =>
    ⟨y.2.1, x.1.svn, y.2.2, (NmaHeader.mk (y.1.val[0]?.getD 0)).nmaStatus⟩))

theorem emitted_append {ps qs : List Page} {outs outs' : List SubframeOut} (h : ps.length = outs.length) :
    emitted (ps ++ qs) (outs ++ outs') = emitted ps outs ++ emitted qs outs' := by
  unfold emitted
  rw [List.zip_append h, List.filterMap_append]

theorem feedPages_length {s s' : CollectSubframe} {ps : List Page} {outs : List SubframeOut}
    (h : feedPages s ps = .ok (s', outs)) : ps.length = outs.length := by
  induction ps generalizing s outs with
  | nil => simp only [feedPages, Res.ok.injEq, Prod.mk.injEq] at h; rw [← h.2]; rfl
  | cons p ps ih =>
    simp only [feedPages] at h
    split at h
    · cases h
    · split at h
      · cases h
      · rename_i hr
        simp only [Res.ok.injEq, Prod.mk.injEq] at h
        obtain ⟨rfl, rfl⟩ := h
        simp [ih hr]

theorem nmaStatus_code (b : Byte) : nmasCode (NmaHeader.mk b).nmaStatus = bitField [b] 0 2 := by
  revert b
  decide +kernel

/-- The collector has been fed the pages of the history, and the MACK store the MACK messages received. -/
def PagesInv (S : Storage) (hist : List Call) (o : Osnma C) : Prop :=
  ∃ outs, feedPages .new (pagesOf hist) = .ok (o.subframe, outs) ∧
    storeMacks S (emitted (pagesOf hist) outs) = .ok o.data.data.mack ∧
    ∀ c ∈ emitted (pagesOf hist) outs, ReceivedMack hist c.svn c.gst c.status c.mack

theorem PagesInv.fresh {o0 : Osnma C} (h0 : o0.Fresh S) : PagesInv S [] o0 := by
  rcases h0 with ⟨_, _, _, rfl⟩ | ⟨_, _, rfl⟩ <;> exact ⟨[], rfl, rfl, by simp [emitted, pagesOf]⟩

/-- A page that completes a subframe is collected and its MACK stored. -/
theorem PagesInv.completes {hist : List Call} {o : Osnma C} (h : PagesInv S hist o) {d : OsnmaDataMessage} {s : Svn} {g gs : Gst}
    {sf : CollectSubframe} {hk : HkrootMessage} {msg : MackMessage} {b0 : Byte} {ms : MackStorage}
    (hz : d.val.all (fun x => x == 0#8) = false) (hfeed : o.subframe.feed d s g = .ok (sf, some (hk, msg, gs)))
    (hb0 : hk.val[0]? = some b0) (hstore : o.data.data.mack.store S msg s gs (NmaHeader.mk b0).nmaStatus = .ok ms)
    {o' : Osnma C} (e1 : o'.subframe = sf) (e2 : o'.data.data.mack = ms) : PagesInv S (hist ++ [.osnma d s g]) o' := by
  obtain ⟨outs, ih1, ih2, ih3⟩ := h
  have keep : ∀ c' ∈ emitted (pagesOf hist) outs, ReceivedMack (hist ++ [Call.osnma d s g]) c'.svn c'.gst c'.status c'.mack :=
    fun c' h' => (ih3 c' h').mono
  have hp : pagesOf [Call.osnma d s g] = [⟨d, s, g⟩] := by
    simp only [pagesOf, List.filterMap_cons, hz, Bool.false_eq_true, if_false, List.filterMap_nil]
  have hem : emitted (pagesOf (hist ++ [Call.osnma d s g])) (outs ++ [some (hk, msg, gs)])
      = emitted (pagesOf hist) outs ++ [⟨msg, s, gs, (NmaHeader.mk b0).nmaStatus⟩] := by
    rw [pagesOf_snoc, hp, emitted_append (feedPages_length ih1)]
    simp [emitted, hb0]
  refine ⟨outs ++ [some (hk, msg, gs)], ?_, ?_, ?_⟩
  · rw [pagesOf_snoc, hp, e1]
    exact feedPages_snoc (p := ⟨d, s, g⟩) ih1 hfeed
  · rw [hem]
    unfold storeMacks at ih2 ⊢
    rw [loopM_append, ih2]
    dsimp only
    rw [loopM_cons, e2]
    dsimp only
    rw [hstore]
    rfl
  · rw [hem]
    intro c' hc'
    rcases List.mem_append.1 hc' with h' | h'
    · exact keep c' h'
    · simp only [List.mem_singleton] at h'
      subst h'
      obtain ⟨hg, ps, p1, p2, p3, p4, p5, p6⟩ := C04_collected_subframe (pagesOf hist) ⟨d, s, g⟩ _ _ outs _ _ _ ih1 hfeed
      refine ⟨ps, ?_, p3, ?_, p6, ?_⟩
      · rw [pagesOf_snoc, hp]
        refine p1.trans (List.Sublist.append ?_ (List.Sublist.refl _))
        unfold sinceSubframe
        have := (List.takeWhile_sublist (l := (pagesOf hist).reverse) (fun p => p.sub == Page.sub ⟨d, s, g⟩)).reverse
        rwa [List.reverse_reverse] at this
      · intro q hq
        have := p4 q hq
        rw [hg]
        exact this
      · rw [← p5]
        have hb := hb0
        show _ = nmasCode (NmaHeader.mk b0).nmaStatus
        rw [nmaStatus_code]
        generalize hk.val = l at hb
        cases l with
        | nil => simp at hb
        | cons a l =>
          simp only [List.getElem?_cons_zero, Option.some.injEq] at hb
          subst hb
          unfold bitField
          rw [bitsOf_cons, List.drop_zero, List.take_append_of_le_length (by simp)]
          simp [bitsOf_cons]

theorem PagesInv.step {hist : List Call} {o o' : Osnma C} (hi : Inv S o.data.data.navmessage) (h : PagesInv S hist o) {c : Call}
    (hc : c.run S o = .ok o') : PagesInv S (hist ++ [c]) o' := by
  have h1 := h
  obtain ⟨outs, ih1, ih2, ih3⟩ := h1
  have keep : ∀ c' ∈ emitted (pagesOf hist) outs, ReceivedMack (hist ++ [c]) c'.svn c'.gst c'.status c'.mack :=
    fun c' h' => (ih3 c' h').mono
  cases c with
  | inav w s g b =>
    obtain ⟨n, _, he⟩ := feedInav_of_ok (c := ⟨w, s, g, b⟩) hc
    subst he
    have hp : pagesOf (hist ++ [Call.inav w s g b]) = pagesOf hist := by rw [pagesOf_snoc]; simp [pagesOf]
    unfold PagesInv
    rw [hp]
    exact ⟨outs, ih1, ih2, keep⟩
  | osnma d s g =>
    rcases Osnma.feedOsnma_of_ok hc with ⟨hz, rfl⟩ | ⟨hz, ⟨sf, hf, rfl⟩ | ⟨⟨c⟩⟩⟩
    · have hp : pagesOf (hist ++ [Call.osnma d s g]) = pagesOf hist := by
        rw [pagesOf_snoc]
        have : pagesOf [Call.osnma d s g] = [] := by simp only [pagesOf, List.filterMap_cons, hz, if_true, List.filterMap_nil]
        rw [this, List.append_nil]
      unfold PagesInv
      rw [hp]
      exact ⟨outs, ih1, ih2, keep⟩
    · have hp : pagesOf [Call.osnma d s g] = [⟨d, s, g⟩] := by
        simp only [pagesOf, List.filterMap_cons, hz, Bool.false_eq_true, if_false, List.filterMap_nil]
      have hem : emitted (pagesOf (hist ++ [Call.osnma d s g])) (outs ++ [none]) = emitted (pagesOf hist) outs := by
        rw [pagesOf_snoc, hp, emitted_append (feedPages_length ih1)]
        simp [emitted]
      refine ⟨outs ++ [none], ?_, by rw [hem]; exact ih2, by rw [hem]; exact keep⟩
      rw [pagesOf_snoc, hp]
      exact feedPages_snoc (p := ⟨d, s, g⟩) ih1 hf
    · have e1 : o'.subframe = c.sf := congrArg (fun x => x.subframe) c.ho
      have e2 : o'.data.data.mack = c.ms := by
        have e : o'.data.data = c.d2 := congrArg (fun x => x.data.data) c.ho
        rw [e]
        rcases OsnmaData.validateKey_of_ok c.hd2 with h2 | ⟨cur, ks, h1, h2, h3, h4, h5, h6⟩
        · rw [h2, c.d1_nav.2.1]
        · obtain ⟨_, _, _, _, _, _, k4⟩ := OsnmaData.processTags_of_ok (S := S) (by exact h2)
            (by show Inv S c.d1.navmessage; rw [c.d1_nav.1]; exact hi) h6
          rw [k4, ← c.d1_nav.2.1]
      exact h.completes hz c.hfeed c.hb0 c.hstore e1 e2

/-- The collector and the MACK store after a run: the pages of the history, and MACK messages that were received. -/
theorem received_run (hS : S.Consistent) {o0 : Osnma C} (h0 : o0.Fresh S) {hist : List Call} {o : Osnma C} (h : run S o0 hist = .ok o) :
    ∃ outs, feedPages .new (pagesOf hist) = .ok (o.subframe, outs) ∧
      storeMacks S (emitted (pagesOf hist) outs) = .ok o.data.data.mack ∧
      ∀ c ∈ emitted (pagesOf hist) outs, ReceivedMack hist c.svn c.gst c.status c.mack := by
  refine run_induction (P := fun hist o => PagesInv S hist o) (PagesInv.fresh h0) ?_ h
  intro hist o c o' hrun ih hc
  exact ih.step (navInv_run hS h0 hrun).inv hc

/-! ## The tags checked are distinct -/

theorem mackTag_ctr (bits : List Bool) (ts : Nat) (prna : Svn) (j : Nat) : (mackTag bits ts prna j).ctr = j + 1 := by
  unfold mackTag
  dsimp only
  split
  · rename_i h; rw [h]
  · rfl

theorem nodup_map_of_inj {α β : Type} {f : α → β} {l : List α} (hl : l.Nodup) (hf : ∀ a b, f a = f b → a = b) : (l.map f).Nodup := by
  rw [List.nodup_iff_pairwise_ne, List.pairwise_map]
  exact List.Pairwise.imp (fun hne heq => hne (hf _ _ heq)) (List.nodup_iff_pairwise_ne.1 hl)

theorem mackTags_nodup (msg : MackMessage) (c : Chain) (prna : Svn) : (mackTags msg c prna).Nodup := by
  unfold mackTags
  refine nodup_map_of_inj List.nodup_range ?_
  intro a b h
  have := congrArg TagSpec.ctr h
  rw [mackTag_ctr, mackTag_ctr] at this
  omega

namespace OsnmaData
variable {d : OsnmaData C}

theorem tagsOf_nodup (key : Key) (gst : Gst) (adkd : Nat) (svn : Svn) (r : Option (MackMessage × NmaStatus)) :
    (tagsOf key gst adkd svn r).Nodup := by
  cases r with
  | none => simp [tagsOf]
  | some p =>
    obtain ⟨m, st⟩ := p
    refine nodup_map_of_inj ((mackTags_nodup m key.chain svn).filter _) ?_
    intro a b h
    exact congrArg TagUse.tag h

theorem fastUses_nodup (key : Key) (gst : Gst) (adkd : Nat) (svn : Svn) : (d.fastUses S key gst adkd svn).Nodup := by
  unfold fastUses
  split
  · simp
  · exact tagsOf_nodup _ _ _ _ _

theorem slowUses_nodup (key : Key) (sk : Option Key) (gst : Gst) (svn : Svn) : (d.slowUses S key sk gst svn).Nodup := by
  unfold slowUses
  split
  · simp
  · exact tagsOf_nodup _ _ _ _ _

theorem flatMap_nodup_of_prna (f : Svn → List TagUse) (hf : ∀ v, (f v).Nodup) (hp : ∀ v, ∀ u ∈ f v, u.prna = v) (l : List Svn)
    (hl : l.Nodup) : (l.flatMap f).Nodup := by
  induction l with
  | nil => simp
  | cons v l ih =>
    rw [List.nodup_cons] at hl
    rw [List.flatMap_cons, List.nodup_append]
    refine ⟨hf v, ih hl.2, ?_⟩
    intro a ha b hb he
    subst he
    obtain ⟨w, hw, hb⟩ := List.mem_flatMap.1 hb
    rw [← hp v a ha, hp w a hb] at hl
    exact hl.1 hw

theorem cedUses_nodup (key : Key) (sk : Option Key) (gm gs : Gst) : (d.cedUses S key sk gm gs).Nodup := by
  refine flatMap_nodup_of_prna _ ?_ ?_ _ Svn.iter_nodup
  · intro v
    rw [List.nodup_append]
    refine ⟨fastUses_nodup _ _ _ _, slowUses_nodup _ _ _ _, ?_⟩
    intro a ha b hb he
    subst he
    obtain ⟨_, _, _, _, _, _, _, h1⟩ := mem_fastUses.1 ha
    obtain ⟨_, _, _, _, _, _, _, _, h2⟩ := mem_slowUses.1 hb
    omega
  · intro v u hu
    rcases List.mem_append.1 hu with h | h
    · obtain ⟨_, _, _, _, h, _⟩ := mem_fastUses.1 h; exact h
    · obtain ⟨_, _, _, _, _, h, _⟩ := mem_slowUses.1 h; exact h

theorem timingUses_nodup (key : Key) (gm : Gst) : (d.timingUses S key gm).Nodup := by
  refine flatMap_nodup_of_prna _ (fun v => fastUses_nodup _ _ _ _) ?_ _ Svn.iter_nodup
  intro v u hu
  obtain ⟨_, _, _, _, h, _⟩ := mem_fastUses.1 hu; exact h

end OsnmaData

theorem KeyArrives.uses_nodup {o o' : Osnma C} {data : OsnmaDataMessage} {svn : Svn} {gst : Gst} (k : KeyArrives S o o' data svn gst)
    (kd : NavKind) : (k.uses kd).Nodup := by
  cases kd
  · exact OsnmaData.cedUses_nodup _ _ _ _
  · exact OsnmaData.timingUses_nodup _ _

theorem KeyArrives.uses_key {o o' : Osnma C} {data : OsnmaDataMessage} {svn : Svn} {gst : Gst} (k : KeyArrives S o o' data svn gst)
    {kd : NavKind} {u : TagUse} (hu : u ∈ k.uses kd) : u.key = mackKey k.msg k.cur.chain k.g := by
  cases kd
  · exact (OsnmaData.mem_cedUses hu).1
  · exact (OsnmaData.mem_timingUses hu).1

open Classical in
/-- The gain of a list of tags is the total length of those that count. -/
theorem usesGain_filter (n : CollectNavMessage) (arr : List NavItem) (nbits : Nat) (us : List TagUse) (x : NavItem) :
    usesGain S C n arr nbits us x
      = ((us.filter (fun u => decide (u.Counts S C n arr nbits x))).map (fun u => u.tag.tag.length)).sum := by
  unfold usesGain
  induction us with
  | nil => rfl
  | cons u us ih =>
    simp only [List.map_cons, List.sum_cons, List.filter_cons, ih]
    unfold tagGain
    by_cases h : u.Counts S C n arr nbits x
    · rw [if_pos (show TagCounts C u.key u.prna u.gst u.st nbits (n.entryBefore S arr u.gst) u.tag x from h), if_pos (by simpa using h)]
      simp
    · rw [if_neg (show ¬ TagCounts C u.key u.prna u.gst u.st nbits (n.entryBefore S arr u.gst) u.tag x from h), if_neg (by simpa using h)]
      simp

/-! ## Logs -/

theorem Logs.snoc_inv {o0 o' : Osnma C} {hist : List Call} {c : Call} {log' : List (KeyEvent C)}
    (h : Logs S o0 (hist ++ [c]) log' o') :
    ∃ log o, Logs S o0 hist log o ∧ c.run S o = .ok o' ∧ log' = log ++ o.events S c := by
  generalize hh : hist ++ [c] = hist' at h
  cases h with
  | nil => simp at hh
  | snoc c' h hc =>
    obtain ⟨rfl, hcc⟩ := List.append_inj' hh rfl
    simp only [List.cons.injEq, and_true] at hcc
    subst hcc
    exact ⟨_, _, h, hc, rfl⟩

theorem timesAccepted_append (l l' : List (KeyEvent C)) (k : Key) :
    timesAccepted (l ++ l') k = timesAccepted l k + timesAccepted l' k := by
  unfold timesAccepted; rw [List.countP_append]

theorem timesAccepted_pos {l : List (KeyEvent C)} {k : Key} (h : KeyEvent.tesla k ∈ l) : 1 ≤ timesAccepted l k := by
  unfold timesAccepted
  rw [Nat.succ_le_iff, List.countP_pos_iff]
  exact ⟨_, h, by simp⟩

theorem AuthenticKey.of_log {root0 : Option MerkleTreeNode} {pk0 : Option (PublicKey C)} {log : List (KeyEvent C)}
    (hg : GoodLog root0 pk0 log) {k : Key} (h : RootedKey log k) : AuthenticKey root0 pk0 k := by
  obtain ⟨hd, data, pk, kr, g, n, hm, hc, hder⟩ := h
  obtain ⟨a, b, rfl⟩ := List.append_of_mem hm
  obtain ⟨_, ht, hid, ⟨f, m, hs⟩, ha, _⟩ := hg a _ b rfl
  refine ⟨hd, data, pk, kr, n, f, m, ?_, hid, hs, ha, hc, hder⟩
  rcases ht with ht | ⟨data', hp⟩
  · exact .inl ht
  · obtain ⟨a1, a2, rfl⟩ := List.append_of_mem hp
    obtain ⟨_, root, h1, h2⟩ := hg a1 (.pkr data' pk) (a2 ++ .kroot hd data pk kr g :: b) (by simp)
    exact .inr ⟨root, data', h1, h2⟩

/-! ## One key arrives -/

theorem onlySlowmac_run (hS : S.Consistent) {root0 : Option MerkleTreeNode} {pk0 : Option (PublicKey C)} {slow : Bool}
    (h0 : (Osnma.new S root0 pk0 slow : Osnma C).Fresh S) {hist : List Call} {o : Osnma C}
    (h : run S (Osnma.new S root0 pk0 slow) hist = .ok o) : o.data.data.onlySlowmac = slow := by
  refine run_induction (P := fun _ o => o.data.data.onlySlowmac = slow) rfl ?_ h
  intro hist o c o' hrun ih hc
  cases c with
  | inav w s g b =>
    obtain ⟨n, _, he⟩ := feedInav_of_ok (c := ⟨w, s, g, b⟩) hc
    subst he; exact ih
  | osnma d s g =>
    rcases feedOsnma_cases (navInv_run hS h0 hrun).inv hc with h | ⟨c, h⟩ | ⟨⟨k⟩⟩
    · rw [h]; exact ih
    · rw [h, c.d1_nav.2.2]; exact ih
    · rw [k.hnew]
      show k.d1.onlySlowmac = slow
      rw [k.d1_nav.2.2]; exact ih

theorem usableMack_received (hS : S.Consistent) {d : OsnmaData C} {mc : List MackCall} (hm : storeMacks S mc = .ok d.mack)
    {hist : List Call} (hr : ∀ c ∈ mc, ReceivedMack hist c.svn c.gst c.status c.mack) {vk : Key} {c : Chain} {g : Gst} {v : Svn}
    {msg : MackMessage} {st : NmaStatus} (h : d.usableMack S vk c g v = some (msg, st)) :
    ReceivedMack hist v g st msg ∧ MackConforms C vk c msg v g := by
  unfold OsnmaData.usableMack at h
  obtain ⟨m, r, h1, h2, h3⟩ := C10_get_sound hS mc v g
  rw [hm] at h1; cases h1
  rw [h2] at h
  cases r with
  | none => cases h
  | some p =>
    obtain ⟨m', st'⟩ := p
    dsimp only at h
    split at h
    · rename_i mm hv
      simp only [Option.some.injEq, Prod.mk.injEq] at h
      obtain ⟨rfl, rfl⟩ := h
      refine ⟨hr _ (h3 _ _ rfl), ?_⟩
      obtain ⟨_, slots, e1, _, e3, e4⟩ := (Mack.validate_iff m' vk c v g).1 ⟨mm, hv⟩
      exact ⟨slots, e1, e3, e4⟩
    · cases h

theorem slowmacKey_some {d : OsnmaData C} {key vk : Key} (ha : key.gst.Aligned) (hk : ∀ k, d.key.Has k → k.gst.Aligned)
    (h : d.slowmacKey key = .ok (some vk)) :
    ∃ k n, d.key.Has k ∧ vk.chain = k.chain ∧ vk.gst.abs = key.gst.abs - 300 ∧ Derives C k.chain n (k.gst, k.bytes) (vk.gst, vk.bytes) := by
  unfold OsnmaData.slowmacKey at h
  obtain ⟨gK, h1, h⟩ := Res.bind_eq_ok.1 h
  have hgk := ((Gst.addSeconds_eq_ok (by omega)).1 h1).2
  cases hp : d.key.keyPastChain gK with
  | none => rw [hp] at h; cases h
  | some k =>
    rw [hp] at h
    dsimp only at h
    have hhas : d.key.Has k := by
      unfold KeyStore.keyPastChain at hp
      cases hcif : d.key.chainInForce with
      | none => rw [hcif] at hp; cases hp
      | some cif =>
        rw [hcif] at hp
        simp only [Option.bind_some] at hp
        have hcur : d.key.currentKey = some k → d.key.Has k := fun h => (KeyStore.currentKey_some h).1
        split at hp
        · split at hp
          · exact KeyStore.mem_keys.1 (List.mem_of_find?_eq_some hp)
          · exact hcur hp
        · exact hcur hp
    have hka := hk k hhas
    have hga : gK.Aligned := by unfold Gst.Aligned at *; omega
    rw [Gst.subframesDifference_aligned hka hga] at h
    simp only [Res.ok_bind] at h
    split at h
    · rename_i hge
      obtain ⟨r, hr, h⟩ := Res.bind_eq_ok.1 h
      simp only [Res.pure_eq, Res.ok.injEq, Option.some.injEq] at h
      subst h
      obtain ⟨e1, e2⟩ := Key.derive_gst hr
      refine ⟨k, _, hhas, e1, ?_, Key.derive_derives hr⟩
      rw [e2]
      unfold Gst.Aligned at *
      omega
    · cases h

theorem mackKey_bytes (msg : MackMessage) (c : Chain) (g : Gst) : (mackKey msg c g).bytes = packBytes (mackKeyField msg c) := by
  have hl := Mack.key_length msg c
  have := c.keySize_le
  unfold Key.bytes mackKey mackKeyField
  dsimp only
  exact Key.padData_take (by rw [packBytes_length, hl]; omega) (by omega)

section
variable {root0 : Option MerkleTreeNode} {pk0 : Option (PublicKey C)} {slow : Bool}

/-- Every tag that counts when a key arrives proves the data (from the invariants of the state). -/
theorem KeyArrives.proves_of (hS : S.Consistent) {hist : List Call}
    {log : List (KeyEvent C)} {o o' : Osnma C} {d : OsnmaDataMessage} {s : Svn} {g : Gst}
    (hpg : PagesInv S hist o) (hpg' : PagesInv S (hist ++ [.osnma d s g]) o')
    (hinv : KeyInv root0 pk0 (log ++ o.events S (.osnma d s g)) o'.data.data.merkleTree o'.data.data.pubkey o'.data.data.key)
    (hslow : o.data.data.onlySlowmac = slow)
    (k : KeyArrives S o o' d s g) {kd : NavKind} {u : TagUse} (hu : u ∈ k.uses kd) {arr : List NavItem} {x : NavItem}
    (hcnt : u.Counts S C o.data.data.navmessage arr kd.nbits x) {v : Svn} (hv : x.svn = some v) :
    u.Proves root0 pk0 slow (hist ++ [.osnma d s g]) kd v (x.messageBits kd.nbits) := by
  obtain ⟨mo, _, hm1, hm2⟩ := hpg'
  have hd' : o'.data.data.mack = k.d1.mack := by rw [k.hnew]
  have hkey' : o'.data.data.key = k.ks := by rw [k.hnew]
  have hs1 : k.d1.onlySlowmac = slow := by rw [k.d1_nav.2.2]; exact hslow
  rw [hd'] at hm1
  have hgm := ((Gst.addSeconds_eq_ok (by omega)).1 k.hgm).2
  have hgs := ((Gst.addSeconds_eq_ok (by omega)).1 k.hgs).2
  have hkeq := k.uses_key hu
  -- the key is accepted, hence authentic
  have hev : KeyEvent.tesla (mackKey k.msg k.cur.chain k.g) ∈ log ++ o.events S (.osnma d s g) := by
    rw [k.events k.hz, OsnmaData.teslaEvents_accept k.hcur k.hal k.hlt k.hval]
    simp
  have hauth : AuthenticKey root0 pk0 (mackKey k.msg k.cur.chain k.g) := by
    obtain ⟨a, b, he⟩ := List.append_of_mem hev
    obtain ⟨_, _, hr, _⟩ := hinv.good a _ b he
    have hga : GoodLog root0 pk0 (log ++ o.events S (.osnma d s g)) := hinv.good
    refine AuthenticKey.of_log hga ?_
    obtain ⟨p1, p2, p3, p4, p5, p6, q1, q2, q3⟩ := hr
    exact ⟨p1, p2, p3, p4, p5, p6, by rw [he]; exact List.mem_append_left _ q1, q2, q3⟩
  -- the tag counts
  obtain ⟨c1, c2, svn, y, c3, c4, c5, c6, c7, c8⟩ := hcnt
  rw [hv, Option.some.injEq] at c6
  subst c6
  -- the MACK of the key
  have hsent : ∃ prna st msg, ReceivedMack (hist ++ [.osnma d s g]) prna u.key.gst st msg ∧
      u.key.bytes = packBytes (mackKeyField msg u.key.chain) := by
    obtain ⟨outs, ho, _⟩ := hpg
    obtain ⟨hg, ps, p1, p2, p3, p4, p5, p6⟩ := C04_collected_subframe (pagesOf hist) ⟨d, s, g⟩ _ _ outs _ _ _ ho k.hfeed
    have hp : pagesOf [Call.osnma d s g] = [⟨d, s, g⟩] := by
      have hz := k.hz
      simp only [pagesOf, List.filterMap_cons, hz, Bool.false_eq_true, if_false, List.filterMap_nil]
    refine ⟨s, (NmaHeader.mk k.b0).nmaStatus, k.msg, ⟨ps, ?_, p3, ?_, p6, ?_⟩, ?_⟩
    · rw [pagesOf_snoc, hp]
      refine p1.trans (List.Sublist.append ?_ (List.Sublist.refl _))
      unfold sinceSubframe
      have := (List.takeWhile_sublist (l := (pagesOf hist).reverse) (fun p => p.sub == Page.sub ⟨d, s, g⟩)).reverse
      rwa [List.reverse_reverse] at this
    · intro q hq
      have := p4 q hq
      rw [hkeq]
      show _ ∧ q.sub = k.g
      rw [hg]
      exact this
    · rw [← p5, nmaStatus_code]
      have hb := k.hb0
      generalize k.hk.val = l at hb
      cases l with
      | nil => simp at hb
      | cons a l =>
        simp only [List.getElem?_cons_zero, Option.some.injEq] at hb
        subst hb
        unfold bitField
        rw [bitsOf_cons, List.drop_zero, List.take_append_of_le_length (by simp)]
        simp [bitsOf_cons]
    · rw [hkeq]
      exact mackKey_bytes _ _ _
  have hks : ∀ k', k.ks.Has k' → k'.gst.Aligned ∧ AuthenticKey root0 pk0 k' := by
    intro k' h'
    rw [← hkey'] at h'
    obtain ⟨a, b⟩ := hinv.krooted k' h'
    exact ⟨a, AuthenticKey.of_log hinv.good b⟩
  have hrest : ∀ (rk : u.RightKey slow kd), (∃ msg, ReceivedMack (hist ++ [.osnma d s g]) u.prna u.gst u.st msg ∧
      u.tag ∈ mackTags msg u.key.chain u.prna ∧
      ∃ (vk later : Key) (n : Nat), MackConforms C vk u.key.chain msg u.prna u.gst ∧ vk.gst.abs = u.gst.abs + 30 ∧
      AuthenticKey root0 pk0 later ∧ vk.chain = later.chain ∧
      Derives C later.chain n (later.gst, later.bytes) (vk.gst, vk.bytes)) →
      u.Proves root0 pk0 slow (hist ++ [.osnma d s g]) kd v (x.messageBits kd.nbits) :=
    fun rk hm => ⟨c3.symm, c2, c1, rk, c8, hm, by rw [hkeq]; exact hauth, hsent⟩
  have hkg : u.key.gst = k.g := by rw [hkeq]; rfl
  have fast : ∀ {m : MackMessage}, u.gst = k.gstMack → u.tag ∈ mackTags m (mackKey k.msg k.cur.chain k.g).chain u.prna →
      ({ k.d1 with key := k.ks } : OsnmaData C).usableMack S (mackKey k.msg k.cur.chain k.g) (mackKey k.msg k.cur.chain k.g).chain
        k.gstMack u.prna = some (m, u.st) →
      (∃ msg, ReceivedMack (hist ++ [.osnma d s g]) u.prna u.gst u.st msg ∧
      u.tag ∈ mackTags msg u.key.chain u.prna ∧
      ∃ (vk later : Key) (n : Nat), MackConforms C vk u.key.chain msg u.prna u.gst ∧ vk.gst.abs = u.gst.abs + 30 ∧
      AuthenticKey root0 pk0 later ∧ vk.chain = later.chain ∧
      Derives C later.chain n (later.gst, later.bytes) (vk.gst, vk.bytes)) := by
    intro m e1 e2 e3
    obtain ⟨r1, r2⟩ := usableMack_received hS (d := ({ k.d1 with key := k.ks } : OsnmaData C)) hm1 hm2 e3
    rw [hkeq, e1]
    refine ⟨m, r1, e2, mackKey k.msg k.cur.chain k.g, mackKey k.msg k.cur.chain k.g, 0, r2, ?_, hauth, rfl, .zero _⟩
    show k.g.abs = _
    omega
  cases kd with
  | ced =>
    obtain ⟨_, m, e1, ⟨e2, e3, e4, e5⟩ | ⟨e3, e4, sk, e5, e6⟩⟩ := OsnmaData.mem_cedUses hu
    · refine hrest (.inl ⟨rfl, e4, ?_, ?_⟩) (fast e3 e1 e5)
      · rw [hkg, e3]; omega
      · rw [← hs1]; exact e2
    · refine hrest (.inr (.inr ⟨rfl, e4, ?_⟩)) ?_
      · rw [hkg, e3]; omega
      · obtain ⟨r1, r2⟩ := usableMack_received hS (d := ({ k.d1 with key := k.ks } : OsnmaData C)) hm1 hm2 e6
        have hsk := k.hsk
        rw [e5] at hsk
        obtain ⟨k', n, w1, w2, w3, w4⟩ := slowmacKey_some (by exact k.hal) (fun k' h' => (hks k' h').1) hsk
        rw [hkeq, e3]
        refine ⟨m, r1, e1, sk, k', n, r2, ?_, (hks k' w1).2, w2, w4⟩
        have : (mackKey k.msg k.cur.chain k.g).gst.abs = k.g.abs := rfl
        omega
  | timing =>
    obtain ⟨_, m, e1, e2, e3, e4, e5⟩ := OsnmaData.mem_timingUses hu
    refine hrest (.inr (.inl ⟨rfl, e4, ?_, ?_⟩)) (fast e3 e1 e5)
    · rw [hkg, e3]; omega
    · rw [← hs1]; exact e2

/-- Every tag that counts when a key arrives proves the data. -/
theorem KeyArrives.proves (hS : S.Consistent) (h0 : (Osnma.new S root0 pk0 slow : Osnma C).Fresh S) {hist : List Call}
    {log : List (KeyEvent C)} {o o' : Osnma C} {d : OsnmaDataMessage} {s : Svn} {g : Gst}
    (hl : Logs S (Osnma.new S root0 pk0 slow) hist log o) (hc : o.feedOsnma S d s g = .ok o')
    (k : KeyArrives S o o' d s g) {kd : NavKind} {u : TagUse} (hu : u ∈ k.uses kd) {arr : List NavItem} {x : NavItem}
    (hcnt : u.Counts S C o.data.data.navmessage arr kd.nbits x) {v : Svn} (hv : x.svn = some v) :
    u.Proves root0 pk0 slow (hist ++ [.osnma d s g]) kd v (x.messageBits kd.nbits) := by
  have hl' : Logs S (Osnma.new S root0 pk0 slow) (hist ++ [.osnma d s g]) (log ++ o.events S (.osnma d s g)) o' :=
    .snoc _ hl hc
  exact k.proves_of hS (received_run hS h0 hl.run) (received_run hS h0 hl'.run) (keyInv_run hl') (onlySlowmac_run hS h0 hl.run) hu hcnt hv

theorem TagUse.Proves.mono {hist : List Call} {c : Call} {kd : NavKind} {v : Svn} {bits : List Bool} {u : TagUse}
    (h : u.Proves root0 pk0 slow hist kd v bits) : u.Proves (C := C) root0 pk0 slow (hist ++ [c]) kd v bits := by
  obtain ⟨msg, a, b⟩ := h.mack
  obtain ⟨p, st, m, e, f⟩ := h.sent
  exact ⟨h.prnd, h.cop, h.status, h.rightKey, h.verifies, ⟨msg, a.mono, b⟩, h.key, ⟨p, st, m, e.mono, f⟩⟩

/-- Evidence for one entry of the store. -/
def Evidence (S : Storage) (root0 : Option MerkleTreeNode) (pk0 : Option (PublicKey C)) (slow : Bool) (hist : List Call) (kd : NavKind)
    (x : NavItem) : Prop :=
  ∀ log o, Logs S (Osnma.new S root0 pk0 slow) hist log o → ∃ us : List TagUse,
    x.authbits = min 65535 (us.map (fun u => u.tag.tag.length)).sum ∧
    (∀ u ∈ us, ∃ v, x.svn = some v ∧ u.Proves root0 pk0 slow hist kd v (x.messageBits kd.nbits)) ∧
    ∀ u, us.count u ≤ timesAccepted log u.key

theorem evidence_run (hS : S.Consistent) (h0 : (Osnma.new S root0 pk0 slow : Osnma C).Fresh S) {hist : List Call} {o : Osnma C}
    (h : run S (Osnma.new S root0 pk0 slow) hist = .ok o) :
    ∀ kd, ∀ x ∈ o.data.data.navmessage.arr kd, Evidence S root0 pk0 slow hist kd x := by
  have zero : ∀ (hist : List Call) (kd : NavKind) (x : NavItem), x.authbits = 0 → Evidence S root0 pk0 slow hist kd x := by
    intro hist kd x hx log o _
    exact ⟨[], by simpa using hx, by simp, by simp⟩
  have mono : ∀ (hist : List Call) (c : Call) (kd : NavKind) (x : NavItem), Evidence S root0 pk0 slow hist kd x →
      Evidence S root0 pk0 slow (hist ++ [c]) kd x := by
    intro hist c kd x hx log' o' hl
    obtain ⟨log, o, h1, h2, rfl⟩ := hl.snoc_inv
    obtain ⟨us, e1, e2, e3⟩ := hx log o h1
    refine ⟨us, e1, ?_, ?_⟩
    · intro u hu
      obtain ⟨v, hv, hp⟩ := e2 u hu
      exact ⟨v, hv, hp.mono⟩
    · intro u
      rw [timesAccepted_append]
      have := e3 u; omega
  refine item_induction hS h0 (P := Evidence S root0 pk0 slow) ?_ mono ?_ ?_ ?_ h
  · intro hist kd
    exact zero _ _ _ (by cases kd <;> rfl)
  · intro hist kd x hx log o hl
    exact hx log o hl
  · intro hist kd c x hw hx
    rcases NavItem.feedUpd_auth (kd.upd c) c.svn x with h | ⟨h1, h2, h3⟩
    · exact zero _ _ _ h
    · rcases Nat.eq_zero_or_pos x.authbits with hz | hpos
      · exact zero _ _ _ (by rw [h1, hz])
      · intro log' o' hl
        obtain ⟨us, e1, e2, e3⟩ := mono _ _ _ _ hx log' o' hl
        refine ⟨us, by rw [h1]; exact e1, ?_, e3⟩
        intro u hu
        obtain ⟨v, hv, hp⟩ := e2 u hu
        have hb : (NavItem.feedUpd (kd.upd c) c.svn x).messageBits kd.nbits = x.messageBits kd.nbits := by
          unfold NavItem.messageBits; rw [h2]
        refine ⟨v, ?_, by rw [hb]; exact hp⟩
        rw [NavItem.feedUpd_svn]
        rcases h3 with h3 | h3 <;> rw [hv] at h3
        · exact h3.symm
        · cases h3
  · intro hist o o' d s g hrun hc ih k kd x hx log' o1 hl'
    obtain ⟨log, o2, h1, h2, rfl⟩ := hl'.snoc_inv
    have e := h1.run
    rw [hrun] at e; cases e
    rw [show Call.run S o (Call.osnma d s g) = .ok o' from hc] at h2; cases h2
    obtain ⟨us, e1, e2, e3⟩ := ih kd x hx log o h1
    classical
    refine ⟨us ++ (k.uses kd).filter (fun u => decide (u.Counts S C o.data.data.navmessage
      (o.data.data.navmessage.arr kd) kd.nbits x)), ?_, ?_, ?_⟩
    · rw [usesGain_filter, List.map_append, List.sum_append]
      show min 65535 (x.authbits + _) = _
      rw [e1]; omega
    · intro u hu
      rcases List.mem_append.1 hu with hu | hu
      · obtain ⟨v, hv, hp⟩ := e2 u hu
        exact ⟨v, hv, hp.mono⟩
      · obtain ⟨hu, hcnt⟩ := List.mem_filter.1 hu
        have hcnt := of_decide_eq_true hcnt
        obtain ⟨_, _, v, _, _, _, _, hv, _⟩ := id hcnt
        exact ⟨v, hv, k.proves hS h0 h1 hc hu hcnt hv⟩
    · intro u
      rw [List.count_append, timesAccepted_append]
      have a := e3 u
      have nd : ((k.uses kd).filter (fun u => decide (u.Counts S C o.data.data.navmessage
        (o.data.data.navmessage.arr kd) kd.nbits x))).Nodup := (k.uses_nodup kd).filter _
      have b := List.nodup_iff_count.1 nd u
      by_cases hmem : u ∈ (k.uses kd).filter (fun u => decide (u.Counts S C o.data.data.navmessage
        (o.data.data.navmessage.arr kd) kd.nbits x))
      · have hk := k.uses_key (List.mem_filter.1 hmem).1
        have hev : KeyEvent.tesla u.key ∈ o.events S (.osnma d s g) := by
          rw [hk, k.events k.hz, OsnmaData.teslaEvents_accept k.hcur k.hal k.hlt k.hval]
          simp
        have := timesAccepted_pos hev
        omega
      · rw [List.count_eq_zero_of_not_mem hmem]
        omega

end
end Verif
