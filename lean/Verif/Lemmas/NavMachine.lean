import Verif.Lemmas.NavTags
import Verif.Props.MackStorage

/-! # Lemmas: the library keeps pace with the reference machine for authenticated navigation data -/

namespace Verif
open CollectNavMessage CollectSubframe CollectDsm

variable {S : Storage} {C : Crypto} {root0 : Option MerkleTreeNode} {pk0 : Option (PublicKey C)} {slow : Bool}
  {hist : List Call} {log : List (KeyEvent C)} {o o' : Osnma C}

theorem storeKey_changes (C : Crypto) {ks : KeyStore} {cur key : Key} (hd : ks.Distinct) (hcur : ks.Has cur) (hc : key.chain = cur.chain)
    (h : ks.storeKey key = .ok ks) : key = cur := by
  have he := storeKey_exact (C := C) hd h
  simp only [teslaAfter, Prod.mk.injEq] at he
  have ho : ofChain key.chain.id (some cur) = true := by unfold ofChain; rw [Option.any_some, hc]; exact beq_self_eq_true _
  rcases hcur with h0 | h1
  · rw [h0, if_pos ho] at he; exact (Option.some.inj he.1).symm
  · rw [h1, if_pos ho] at he; exact (Option.some.inj he.2).symm

/-- A completed subframe brings a TESLA key, and the tags are checked, or it brings none, and nothing more happens. -/
theorem Osnma.Completes.tags {d : OsnmaDataMessage} {s : Svn} {g : Gst} (hi : Inv S o.data.data.navmessage)
    (c : Osnma.Completes S o o' d s g) (hd : c.d1.key.Distinct) :
    (o'.data.data = c.d1 ∧ c.d1.teslaEvents c.msg c.g = []) ∨ ∃ k : KeyArrives S o o' d s g, k.toCompletes = c := by
  have ho : o'.data.data = c.d2 := congrArg (fun z => z.data.data) c.ho
  rcases OsnmaData.validateKey_of_ok c.hd2 with h2 | ⟨cur, ks, h1, h2, h3, h4, h5, h6⟩
  · left
    refine ⟨ho.trans h2, ?_⟩
    obtain ⟨st, _, _⟩ := OsnmaData.validateKey_step c.hd2
    rw [h2] at st
    generalize c.d1.teslaEvents c.msg c.g = evs at st
    generalize hk : c.d1.key = kk at st
    cases st with
    | nothing => rfl
    | accept cur ks hcur hal hlt hval hks =>
      rw [← hk] at hks
      have := storeKey_changes C (cur := cur) (key := mackKey c.msg cur.chain c.g) hd (KeyStore.currentKey_some hcur).1 rfl hks
      have hg : (mackKey c.msg cur.chain c.g).gst = c.g := rfl
      rw [this] at hg
      rw [hg] at hlt
      exact absurd hlt (Int.lt_irrefl _)
  · right
    obtain ⟨e1, _, _⟩ := c.d1_nav
    obtain ⟨gm, gs, sk, k1, k2, k3, k4⟩ := OsnmaData.processTags_of_ok (S := S) (by exact h2)
      (by show Inv S c.d1.navmessage; rw [e1]; exact hi) h6
    refine ⟨⟨c, cur, ks, gm, gs, sk, h1, h2, h3, h4, h5, k1, k2, k3, ?_⟩, rfl⟩
    rw [ho, k4]
    simp only [e1]

/-- What the library stores is what the machine has. -/
structure NavPace (S : Storage) (root0 : Option MerkleTreeNode) (pk0 : Option (PublicKey C)) (slow : Bool) (hist : List Call)
    (log : List (KeyEvent C)) (o : Osnma C) (rs : List Received) (fs : List NavFrame) : Prop where
  pages : ∃ outs, feedPages .new (pagesOf hist) = .ok (o.subframe, outs)
  blocks : ∃ douts, feedBlocks .new (rs.map Received.dsmCall) = .ok (o.data.dsm, douts)
  macks : storeMacks S (rs.map Received.mackCall) = .ok o.data.data.mack
  times : ∀ r ∈ rs, ∃ p ∈ pagesOf hist, r.gst = p.sub
  chron : rs.Pairwise (fun a b => a.gst.abs ≤ b.gst.abs)
  frames : Frames S fs (o.stored S)
  words : (fs.head?.map NavFrame.words).getD [] = inavsOf hist
  machine : NavMachine root0 pk0 S slow hist rs log fs

theorem storeMacks_snoc {l : List MackCall} {m m' : MackStorage} {c : MackCall} (h : storeMacks S l = .ok m)
    (hc : m.store S c.mack c.svn c.gst c.status = .ok m') : storeMacks S (l ++ [c]) = .ok m' := by
  unfold storeMacks at *
  rw [loopM_append, h]
  dsimp only
  rw [loopM_cons, hc]
  rfl

theorem pagesOf_inav (hist : List Call) (w : InavWord) (s : Svn) (g : Gst) (b : InavBand) :
    pagesOf (hist ++ [.inav w s g b]) = pagesOf hist := by rw [pagesOf_snoc]; simp [pagesOf]

theorem pagesOf_zero (hist : List Call) {d : OsnmaDataMessage} (s : Svn) (g : Gst) (hz : d.val.all (fun x => x == 0#8) = true) :
    pagesOf (hist ++ [.osnma d s g]) = pagesOf hist := by
  rw [pagesOf_snoc]
  have : pagesOf [Call.osnma d s g] = [] := by simp only [pagesOf, List.filterMap_cons, hz, if_true, List.filterMap_nil]
  rw [this, List.append_nil]

theorem pagesOf_page (hist : List Call) {d : OsnmaDataMessage} (s : Svn) (g : Gst) (hz : d.val.all (fun x => x == 0#8) = false) :
    pagesOf (hist ++ [.osnma d s g]) = pagesOf hist ++ [⟨d, s, g⟩] := by
  rw [pagesOf_snoc]
  have : pagesOf [Call.osnma d s g] = [⟨d, s, g⟩] := by
    simp only [pagesOf, List.filterMap_cons, hz, Bool.false_eq_true, if_false, List.filterMap_nil]
  rw [this]

theorem stored_unique {L : List NavSlot} (h : NavInv S hist o L) (hc : Chronological (inavsOf hist)) :
    ∀ s ∈ L, ∀ t ∈ L, t.gst = s.gst → t = s := by
  have hp := navRun_decreasing (S := S) hc
  rw [← h.core, List.pairwise_map] at hp
  intro s hs t ht he
  obtain ⟨i, hi, rfl⟩ := List.mem_iff_getElem.1 hs
  obtain ⟨j, hj, rfl⟩ := List.mem_iff_getElem.1 ht
  rw [List.pairwise_iff_getElem] at hp
  rcases Nat.lt_trichotomy i j with hij | rfl | hij
  · have := hp i j hi hj hij
    rw [show (L[j].core).gst = L[j].gst from rfl, show (L[i].core).gst = L[i].gst from rfl, he] at this
    exact absurd this (Int.lt_irrefl _)
  · rfl
  · have := hp j i hj hi hij
    rw [show (L[j].core).gst = L[j].gst from rfl, show (L[i].core).gst = L[i].gst from rfl, he] at this
    exact absurd this (Int.lt_irrefl _)

/-- The tags that a TESLA key makes the library check are those of the machine. -/
theorem KeyArrives.tagsDue (hS : S.Consistent) {d : OsnmaDataMessage} {s : Svn} {g : Gst} {ho : (Osnma.new S root0 pk0 slow : Osnma C).Fresh S}
    (hl : Logs S (Osnma.new S root0 pk0 slow) hist log o) (hc : (Call.osnma d s g).run S o = .ok o') (k : KeyArrives S o o' d s g)
    {macks : List MackCall} (hm : storeMacks S macks = .ok k.ms) (hch : macks.Pairwise (fun a b => a.gst.abs ≤ b.gst.abs)) :
    ∃ t10 : Gst, t10.abs = k.g.abs - 300 ∧ ∀ kd, k.uses kd =
      Verif.tagsDue S slow macks (log ++ o.events S (.osnma d s g)) (mackKey k.msg k.cur.chain k.g) k.gstMack t10 k.gstSlow kd := by
  have hl' := hl.snoc _ hc
  have inv' := keyInv_run hl'
  have hkey : o'.data.data.key = k.ks := by rw [k.hnew]
  have hheld := teslaHeld_run hl'
  have hforce := force_run hl'
  rw [hkey] at hheld hforce inv'
  have hget : ∀ v g, ({ k.d1 with key := k.ks } : OsnmaData C).mack.get S v g = .ok (expectedMack S macks v g) := by
    intro v g
    obtain ⟨m, h1, h2⟩ := C09_get_chronological hS macks hch v g
    rw [hm] at h1; cases h1
    show k.d1.mack.get S v g = _
    rw [k.d1_nav.2.1]; exact h2
  have hslow : ({ k.d1 with key := k.ks } : OsnmaData C).onlySlowmac = slow := by
    show k.d1.onlySlowmac = slow
    rw [k.d1_nav.2.2]; exact onlySlowmac_run hS ho hl.run
  have hsk := k.hsk
  have hsk' := hsk
  unfold OsnmaData.slowmacKey at hsk'
  obtain ⟨t10, ht, _⟩ := Res.bind_eq_ok.1 hsk'
  have ht10 := ((Gst.addSeconds_eq_ok (by omega)).1 ht).2
  have hg : (mackKey k.msg k.cur.chain k.g).gst = k.g := rfl
  rw [hg] at ht10
  refine ⟨t10, by omega, ?_⟩
  have hta : t10.abs = (mackKey k.msg k.cur.chain k.g).gst.abs - 300 := by rw [hg]; omega
  have := uses_tagsDue (key := mackKey k.msg k.cur.chain k.g) (gm := k.gstMack) (gs := k.gstSlow) hslow (show (mackKey k.msg k.cur.chain k.g).gst.Aligned from k.hal)
    (fun x hx => (inv'.krooted x hx).1) hheld hforce hget hta hsk
  intro kd
  cases kd
  · exact this.1
  · exact this.2

theorem navPace_run (hS : S.Consistent) (ho : (Osnma.new S root0 pk0 slow : Osnma C).Fresh S)
    (h : Logs S (Osnma.new S root0 pk0 slow) hist log o) (hpages : (pagesOf hist).Pairwise (fun a b => a.sub.abs ≤ b.sub.abs))
    (hwords : Chronological (inavsOf hist)) (hfits : Fits S (inavsOf hist)) :
    ∃ rs fs, NavPace S root0 pk0 slow hist log o rs fs := by
  induction h with
  | nil =>
    refine ⟨[], [], ⟨[], rfl⟩, ⟨[], rfl⟩, rfl, by simp, .nil, ?_, rfl, .nil⟩
    have : (Osnma.new S root0 pk0 slow : Osnma C).stored S = [] := Rep.stored (NavInv.fresh hS ho).rep
    rw [this]; exact .nil
  | @snoc hi lo oa ob c hl hc ih =>
    have hinv := navInv_run hS ho hl.run
    cases c with
    | inav w s g b =>
      have hiw := inavsOf_inav hi ⟨w, s, g, b⟩
      dsimp only at hiw
      rw [hiw] at hwords hfits
      rw [pagesOf_inav] at hpages
      obtain ⟨rs, fs, p⟩ := ih hpages hwords.init hfits.init
      have hinv' := hinv.inav hS (c := ⟨w, s, g, b⟩) hc
      have hst : ob.stored S = navStep S (oa.stored S) ⟨w, s, g, b⟩ := Rep.stored hinv'.rep
      obtain ⟨n, _, he⟩ := feedInav_of_ok (c := ⟨w, s, g, b⟩) hc
      have hw := p.words
      have hwd : ∀ f, fs.head? = some f → f.words = inavsOf hi := by
        intro f hf; rw [hf] at hw; exact hw
      have hev : oa.events S (Call.inav w s g b) = [] := rfl
      rw [hev, List.append_nil]
      refine ⟨rs, wordReceived S.navDepth ⟨w, s, g, b⟩ fs, ?_, ?_, ?_, ?_, p.chron, ?_, ?_, .word ⟨w, s, g, b⟩ p.machine⟩
      · rw [pagesOf_inav, he]; exact p.pages
      · rw [he]; exact p.blocks
      · rw [he]; exact p.macks
      · rw [pagesOf_inav]; exact p.times
      · rw [hst]
        refine p.frames.word hS.sats_pos (c := ⟨w, s, g, b⟩) ?_
        intro f hf
        rw [hwd f hf]; exact ⟨hwords, hfits⟩
      · rw [hiw]
        cases fs with
        | nil =>
          simp only [List.head?_nil, Option.map_none, Option.getD_none] at hw
          rw [← hw]; rfl
        | cons f fs =>
          show f.words ++ [(⟨w, s, g, b⟩ : InavCall)] = _
          rw [hwd f rfl]
    | osnma d s g =>
      have hiw := inavsOf_osnma hi d s g
      rw [hiw] at hwords hfits
      rcases Osnma.feedOsnma_of_ok hc with ⟨hz, rfl⟩ | ⟨hz, hrest⟩
      · rw [pagesOf_zero _ _ _ hz] at hpages
        obtain ⟨rs, fs, p⟩ := ih hpages hwords hfits
        have he : ob.events S (.osnma d s g) = [] := by
          unfold Osnma.events; simp only [hz, if_true]
        rw [he, List.append_nil]
        refine ⟨rs, fs, ?_, p.blocks, p.macks, ?_, p.chron, p.frames, ?_, .zero ⟨d, s, g⟩ p.machine hz⟩
        · rw [pagesOf_zero _ _ _ hz]; exact p.pages
        · rw [pagesOf_zero _ _ _ hz]; exact p.times
        · rw [hiw]; exact p.words
      · rw [pagesOf_page _ _ _ hz] at hpages
        obtain ⟨rs, fs, p⟩ := ih (List.pairwise_append.1 hpages).1 hwords hfits
        obtain ⟨outs, h1⟩ := p.pages
        obtain ⟨douts, h3⟩ := p.blocks
        have htimes : ∀ r ∈ rs, ∃ q ∈ pagesOf hi ++ [⟨d, s, g⟩], r.gst = q.sub := by
          intro r hr
          obtain ⟨q, hq, e⟩ := p.times r hr
          exact ⟨q, List.mem_append_left _ hq, e⟩
        rcases hrest with ⟨sf, hf, rfl⟩ | ⟨⟨c⟩⟩
        · have he : oa.events S (.osnma d s g) = [] := by
            unfold Osnma.events; simp only [hz, Bool.false_eq_true, if_false]; rw [hf]
          rw [he, List.append_nil]
          refine ⟨rs, fs, ⟨outs ++ [none], ?_⟩, ⟨douts, h3⟩, p.macks, ?_, p.chron, p.frames, ?_, .page ⟨d, s, g⟩ p.machine hz ?_⟩
          · rw [pagesOf_page _ _ _ hz]; exact feedPages_snoc (p := ⟨d, s, g⟩) h1 hf
          · rw [pagesOf_page _ _ _ hz]; exact htimes
          · rw [hiw]; exact p.words
          · intro r hr
            have := ((feed_completes (p := ⟨d, s, g⟩) h1 hf r).1 hr).1
            cases this
        · obtain ⟨l₁, he, st, hhead, f1, f2, hheld, inv1⟩ := subframeStep hl c h1 h3
          have hmack : storeMacks S ((rs ++ [(⟨s, c.hk, c.msg, c.g⟩ : Received)]).map Received.mackCall) = .ok c.ms := by
            rw [List.map_append]
            refine storeMacks_snoc p.macks ?_
            have := c.hstore
            rw [← hhead] at this
            exact this
          have hrg : (⟨s, c.hk, c.msg, c.g⟩ : Received).gst = (⟨d, s, g⟩ : Page).sub := st.hr.gst
          have hchron : (rs ++ [(⟨s, c.hk, c.msg, c.g⟩ : Received)]).Pairwise (fun a b => a.gst.abs ≤ b.gst.abs) := by
            rw [List.pairwise_append]
            refine ⟨p.chron, List.pairwise_singleton _ _, ?_⟩
            intro r hr r' hr'
            rw [List.mem_singleton] at hr'
            subst hr'
            obtain ⟨q, hq, e⟩ := p.times r hr
            rw [e, hrg]
            exact (List.pairwise_append.1 hpages).2.2 q hq _ (List.mem_singleton.2 rfl)
          have htimes' : ∀ r ∈ rs ++ [(⟨s, c.hk, c.msg, c.g⟩ : Received)], ∃ q ∈ pagesOf hi ++ [⟨d, s, g⟩], r.gst = q.sub := by
            intro r hr
            rcases List.mem_append.1 hr with hr | hr
            · exact htimes r hr
            · rw [List.mem_singleton] at hr
              subst hr
              exact ⟨_, List.mem_append_right _ (List.mem_singleton.2 rfl), hrg⟩
          rw [he, ← List.append_assoc]
          rcases c.tags hinv.inv inv1.kdist with ⟨hd, hnil⟩ | ⟨k, rfl⟩
          · have h₃ : KeyUsed S slow ((rs ++ [(⟨s, c.hk, c.msg, c.g⟩ : Received)]).map Received.mackCall)
                (lo ++ l₁ ++ c.d1.teslaEvents c.msg c.g) fs (c.d1.teslaEvents c.msg c.g) fs := by
              rw [hnil]; exact .none
            refine ⟨_, fs, ?_, ⟨_, f2⟩, ?_, ?_, hchron, ?_, ?_, .subframe ⟨d, s, g⟩ _ p.machine hz st.hr st.h₁ st.h₂ h₃⟩
            · rw [pagesOf_page _ _ _ hz]; exact ⟨_, f1⟩
            · rw [hd, c.d1_nav.2.1]; exact hmack
            · rw [pagesOf_page _ _ _ hz]; exact htimes'
            · have : ob.stored S = oa.stored S := by
                unfold Osnma.stored; rw [hd, c.d1_nav.1]
              rw [this]; exact p.frames
            · rw [hiw]; exact p.words
          · have hev : k.d1.teslaEvents k.msg k.g = [.tesla (mackKey k.msg k.cur.chain k.g)] :=
              OsnmaData.teslaEvents_accept k.hcur k.hal k.hlt k.hval
            have hch' : ((rs ++ [(⟨s, k.hk, k.msg, k.g⟩ : Received)]).map Received.mackCall).Pairwise
                (fun a b => a.gst.abs ≤ b.gst.abs) := by
              rw [List.pairwise_map]; exact hchron
            obtain ⟨t10, ht10, hdue⟩ := KeyArrives.tagsDue (ho := ho) hS hl hc k hmack hch'
            rw [he, ← List.append_assoc] at hdue
            have hgm := ((Gst.addSeconds_eq_ok (by omega)).1 k.hgm).2
            have hgs := ((Gst.addSeconds_eq_ok (by omega)).1 k.hgs).2
            have h₃ : KeyUsed S slow ((rs ++ [(⟨s, k.hk, k.msg, k.g⟩ : Received)]).map Received.mackCall)
                (lo ++ l₁ ++ k.d1.teslaEvents k.msg k.g) fs (k.d1.teslaEvents k.msg k.g) (tagsChecked C k.uses fs) := by
              rw [hev]
              rw [hev] at hdue
              rw [show k.uses = _ from funext hdue]
              refine .key (mackKey k.msg k.cur.chain k.g) k.gstMack t10 k.gstSlow ?_ ?_ ?_
              · show k.gstMack.abs = k.g.abs - 30; omega
              · exact ht10
              · show k.gstSlow.abs = k.g.abs - 330; omega
            have hnav : ob.data.data.navmessage = oa.data.data.navmessage.useGains S C (k.uses .ced) (k.uses .timing) := by
              rw [k.hnew]; rfl
            have hinv' := hinv.osnma (d := d) (s := s) (g := g) hnav
            have hst := Rep.stored hinv'.rep
            refine ⟨_, tagsChecked C k.uses fs, ?_, ⟨_, f2⟩, ?_, ?_, hchron, ?_, ?_, .subframe ⟨d, s, g⟩ _ p.machine hz st.hr st.h₁ st.h₂ h₃⟩
            · rw [pagesOf_page _ _ _ hz]; exact ⟨_, f1⟩
            · rw [k.hnew]; show _ = Res.ok k.d1.mack; rw [k.d1_nav.2.1]; exact hmack
            · rw [pagesOf_page _ _ _ hz]; exact htimes'
            · rw [show ob.stored S = _ from hst]
              exact p.frames.tags hinv.rep (stored_unique hinv hwords) k.uses
            · rw [hiw, ← p.words]
              unfold tagsChecked
              cases fs <;> rfl

/-! ## Getters -/

theorem FrameOf.authenticated {f : NavFrame} {s : NavSlot} (h : FrameOf S f s) (kd : NavKind) (v : Svn) :
    ((s.items kd).find? (fun x => x.svn == some v && decide (40 ≤ x.authbits))).map
        (fun x => (x.messageBits kd.nbits, x.authbits, s.gst.abs - 30 * (x.minAge : Int))) =
      if 40 ≤ f.auth kd v then some (f.data kd v, f.auth kd v, f.gst.abs - 30 * (kd.newestAge f.words v : Int)) else none := by
  by_cases hb : 40 ≤ f.auth kd v
  · rw [if_pos hb]
    have hsome : ((s.items kd).find? (fun x => x.svn == some v && decide (40 ≤ x.authbits))).isSome := by
      rw [List.find?_isSome]
      have hHas : f.Has v := by
        refine Classical.byContradiction (fun hn => ?_)
        have := (h.entries kd).unseen v (fun c hc e => hn ⟨c, hc, e⟩)
        omega
      obtain ⟨c, hc, rfl⟩ := hHas
      obtain ⟨y, hy, hyv⟩ := (h.entries kd).full.all c hc
      obtain ⟨_, _, _, _, ha⟩ := h.entry kd hy hyv
      exact ⟨y, hy, by rw [hyv, ha]; simp [hb]⟩
    obtain ⟨x, hx⟩ := Option.isSome_iff_exists.1 hsome
    rw [hx, Option.map_some]
    have hp := List.find?_some hx
    simp only [Bool.and_eq_true, beq_iff_eq] at hp
    obtain ⟨_, e1, _, e2, e3⟩ := h.entry kd (List.mem_of_find?_eq_some hx) hp.1
    rw [e1, e2, e3, h.gst]
  · rw [if_neg hb, Option.map_eq_none_iff, List.find?_eq_none]
    intro x hx hp
    simp only [Bool.and_eq_true, beq_iff_eq, decide_eq_true_eq] at hp
    obtain ⟨_, _, _, _, e⟩ := h.entry kd hx hp.1
    rw [e] at hp
    exact hb hp.2

theorem Frames.authenticated {fs : List NavFrame} {L : List NavSlot} (h : Frames S fs L) (kd : NavKind) (v : Svn) :
    (bestEntry L kd v).map (fun p => (p.2.messageBits kd.nbits, p.2.authbits, p.1.abs - 30 * (p.2.minAge : Int))) =
      Verif.authenticated fs kd v := by
  induction h with
  | nil => rfl
  | @cons f s fs L h _ ih =>
    have hs := h.authenticated kd v
    unfold bestEntry Verif.authenticated at *
    rw [List.findSome?_cons, List.find?_cons]
    by_cases hb : 40 ≤ f.auth kd v
    · rw [if_pos hb] at hs
      rw [decide_eq_true hb]
      cases hf : (s.items kd).find? (fun x => x.svn == some v && decide (40 ≤ x.authbits)) with
      | none => rw [hf] at hs; cases hs
      | some x => rw [hf] at hs; exact hs
    · rw [if_neg hb, Option.map_eq_none_iff] at hs
      rw [decide_eq_false hb, hs]
      exact ih

end Verif
