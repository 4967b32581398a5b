import Verif.Lemmas.PlaceFrames
import Verif.Lemmas.NavMachine

/-! # Lemmas: the library keeps pace with the reference machine with places -/

namespace Verif
open CollectNavMessage CollectSubframe CollectDsm

variable {S : Storage} {C : Crypto} {root0 : Option MerkleTreeNode} {pk0 : Option (PublicKey C)} {slow : Bool}
  {hist : List Call} {log : List (KeyEvent C)} {o o' : Osnma C}

/-! ## Subframes -/

/-- A subframe of the store is one of the machine. -/
structure PFrameOf (S : Storage) (f : PlaceFrame) (s : NavSlot) : Prop where
  gst : f.gst = s.gst
  good : ∀ kd, NavSlot.Good S.numSats kd (s.items kd)
  places : ∀ kd, PlacesOf kd s.gst (f.places kd) (s.items kd)

/-- The subframes of the store are those of the machine. -/
inductive PFrames (S : Storage) : List PlaceFrame → List NavSlot → Prop
  | nil : PFrames S [] []
  | cons {f : PlaceFrame} {s : NavSlot} {fs : List PlaceFrame} {L : List NavSlot} (h : PFrameOf S f s) (t : PFrames S fs L) :
      PFrames S (f :: fs) (s :: L)

theorem PFrames.take {fs : List PlaceFrame} {L : List NavSlot} (h : PFrames S fs L) (n : Nat) : PFrames S (fs.take n) (L.take n) := by
  induction h generalizing n with
  | nil => simp; exact .nil
  | cons h t ih =>
    cases n with
    | zero => simp; exact .nil
    | succ n => exact .cons h (ih n)

theorem PFrames.right {fs : List PlaceFrame} {L : List NavSlot} (h : PFrames S fs L) {s : NavSlot} (hs : s ∈ L) : ∃ f ∈ fs, PFrameOf S f s := by
  induction h with
  | nil => simp at hs
  | @cons f t fs L h _ ih =>
    rcases List.mem_cons.1 hs with rfl | hs
    · exact ⟨f, by simp, h⟩
    · obtain ⟨f', h1, h2⟩ := ih hs
      exact ⟨f', by simp [h1], h2⟩

theorem PFrames.left {fs : List PlaceFrame} {L : List NavSlot} (h : PFrames S fs L) {f : PlaceFrame} (hf : f ∈ fs) : ∃ s ∈ L, PFrameOf S f s := by
  induction h with
  | nil => simp at hf
  | @cons g t fs L h _ ih =>
    rcases List.mem_cons.1 hf with rfl | hf
    · exact ⟨t, by simp, h⟩
    · obtain ⟨s, h1, h2⟩ := ih hf
      exact ⟨s, by simp [h1], h2⟩

/-- The subframes after a word. -/
theorem PFrames.word (hn : 0 < S.numSats) {fs : List PlaceFrame} {L : List NavSlot} (h : PFrames S fs L) {c : InavCall}
    (hw : ∀ f, fs.head? = some f → f.gst.abs ≤ c.gst.subframe.abs) :
    ∃ fs', WordHeard S c fs fs' ∧ PFrames S fs' (navStep S L c) := by
  cases h with
  | nil =>
    have hmap : ∀ kd : NavKind, (List.replicate S.numSats kd.newItem).map (NavItem.aged (c.gst.subframe = c.gst.subframe))
        = List.replicate S.numSats kd.newItem := by
      intro kd; rw [List.map_replicate, kd.newItem_aged]
    have H : ∀ kd : NavKind, ∃ ps, WordPlaced kd c (List.replicate S.numSats none) ps ∧
        PlacesOf kd c.gst.subframe ps (updSel c.svn (NavItem.feedUpd (kd.upd c) c.svn) (List.replicate S.numSats kd.newItem)) ∧
        NavSlot.Good S.numSats kd (updSel c.svn (NavItem.feedUpd (kd.upd c) c.svn) (List.replicate S.numSats kd.newItem)) := by
      intro kd
      have hg := NavSlot.Good.replicate S.numSats kd
      have hp : PlacesOf kd c.gst.subframe (List.replicate S.numSats none) (List.replicate S.numSats kd.newItem) := by
        refine ⟨by simp, ?_⟩
        intro i x p hx hp
        rw [List.eq_of_mem_replicate (List.mem_of_getElem? hp), List.eq_of_mem_replicate (List.mem_of_getElem? hx)]
        exact rfl
      have := hp.word hn hg (c := c) (Int.le_refl _) (by rw [hmap]; exact hg)
      rw [hmap] at this
      exact this
    obtain ⟨ps, hps⟩ := Classical.skolem.1 H
    refine ⟨_, .first ps (fun kd => (hps kd).1), .cons ⟨rfl, ?_, ?_⟩ .nil⟩
    · intro kd
      rw [NavSlot.step_items]
      have hb : (NavSlot.base S.numSats c.gst.subframe ([] : List NavSlot).head?).items kd = List.replicate S.numSats kd.newItem := by
        cases kd <;> rfl
      rw [hb]; exact (hps kd).2.2
    · intro kd
      rw [NavSlot.step_items, NavSlot.step_gst]
      have hb : (NavSlot.base S.numSats c.gst.subframe ([] : List NavSlot).head?).items kd = List.replicate S.numSats kd.newItem := by
        cases kd <;> rfl
      rw [hb]; exact (hps kd).2.1
  | @cons f s fs L hf ht =>
    have hle := hw f rfl
    have hbase : ∀ kd : NavKind, (NavSlot.base S.numSats c.gst.subframe (some s)).items kd
        = (s.items kd).map (NavItem.aged (s.gst = c.gst.subframe)) := by
      intro kd
      rcases NavSlot.base_items S.numSats c.gst.subframe (some s) kd with ⟨h, _⟩ | ⟨s', h, ⟨h1, h2⟩ | ⟨h1, h2⟩⟩
      · cases h
      · cases h
        rw [h2, show NavItem.aged (s.gst = c.gst.subframe) = id from funext (fun x => if_pos h1), List.map_id]
      · cases h
        rw [h2]
        exact List.map_congr_left (fun x _ => (if_neg h1).symm)
    have H : ∀ kd : NavKind, ∃ ps, WordPlaced kd c (f.places kd) ps ∧
        PlacesOf kd c.gst.subframe ps (updSel c.svn (NavItem.feedUpd (kd.upd c) c.svn) ((NavSlot.base S.numSats c.gst.subframe (some s)).items kd)) ∧
        NavSlot.Good S.numSats kd (updSel c.svn (NavItem.feedUpd (kd.upd c) c.svn) ((NavSlot.base S.numSats c.gst.subframe (some s)).items kd)) := by
      intro kd
      have hb : NavSlot.Good S.numSats kd ((NavSlot.base S.numSats c.gst.subframe (some s)).items kd) :=
        NavSlot.Good.base (fun t ht => by cases ht; exact hf.good kd)
      rw [hbase kd] at hb ⊢
      exact (hf.places kd).word hn (hf.good kd) (by rw [← hf.gst]; exact hle) hb
    obtain ⟨ps, hps⟩ := Classical.skolem.1 H
    refine ⟨_, .next f fs ps (fun kd => (hps kd).1), .cons ⟨rfl, ?_, ?_⟩ ?_⟩
    · intro kd
      rw [NavSlot.step_items]; exact (hps kd).2.2
    · intro kd
      rw [NavSlot.step_items, NavSlot.step_gst]; exact (hps kd).2.1
    · unfold navTail; dsimp only
      by_cases hg : s.gst = c.gst.subframe
      · rw [if_pos hg, if_pos (by rw [hf.gst]; exact hg)]; exact ht
      · rw [if_neg hg, if_neg (by rw [hf.gst]; exact hg)]
        exact (PFrames.cons hf ht).take _

/-! ## Tags -/

/-- The place of an entry. -/
theorem PFrameOf.place {f : PlaceFrame} {s : NavSlot} (h : PFrameOf S f s) {kd : NavKind} {x : NavItem} (hx : x ∈ s.items kd) {v : Svn}
    (hv : x.svn = some v) : ∃ p, some p ∈ f.places kd ∧ HasPlace kd s.gst p x ∧ p.svn = v := by
  obtain ⟨i, hi⟩ := List.mem_iff_getElem?.1 hx
  obtain ⟨p, hp, hxp⟩ := (h.places kd).item hi
  cases p with
  | none =>
    have : x = kd.newItem := hxp
    rw [this, kd.newItem_svn] at hv; cases hv
  | some p =>
    have hx' : HasPlace kd s.gst p x := hxp
    exact ⟨p, List.mem_of_getElem? hp, hx', by rw [hx'.svn] at hv; exact Option.some.inj hv⟩

theorem counts_place {n : CollectNavMessage} {L : List NavSlot} (hr : Rep S n L) {fs : List PlaceFrame} (hf : PFrames S fs L)
    (huniq : ∀ s ∈ L, ∀ t ∈ L, t.gst = s.gst → t = s) (kd : NavKind) {g : Gst} {p : Place} {x : NavItem} (hx : HasPlace kd g p x) (u : TagUse) :
    u.Counts S C n (n.arr kd) kd.nbits x ↔ u.CountsForPlace C fs kd p := by
  have hfind : ∀ t ∈ L, ∀ w, n.entryAt S (n.arr kd) t.gst w = (t.items kd).find? (fun x => x.svn == some w) :=
    fun t ht w => CollectNavMessage.Rep.entryAt hr kd ht (huniq t ht) w
  constructor
  · rintro ⟨h1, h2, svn, y, h3, h4, h5, h6, h7, h8⟩
    rw [hx.svn] at h6; cases h6
    unfold entryBefore at h4
    cases hg : u.gst.addSeconds (-30) with
    | panic w => rw [hg] at h4; cases h4
    | ok g =>
      rw [hg] at h4
      dsimp only at h4
      have hgabs := ((Gst.addSeconds_eq_ok (by omega)).1 hg).2
      obtain ⟨t, ht, rfl⟩ := entryAt_slot hr h4
      rw [hfind t ht] at h4
      obtain ⟨e, he, het⟩ := hf.right ht
      have hyv := entryAt_svn (by rw [hfind t ht]; exact h4)
      obtain ⟨q, k1, k2, k3⟩ := het.place (List.mem_of_find?_eq_some h4) hyv
      refine ⟨h1, h2, h3.symm, e, he, by rw [het.gst]; omega, q, k1, k3, by rw [← k2.maxAge]; exact h5, by rw [← hx.bits, ← k2.bits]; exact h7, ?_⟩
      rw [← hx.bits]; exact h8
  · rintro ⟨h1, h2, h3, e, he, h4, q, h5, hqv, h6, h7, h8⟩
    obtain ⟨t, ht, het⟩ := hf.left he
    obtain ⟨i, hi⟩ := List.mem_iff_getElem?.1 h5
    obtain ⟨y0, hy0, hyp⟩ := (het.places kd).get hi
    have hy' : HasPlace kd t.gst q y0 := hyp
    have hy0v : y0.svn = some p.svn := by rw [hy'.svn, hqv]
    have hsome : ((t.items kd).find? (fun x => x.svn == some p.svn)).isSome := by
      rw [List.find?_isSome]; exact ⟨y0, List.mem_of_getElem? hy0, by simp [hy0v]⟩
    obtain ⟨y, hy⟩ := Option.isSome_iff_exists.1 hsome
    have hyv : y.svn = some p.svn := by simpa using List.find?_some hy
    obtain ⟨j, hj⟩ := List.mem_iff_getElem?.1 (List.mem_of_find?_eq_some hy)
    have hij := (het.good kd).distinct i j y0 y p.svn hy0 hj hy0v hyv
    subst hij
    rw [hy0] at hj; cases hj
    refine ⟨h1, h2, p.svn, y0, h3.symm, ?_, by rw [hy'.maxAge]; exact h6, hx.svn, by rw [hx.bits, hy'.bits]; exact h7, by rw [hx.bits]; exact h8⟩
    have hg : u.gst.addSeconds (-30) = .ok t.gst := (Gst.addSeconds_eq_ok (by omega)).2 ⟨by omega, by rw [← het.gst]; omega⟩
    rw [entryBefore_eq hg, hfind t ht]; exact hy

theorem usesGain_place {n : CollectNavMessage} {L : List NavSlot} (hr : Rep S n L) {fs : List PlaceFrame} (hf : PFrames S fs L)
    (huniq : ∀ s ∈ L, ∀ t ∈ L, t.gst = s.gst → t = s) (kd : NavKind) {g : Gst} {p : Place} {x : NavItem} (hx : HasPlace kd g p x)
    (us : List TagUse) : usesGain S C n (n.arr kd) kd.nbits us x = gainForPlace C fs us kd p := by
  unfold usesGain gainForPlace
  congr 1
  apply List.map_congr_left
  intro u _
  unfold tagGain
  have := counts_place (C := C) hr hf huniq kd hx u
  unfold TagUse.Counts at this
  by_cases hc : u.CountsForPlace C fs kd p
  · rw [if_pos hc, if_pos (this.2 hc)]
  · rw [if_neg hc, if_neg (fun h => hc (this.1 h))]

/-- The subframes after the tags are checked. -/
theorem PFrames.tags {n : CollectNavMessage} {L : List NavSlot} (hr : Rep S n L) {fs : List PlaceFrame} (hf : PFrames S fs L)
    (huniq : ∀ s ∈ L, ∀ t ∈ L, t.gst = s.gst → t = s) (us : NavKind → List TagUse) :
    PFrames S (placesChecked C us fs)
      (L.map (fun s => s.gain (usesGain S C n n.ced 549 (us .ced)) (usesGain S C n n.timing 141 (us .timing)))) := by
  have step : ∀ f s, PFrameOf S f s →
      PFrameOf S ⟨f.gst, fun kd => (f.places kd).map (Option.map (Place.checked C fs (us kd) kd))⟩
        (s.gain (usesGain S C n n.ced 549 (us .ced)) (usesGain S C n n.timing 141 (us .timing))) := by
    intro f s hfs
    have key : ∀ kd : NavKind, NavSlot.Good S.numSats kd (addGains (usesGain S C n (n.arr kd) kd.nbits (us kd)) (s.items kd)) ∧
        PlacesOf kd s.gst ((f.places kd).map (Option.map (Place.checked C fs (us kd) kd)))
          (addGains (usesGain S C n (n.arr kd) kd.nbits (us kd)) (s.items kd)) := by
      intro kd
      refine ⟨(hfs.good kd).add _, ?_⟩
      unfold addGains
      refine ⟨by simp [(hfs.places kd).len], ?_⟩
      intro i x p hx hp
      rw [List.getElem?_map, Option.map_eq_some_iff] at hx hp
      obtain ⟨y, hy, rfl⟩ := hx
      obtain ⟨q, hq, rfl⟩ := hp
      have hyq := (hfs.places kd).each i y q hy hq
      cases q with
      | none =>
        have : y = kd.newItem := hyq
        show _ = kd.newItem
        rw [usesGain_unassigned _ _ _ _ (by rw [this]; exact kd.newItem_svn), this]
        cases kd <;> rfl
      | some q =>
        have hy' : HasPlace kd s.gst q y := hyq
        rw [usesGain_place hr hf huniq kd hy']
        refine ⟨hy'.svn, hy'.age, hy'.bits, ?_, hy'.before, hy'.last, hy'.chr⟩
        show min 65535 (y.authbits + _) = min 65535 (q.auth + _)
        rw [hy'.auth]
    refine ⟨hfs.gst, ?_, ?_⟩
    · intro kd
      cases kd
      · exact (key .ced).1
      · exact (key .timing).1
    · intro kd
      cases kd
      · exact (key .ced).2
      · exact (key .timing).2
  unfold placesChecked
  generalize hfn : (fun f : PlaceFrame => (⟨f.gst, fun kd => (f.places kd).map (Option.map (Place.checked C fs (us kd) kd))⟩ : PlaceFrame)) = fn at *
  have step' : ∀ f s, PFrameOf S f s → PFrameOf S (fn f) (s.gain (usesGain S C n n.ced 549 (us .ced)) (usesGain S C n n.timing 141 (us .timing))) := by
    intro f s h; rw [← hfn]; exact step f s h
  clear step hfn huniq hr
  induction hf with
  | nil => exact .nil
  | cons h _ ih => exact .cons (step' _ _ h) ih

/-! ## Runs -/

/-- The library and the machine after the same calls. -/
structure PlacePace (S : Storage) (root0 : Option MerkleTreeNode) (pk0 : Option (PublicKey C)) (slow : Bool) (hist : List Call)
    (log : List (KeyEvent C)) (o : Osnma C) (rs : List Received) (fs : List PlaceFrame) : Prop where
  pages : ∃ outs, feedPages .new (pagesOf hist) = .ok (o.subframe, outs)
  blocks : ∃ douts, feedBlocks .new (rs.map Received.dsmCall) = .ok (o.data.dsm, douts)
  macks : storeMacks S (rs.map Received.mackCall) = .ok o.data.data.mack
  times : ∀ r ∈ rs, ∃ p ∈ pagesOf hist, r.gst = p.sub
  chron : rs.Pairwise (fun a b => a.gst.abs ≤ b.gst.abs)
  frames : PFrames S fs (o.stored S)
  head : ∀ f, fs.head? = some f → ∃ q c, inavsOf hist = q ++ [c] ∧ f.gst = c.gst.subframe
  machine : PlaceMachine root0 pk0 S slow hist rs log fs

theorem WordHeard.head {c : InavCall} {fs fs' : List PlaceFrame} (h : WordHeard S c fs fs') : ∀ f, fs'.head? = some f → f.gst = c.gst.subframe := by
  cases h <;> (intro f hf; cases hf; rfl)

theorem placePace_run (hS : S.Consistent) (ho : (Osnma.new S root0 pk0 slow : Osnma C).Fresh S)
    (h : Logs S (Osnma.new S root0 pk0 slow) hist log o) (hpages : (pagesOf hist).Pairwise (fun a b => a.sub.abs ≤ b.sub.abs))
    (hwords : Chronological (inavsOf hist)) : ∃ rs fs, PlacePace S root0 pk0 slow hist log o rs fs := by
  induction h with
  | nil =>
    refine ⟨[], [], ⟨[], rfl⟩, ⟨[], rfl⟩, rfl, by simp, .nil, ?_, fun f hf => (by cases hf), .nil⟩
    have : (Osnma.new S root0 pk0 slow : Osnma C).stored S = [] := Rep.stored (NavInv.fresh hS ho).rep
    rw [this]; exact .nil
  | @snoc hi lo oa ob c hl hc ih =>
    have hinv := navInv_run hS ho hl.run
    cases c with
    | inav w s g b =>
      have hiw := inavsOf_inav hi ⟨w, s, g, b⟩
      dsimp only at hiw
      rw [hiw] at hwords
      rw [pagesOf_inav] at hpages
      obtain ⟨rs, fs, p⟩ := ih hpages hwords.init
      have hinv' := hinv.inav hS (c := ⟨w, s, g, b⟩) hc
      have hst : ob.stored S = navStep S (oa.stored S) ⟨w, s, g, b⟩ := Rep.stored hinv'.rep
      obtain ⟨n, _, he⟩ := feedInav_of_ok (c := ⟨w, s, g, b⟩) hc
      have hev : oa.events S (Call.inav w s g b) = [] := rfl
      rw [hev, List.append_nil]
      obtain ⟨fs', hw, hfr⟩ := p.frames.word hS.sats_pos (c := ⟨w, s, g, b⟩) (by
        intro f hf
        obtain ⟨q, d, h1, h2⟩ := p.head f hf
        rw [h1] at hwords
        rw [h2]; exact hwords.last)
      refine ⟨rs, fs', ?_, ?_, ?_, ?_, p.chron, ?_, ?_, .word ⟨w, s, g, b⟩ p.machine hw⟩
      · rw [pagesOf_inav, he]; exact p.pages
      · rw [he]; exact p.blocks
      · rw [he]; exact p.macks
      · rw [pagesOf_inav]; exact p.times
      · rw [hst]; exact hfr
      · intro f hf
        exact ⟨_, _, hiw, hw.head f hf⟩
    | osnma d s g =>
      have hiw := inavsOf_osnma hi d s g
      rw [hiw] at hwords
      rcases Osnma.feedOsnma_of_ok hc with ⟨hz, rfl⟩ | ⟨hz, hrest⟩
      · rw [pagesOf_zero _ _ _ hz] at hpages
        obtain ⟨rs, fs, p⟩ := ih hpages hwords
        have he : ob.events S (.osnma d s g) = [] := by
          unfold Osnma.events; simp only [hz, if_true]
        rw [he, List.append_nil]
        refine ⟨rs, fs, ?_, p.blocks, p.macks, ?_, p.chron, p.frames, ?_, .zero ⟨d, s, g⟩ p.machine hz⟩
        · rw [pagesOf_zero _ _ _ hz]; exact p.pages
        · rw [pagesOf_zero _ _ _ hz]; exact p.times
        · rw [hiw]; exact p.head
      · rw [pagesOf_page _ _ _ hz] at hpages
        obtain ⟨rs, fs, p⟩ := ih (List.pairwise_append.1 hpages).1 hwords
        obtain ⟨outs, h1⟩ := p.pages
        obtain ⟨douts, h3⟩ := p.blocks
        have htimes : ∀ r ∈ rs, ∃ q ∈ pagesOf hi ++ [⟨d, s, g⟩], r.gst = q.sub := by
          intro r hr
          obtain ⟨q, hq, e⟩ := p.times r hr
          exact ⟨q, List.mem_append_left _ hq, e⟩
        rcases hrest with ⟨sf, hf, rfl⟩ | ⟨⟨c⟩⟩
        · have he : oa.events S (.osnma d s g) = [] := by
            unfold Osnma.events; simp only [hz, Bool.false_eq_true, if_false]; rw [hf]
          rw [he, List.append_nil]
          refine ⟨rs, fs, ⟨outs ++ [none], ?_⟩, ⟨douts, h3⟩, p.macks, ?_, p.chron, p.frames, ?_, .page ⟨d, s, g⟩ p.machine hz ?_⟩
          · rw [pagesOf_page _ _ _ hz]; exact feedPages_snoc (p := ⟨d, s, g⟩) h1 hf
          · rw [pagesOf_page _ _ _ hz]; exact htimes
          · rw [hiw]; exact p.head
          · intro r hr
            have := ((feed_completes (p := ⟨d, s, g⟩) h1 hf r).1 hr).1
            cases this
        · obtain ⟨l₁, he, st, hhead, f1, f2, hheld, inv1⟩ := subframeStep hl c h1 h3
          have hmack : storeMacks S ((rs ++ [(⟨s, c.hk, c.msg, c.g⟩ : Received)]).map Received.mackCall) = .ok c.ms := by
            rw [List.map_append]
            refine storeMacks_snoc p.macks ?_
            have := c.hstore
            rw [← hhead] at this
            exact this
          have hrg : (⟨s, c.hk, c.msg, c.g⟩ : Received).gst = (⟨d, s, g⟩ : Page).sub := st.hr.gst
          have hchron : (rs ++ [(⟨s, c.hk, c.msg, c.g⟩ : Received)]).Pairwise (fun a b => a.gst.abs ≤ b.gst.abs) := by
            rw [List.pairwise_append]
            refine ⟨p.chron, List.pairwise_singleton _ _, ?_⟩
            intro r hr r' hr'
            rw [List.mem_singleton] at hr'
            subst hr'
            obtain ⟨q, hq, e⟩ := p.times r hr
            rw [e, hrg]
            exact (List.pairwise_append.1 hpages).2.2 q hq _ (List.mem_singleton.2 rfl)
          have htimes' : ∀ r ∈ rs ++ [(⟨s, c.hk, c.msg, c.g⟩ : Received)], ∃ q ∈ pagesOf hi ++ [⟨d, s, g⟩], r.gst = q.sub := by
            intro r hr
            rcases List.mem_append.1 hr with hr | hr
            · exact htimes r hr
            · rw [List.mem_singleton] at hr
              subst hr
              exact ⟨_, List.mem_append_right _ (List.mem_singleton.2 rfl), hrg⟩
          rw [he, ← List.append_assoc]
          rcases c.tags hinv.inv inv1.kdist with ⟨hd, hnil⟩ | ⟨k, rfl⟩
          · have h₃ : KeyUsedPlaces S slow ((rs ++ [(⟨s, c.hk, c.msg, c.g⟩ : Received)]).map Received.mackCall)
                (lo ++ l₁ ++ c.d1.teslaEvents c.msg c.g) fs (c.d1.teslaEvents c.msg c.g) fs := by
              rw [hnil]; exact .none
            refine ⟨_, fs, ?_, ⟨_, f2⟩, ?_, ?_, hchron, ?_, ?_, .subframe ⟨d, s, g⟩ _ p.machine hz st.hr st.h₁ st.h₂ h₃⟩
            · rw [pagesOf_page _ _ _ hz]; exact ⟨_, f1⟩
            · rw [hd, c.d1_nav.2.1]; exact hmack
            · rw [pagesOf_page _ _ _ hz]; exact htimes'
            · have : ob.stored S = oa.stored S := by
                unfold Osnma.stored; rw [hd, c.d1_nav.1]
              rw [this]; exact p.frames
            · rw [hiw]; exact p.head
          · have hev : k.d1.teslaEvents k.msg k.g = [.tesla (mackKey k.msg k.cur.chain k.g)] :=
              OsnmaData.teslaEvents_accept k.hcur k.hal k.hlt k.hval
            have hch' : ((rs ++ [(⟨s, k.hk, k.msg, k.g⟩ : Received)]).map Received.mackCall).Pairwise
                (fun a b => a.gst.abs ≤ b.gst.abs) := by
              rw [List.pairwise_map]; exact hchron
            obtain ⟨t10, ht10, hdue⟩ := KeyArrives.tagsDue (ho := ho) hS hl hc k hmack hch'
            rw [he, ← List.append_assoc] at hdue
            have hgm := ((Gst.addSeconds_eq_ok (by omega)).1 k.hgm).2
            have hgs := ((Gst.addSeconds_eq_ok (by omega)).1 k.hgs).2
            have h₃ : KeyUsedPlaces S slow ((rs ++ [(⟨s, k.hk, k.msg, k.g⟩ : Received)]).map Received.mackCall)
                (lo ++ l₁ ++ k.d1.teslaEvents k.msg k.g) fs (k.d1.teslaEvents k.msg k.g) (placesChecked C k.uses fs) := by
              rw [hev]
              rw [hev] at hdue
              rw [show k.uses = _ from funext hdue]
              refine .key (mackKey k.msg k.cur.chain k.g) k.gstMack t10 k.gstSlow ?_ ?_ ?_
              · show k.gstMack.abs = k.g.abs - 30; omega
              · exact ht10
              · show k.gstSlow.abs = k.g.abs - 330; omega
            have hnav : ob.data.data.navmessage = oa.data.data.navmessage.useGains S C (k.uses .ced) (k.uses .timing) := by
              rw [k.hnew]; rfl
            have hinv' := hinv.osnma (d := d) (s := s) (g := g) hnav
            have hst := Rep.stored hinv'.rep
            refine ⟨_, placesChecked C k.uses fs, ?_, ⟨_, f2⟩, ?_, ?_, hchron, ?_, ?_, .subframe ⟨d, s, g⟩ _ p.machine hz st.hr st.h₁ st.h₂ h₃⟩
            · rw [pagesOf_page _ _ _ hz]; exact ⟨_, f1⟩
            · rw [k.hnew]; show _ = Res.ok k.d1.mack; rw [k.d1_nav.2.1]; exact hmack
            · rw [pagesOf_page _ _ _ hz]; exact htimes'
            · rw [show ob.stored S = _ from hst]
              exact p.frames.tags hinv.rep (stored_unique hinv hwords) k.uses
            · rw [hiw]
              intro f hf
              unfold placesChecked at hf
              rw [List.head?_map, Option.map_eq_some_iff] at hf
              obtain ⟨f0, h0, rfl⟩ := hf
              exact p.head f0 h0

/-! ## Getters -/

theorem PlacesOf.find {kd : NavKind} {g : Gst} (v : Svn) : ∀ {ps : List (Option Place)} {l : List NavItem}, PlacesOf kd g ps l →
    (l.find? (fun x => x.svn == some v && decide (40 ≤ x.authbits))).map
        (fun x => (x.messageBits kd.nbits, x.authbits, g.abs - 30 * (x.minAge : Int))) =
      ((ps.find? (fun x => x.any (fun p => decide (p.svn = v ∧ 40 ≤ p.auth)))).bind
        (fun x => x.map (fun p => (p.data kd, p.auth, g.abs - 30 * (p.newest kd : Int)))))
  | [], [], _ => rfl
  | [], _ :: _, h => by have := h.len; simp at this
  | _ :: _, [], h => by have := h.len; simp at this
  | p :: ps, x :: l, h => by
    have h0 := h.each 0 x p rfl rfl
    have ht : PlacesOf kd g ps l := ⟨by have := h.len; simpa using this, fun i y q hy hq => h.each (i + 1) y q (by simpa using hy) (by simpa using hq)⟩
    rw [List.find?_cons, List.find?_cons]
    cases p with
    | none =>
      have hx : x = kd.newItem := h0
      have : (x.svn == some v && decide (40 ≤ x.authbits)) = false := by rw [hx, kd.newItem_svn]; rfl
      rw [this]
      exact PlacesOf.find v ht
    | some p =>
      have hx : HasPlace kd g p x := h0
      have e : (x.svn == some v && decide (40 ≤ x.authbits)) = (some p).any (fun p => decide (p.svn = v ∧ 40 ≤ p.auth)) := by
        rw [Option.any_some, hx.svn, hx.auth]
        by_cases hv : p.svn = v
        · subst hv; simp
        · simp [hv]
      rw [e]
      cases hb : (some p).any (fun p => decide (p.svn = v ∧ 40 ≤ p.auth)) with
      | true =>
        dsimp only
        rw [Option.map_some, Option.bind_some, Option.map_some, hx.bits, hx.auth, hx.minAge]
      | false => exact PlacesOf.find v ht

theorem PFrames.authenticated {fs : List PlaceFrame} {L : List NavSlot} (h : PFrames S fs L) (kd : NavKind) (v : Svn) :
    (bestEntry L kd v).map (fun p => (p.2.messageBits kd.nbits, p.2.authbits, p.1.abs - 30 * (p.2.minAge : Int))) =
      authenticatedIn fs kd v := by
  induction h with
  | nil => rfl
  | @cons f s fs L h _ ih =>
    have hs := (h.places kd).find v
    rw [← h.gst] at hs
    unfold bestEntry authenticatedIn at *
    rw [List.findSome?_cons, List.findSome?_cons, ← hs]
    cases hf : (s.items kd).find? (fun x => x.svn == some v && decide (40 ≤ x.authbits)) with
    | none => exact ih
    | some x =>
      simp only [Option.map_some]
      rw [h.gst]

end Verif
