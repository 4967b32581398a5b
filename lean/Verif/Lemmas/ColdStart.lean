import Verif.Lemmas.Recovery
import Verif.Lemmas.CompleteMack

/-! # Lemmas: the key machine on a genuine broadcast -/

namespace Verif
open CollectSubframe CollectDsm

variable {C : Crypto} {b : Broadcast C}

/-! ## Subframes received -/

/-- The received messages are those of the broadcast. -/
def Broadcast.Sent (b : Broadcast C) (r : Received) : Prop :=
  b.On r.gst ∧ r.hkroot = b.hkroot r.svn r.gst ∧ r.mack = b.mack r.svn r.gst

theorem inOrder_words (n : Nat) (l : List Page) : (inOrder n l).map Page.word = List.range' n (inOrder n l).length := by
  induction l generalizing n with
  | nil => rfl
  | cons p l ih =>
    by_cases h : p.word = n
    · rw [inOrder_pos l h, List.map_cons, List.length_cons, List.range'_succ, ih, h]
    · rw [inOrder_neg l h, ih]

theorem inOrder_sublist (n : Nat) (l : List Page) : (inOrder n l).Sublist l := by
  induction l generalizing n with
  | nil => exact List.Sublist.refl _
  | cons p l ih =>
    by_cases h : p.word = n
    · rw [inOrder_pos l h]; exact (ih _).cons_cons p
    · rw [inOrder_neg l h]; exact (ih _).cons p

theorem flatMap_take_drop1 {l : List Byte} (ps : List Page) (f : Page → List Byte)
    (hw : ps.map Page.word = List.range 15) (hl : l.length = 15) (hf : ∀ p ∈ ps, f p = (l.drop p.word).take 1) :
    ps.flatMap f = l := by
  have h1 : ps.flatMap f = (ps.map Page.word).flatMap (fun w => (l.drop w).take 1) := by
    rw [List.flatMap_map]
    unfold List.flatMap
    rw [List.map_congr_left hf]
  rw [h1, hw]
  have gen : ∀ n, n ≤ 15 → (List.range n).flatMap (fun w => (l.drop w).take 1) = l.take n := by
    intro n
    induction n with
    | zero => simp
    | succ n ih =>
      intro hn
      rw [List.range_succ, List.flatMap_append, ih (by omega)]
      simp only [List.flatMap_cons, List.flatMap_nil, List.append_nil]
      rw [List.take_add]
  rw [gen 15 (by omega), List.take_of_length_le (by omega)]

theorem mem_sinceSubframe {ps : List Page} {g : Gst} {q : Page} (h : q ∈ sinceSubframe ps g) : q ∈ ps ∧ q.sub = g := by
  unfold sinceSubframe at h
  rw [List.mem_reverse] at h
  refine ⟨List.mem_reverse.1 ((List.takeWhile_sublist _).subset h), ?_⟩
  have := List.all_takeWhile (p := fun p : Page => p.sub == g) (l := ps.reverse)
  rw [List.all_eq_true] at this
  simpa using this q h

theorem completes_sent {ps : List Page} {p : Page} {r : Received} (hc : CompletesSubframe ps p r)
    (hh : ∀ q ∈ ps ++ [p], q.svn = p.svn → b.On q.sub ∧ q.hkroot = ((b.hkroot q.svn q.sub).val.drop q.word).take 1 ∧
      q.mack = ((b.mack q.svn q.sub).val.drop (4 * q.word)).take 4) : b.Sent r := by
  have hmem : ∀ q ∈ inOrder 0 ((sinceSubframe ps p.sub).filter (fun q => q.svn == p.svn)) ++ [p],
      q ∈ ps ++ [p] ∧ q.svn = p.svn ∧ q.sub = p.sub := by
    intro q hq
    rw [List.mem_append] at hq
    rcases hq with hq | hq
    · have := (inOrder_sublist _ _).subset hq
      rw [List.mem_filter] at this
      obtain ⟨h1, h2⟩ := mem_sinceSubframe this.1
      exact ⟨by simp [h1], by simpa using this.2, h2⟩
    · rw [List.mem_singleton] at hq; subst hq; exact ⟨by simp, rfl, rfl⟩
  have hw : (inOrder 0 ((sinceSubframe ps p.sub).filter (fun q => q.svn == p.svn)) ++ [p]).map Page.word = List.range 15 := by
    rw [List.map_append, inOrder_words, hc.words, List.map_cons, List.map_nil, hc.last]
    rfl
  have hg : r.gst = p.sub := hc.gst
  have hs : r.svn = p.svn := hc.svn
  refine ⟨by rw [hg]; exact (hh p (by simp) rfl).1, ?_, ?_⟩
  · apply Subtype.ext
    rw [hc.hkroot, hg, hs]
    refine flatMap_take_drop1 _ _ hw (b.hkroot p.svn p.sub).2 ?_
    intro q hq
    obtain ⟨h1, h2, h3⟩ := hmem q hq
    rw [(hh q h1 h2).2.1, h2, h3]
  · apply Subtype.ext
    rw [hc.mack, hg, hs]
    refine flatMap_take_drop _ _ hw (b.mack p.svn p.sub).2 ?_
    intro q hq
    obtain ⟨h1, h2, h3⟩ := hmem q hq
    rw [(hh q h1 h2).2.2, h2, h3]

theorem received_sent {ps : List Page} {rs : List Received} (h : ReceivedIn ps rs)
    (hh : ∀ q ∈ ps, b.On q.sub ∧ q.hkroot = ((b.hkroot q.svn q.sub).val.drop q.word).take 1 ∧
      q.mack = ((b.mack q.svn q.sub).val.drop (4 * q.word)).take 4) : ∀ r ∈ rs, b.Sent r := by
  induction h with
  | nil => intro r hr; cases hr
  | skip p h hn ih => exact ih (fun q hq => hh q (by simp [hq]))
  | @got ps rs p r h hr ih =>
    intro r' hr'
    rw [List.mem_append] at hr'
    rcases hr' with hr' | hr'
    · exact ih (fun q hq => hh q (by simp [hq])) r' hr'
    · rw [List.mem_singleton] at hr'
      subst hr'
      exact completes_sent hr (fun q hq _ => hh q hq)

/-- The subframes are in the order of the pages. -/
theorem received_sublist {ps : List Page} {rs : List Received} (h : ReceivedIn ps rs) :
    (rs.map Received.gst).Sublist (ps.map Page.sub) := by
  induction h with
  | nil => exact List.Sublist.refl _
  | skip p h hn ih => rw [List.map_append]; exact ih.trans (List.sublist_append_left _ _)
  | @got ps rs p r h hr ih =>
    rw [List.map_append, List.map_append]
    refine ih.append ?_
    rw [List.map_cons, List.map_cons, hr.gst]
    exact List.Sublist.refl _

theorem inOrder_complete {n k : Nat} {l : List Page} (h : (List.range' n k).Sublist (l.map Page.word)) : k ≤ (inOrder n l).length := by
  induction l generalizing n k with
  | nil =>
    have := h.length_le
    simp at this
    omega
  | cons p l ih =>
    cases k with
    | zero => exact Nat.zero_le _
    | succ k =>
      rw [List.range'_succ, List.map_cons] at h
      by_cases hp : p.word = n
      · rw [inOrder_pos l hp, List.length_cons]
        rw [hp] at h
        have := ih (List.cons_sublist_cons.1 h)
        omega
      · rw [inOrder_neg l hp]
        have : (n :: List.range' (n + 1) k).Sublist (l.map Page.word) := by
          cases h with
          | cons _ h => exact h
          | cons_cons _ h => exact absurd rfl hp
        exact ih (k := k + 1) (by rw [List.range'_succ]; exact this)

/-- Pages 0 to 14 in order complete a subframe. -/
theorem received_of_inOrder {ps : List Page} {rs : List Received} (h : ReceivedIn ps rs) {v : Svn} {g : Gst}
    (hl : 15 ≤ (inOrder 0 ((sinceSubframe ps g).filter (fun q => q.svn == v))).length) : ∃ r ∈ rs, r.svn = v ∧ r.gst = g := by
  have step : ∀ {ps : List Page} {p : Page}, 15 ≤ (inOrder 0 ((sinceSubframe (ps ++ [p]) g).filter (fun q => q.svn == v))).length →
      ¬ 15 ≤ (inOrder 0 ((sinceSubframe ps g).filter (fun q => q.svn == v))).length →
      ∃ r, CompletesSubframe ps p r ∧ r.svn = v ∧ r.gst = g := by
    intro ps p h1 h2
    rw [sinceSubframe_append] at h1
    split at h1
    · rename_i hsub
      rw [List.filter_append] at h1
      by_cases hv : p.svn = v
      · rw [List.filter_cons_of_pos (by simpa using hv), List.filter_nil, inOrder_snoc] at h1
        split at h1
        · rename_i hw
          rw [List.length_append, List.length_singleton] at h1
          have hlen : (inOrder 0 ((sinceSubframe ps g).filter (fun q => q.svn == v))).length = 14 := by omega
          rw [hlen] at hw
          subst hv hsub
          have f1 : ((inOrder 0 ((sinceSubframe ps p.sub).filter (fun q => q.svn == p.svn)) ++ [p]).flatMap Page.hkroot).length = 15 := by
            have hone : ∀ l : List Page, (l.flatMap Page.hkroot).length = l.length := by
              intro l
              induction l with
              | nil => rfl
              | cons a l ih =>
                rw [List.flatMap_cons, List.length_append, ih, List.length_cons]
                unfold Page.hkroot
                rw [List.length_take, a.data.2]; omega
            rw [hone, List.length_append, hlen]; rfl
          have f2 : ((inOrder 0 ((sinceSubframe ps p.sub).filter (fun q => q.svn == p.svn)) ++ [p]).flatMap Page.mack).length = 60 := by
            have hone : ∀ l : List Page, (l.flatMap Page.mack).length = 4 * l.length := by
              intro l
              induction l with
              | nil => rfl
              | cons a l ih =>
                rw [List.flatMap_cons, List.length_append, ih, List.length_cons]
                unfold Page.mack
                rw [List.length_drop, a.data.2]; omega
            rw [hone, List.length_append, hlen]; rfl
          exact ⟨⟨p.svn, ⟨_, f1⟩, ⟨_, f2⟩, p.sub⟩, ⟨rfl, by simpa using hw, hlen, rfl, rfl, rfl⟩, rfl, rfl⟩
        · exact absurd h1 h2
      · rw [List.filter_cons_of_neg (by simpa using hv), List.filter_nil, List.append_nil] at h1
        exact absurd h1 h2
    · simp [inOrder] at h1
  induction h with
  | nil => simp [sinceSubframe, inOrder] at hl
  | @skip ps rs p h hn ih =>
    by_cases h2 : 15 ≤ (inOrder 0 ((sinceSubframe ps g).filter (fun q => q.svn == v))).length
    · exact ih h2
    · obtain ⟨r, hr, _⟩ := step hl h2
      exact absurd hr (hn r)
  | @got ps rs p r h hr ih =>
    by_cases h2 : 15 ≤ (inOrder 0 ((sinceSubframe ps g).filter (fun q => q.svn == v))).length
    · obtain ⟨r', h1, h2⟩ := ih h2
      exact ⟨r', by simp [h1], h2⟩
    · obtain ⟨r', hr', h1⟩ := step hl h2
      rw [hr.unique hr']
      exact ⟨r', by simp, h1⟩

theorem heardWhole_mem {hist : List Call} {v : Svn} {g : Gst} (hw : HeardWhole hist v g) : ∃ p ∈ pagesOf hist, p.sub = g ∧ p.svn = v := by
  have : 0 ∈ (pagesIn hist v g).map Page.word := hw.subset (by simp)
  obtain ⟨p, hp, _⟩ := List.mem_map.1 this
  unfold pagesIn at hp
  rw [List.mem_filter] at hp
  obtain ⟨h1, h2⟩ := hp
  simp only [Bool.and_eq_true, beq_iff_eq] at h2
  exact ⟨p, h1, h2.2, h2.1⟩

/-- A satellite that was heard during a whole subframe, after pages of earlier subframes. -/
theorem heardWhole_received {hist : List Call} {ps₁ : List Page} {rs : List Received} (h : ReceivedIn (ps₁ ++ pagesOf hist) rs)
    (hlater : ∀ p ∈ ps₁, ∀ q ∈ pagesOf hist, p.sub.abs < q.sub.abs)
    (hord : (pagesOf hist).Pairwise (fun p q => p.sub.abs ≤ q.sub.abs)) {v : Svn} {g : Gst} (hw : HeardWhole hist v g) :
    ∃ r ∈ rs, r.svn = v ∧ r.gst = g := by
  have hbefore : ∀ p ∈ ps₁, p.sub.abs < g.abs := by
    intro p hp
    obtain ⟨q, h1, h2, _⟩ := heardWhole_mem hw
    rw [← h2]; exact hlater p hp q h1
  obtain ⟨x, y, z, hps, ex, ey, ez⟩ := split_pages g hord
  have hin : pagesIn hist v g = y.filter (fun p => p.svn == v) := by
    unfold pagesIn
    rw [hps, List.filter_append, List.filter_append]
    have r1 : x.filter (fun p => p.svn == v && p.sub == g) = [] := by
      rw [List.filter_eq_nil_iff]
      intro p hp hc
      have := ex p hp
      simp only [Bool.and_eq_true, beq_iff_eq] at hc
      rw [hc.2] at this; omega
    have r2 : z.filter (fun p => p.svn == v && p.sub == g) = [] := by
      rw [List.filter_eq_nil_iff]
      intro p hp hc
      have := ez p hp
      simp only [Bool.and_eq_true, beq_iff_eq] at hc
      rw [hc.2] at this; omega
    rw [r1, r2, List.nil_append, List.append_nil]
    apply List.filter_congr
    intro p hp
    rw [ey p hp]; simp
  rw [hps, ← List.append_assoc, ← List.append_assoc] at h
  obtain ⟨r1, r2, hr1, rfl⟩ := h.prefix
  have hsince : sinceSubframe (ps₁ ++ x ++ y) g = y := by
    unfold sinceSubframe
    rw [List.reverse_append, takeWhile_append_all (fun p hp => by simpa using ey p (List.mem_reverse.1 hp))]
    have : (ps₁ ++ x).reverse.takeWhile (fun p => p.sub == g) = [] := by
      cases hx : (ps₁ ++ x).reverse with
      | nil => rfl
      | cons a l =>
        rw [List.takeWhile_cons, if_neg]
        intro hc
        have : a.sub.abs < g.abs := by
          rcases List.mem_append.1 (List.mem_reverse.1 (show a ∈ (ps₁ ++ x).reverse by rw [hx]; simp)) with h | h
          · exact hbefore a h
          · exact ex a h
        rw [beq_iff_eq.1 hc] at this; omega
    rw [this, List.append_nil, List.reverse_reverse]
  obtain ⟨r, h1, h2⟩ := received_of_inOrder hr1 (v := v) (g := g) (by
    rw [hsince, ← hin]
    exact inOrder_complete (by rw [← List.range_eq_range']; exact hw))
  exact ⟨r, by simp [h1], h2⟩

/-! ## Blocks -/

theorem Broadcast.Sound.sizes (hb : b.Sound) : 7 ≤ bitField b.kroot 0 4 + 6 ∧ bitField b.kroot 0 4 + 6 ≤ 14 := by
  obtain ⟨f, n, h⟩ := hb.signed
  exact h.size hb.size

theorem dsmHeader_of (id i : Nat) (h1 : id < 16) (h2 : i < 16) :
    (DsmHeader.mk (BitVec.ofNat 8 (16 * id + i))).dsmId = id ∧ (DsmHeader.mk (BitVec.ofNat 8 (16 * id + i))).dsmBlockId = i := by
  have : ∀ id, id < 16 → ∀ i, i < 16 → (DsmHeader.mk (BitVec.ofNat 8 (16 * id + i))).dsmId = id ∧
      (DsmHeader.mk (BitVec.ofNat 8 (16 * id + i))).dsmBlockId = i := by decide +kernel
  exact this id h1 i h2

/-- What is in a received subframe. -/
theorem Broadcast.Sent.block (hb : b.Sound) {r : Received} (hr : b.Sent r) {i : Nat} (hi : 13 * i < b.kroot.length)
    (he : (b.hkroot r.svn r.gst).val.drop 1 = BitVec.ofNat 8 (16 * b.dsmId + i) :: byteField b.kroot (13 * i) 13) :
    r.dsmCall.header.dsmId = b.dsmId ∧ r.dsmCall.header.dsmBlockId = i ∧ r.dsmCall.block.val = byteField b.kroot (13 * i) 13 := by
  obtain ⟨_, h2, _⟩ := hr
  have hs := hb.sizes
  have hsz := hb.size
  have hd := dsmHeader_of b.dsmId i (by have := hb.id; omega) (by omega)
  have e1 : (r.hkroot.val.drop 1).headD 0 = BitVec.ofNat 8 (16 * b.dsmId + i) := by rw [h2, he]; rfl
  have e2 : r.hkroot.val.drop 2 = byteField b.kroot (13 * i) 13 := by
    rw [h2, show 2 = 1 + 1 from rfl, ← List.drop_drop, he]; rfl
  refine ⟨?_, ?_, e2⟩
  · show (DsmHeader.mk _).dsmId = _
    rw [e1]; exact hd.1
  · show (DsmHeader.mk _).dsmBlockId = _
    rw [e1]; exact hd.2

theorem Broadcast.Sent.header (hb : b.Sound) {r : Received} (hr : b.Sent r) : r.header = b.header := by
  obtain ⟨h1, h2, _⟩ := hr
  obtain ⟨i, _, he⟩ := hb.blocks r.svn r.gst h1
  show NmaHeader.mk (r.hkroot.val.headD 0) = b.header
  rw [h2, he]; rfl

theorem blocksOf_sent (hb : b.Sound) {rs : List Received} (h : ∀ r ∈ rs, b.Sent r) :
    BlocksOf b.dsmId b.kroot (rs.map Received.dsmCall) := by
  intro d hd
  obtain ⟨r, hr, rfl⟩ := List.mem_map.1 hd
  obtain ⟨h1, h2, _⟩ := h r hr
  obtain ⟨i, hi, he⟩ := hb.blocks r.svn r.gst h1
  obtain ⟨e1, e2, e3⟩ := (h r hr).block hb hi (by rw [he]; rfl)
  exact ⟨e1, fun _ => by rw [e2, e3]⟩

/-! ## Keys -/

theorem Broadcast.derives (hb : b.Sound) {g g' : Gst} (hg : b.On g) (hg' : b.On g') (hle : g.abs ≤ g'.abs) :
    ∃ n : Nat, g'.abs = g.abs + 30 * n ∧ Derives C b.root.chain n (g', (b.key g').bytes) (g, (b.key g).bytes) := by
  have hal := hg.1
  have hal' := hg'.1
  obtain ⟨n, hn⟩ : ∃ n : Nat, g'.abs = g.abs + 30 * n := by
    unfold Gst.Aligned at hal hal'
    exact ⟨((g'.abs - g.abs) / 30).toNat, by omega⟩
  refine ⟨n, hn, ?_⟩
  clear hle
  induction n generalizing g' with
  | zero =>
    have : g' = g := Gst.abs_inj (by omega)
    subst this; exact .zero _
  | succ n ih =>
    obtain ⟨q, hq⟩ := exists_gst (t := g'.abs - 30) (by
      have h1 := g.abs_representable
      have h2 := g'.abs_representable
      unfold Representable at h1 h2 ⊢
      push_cast at hn; omega)
    have hqa : q.Aligned := by unfold Gst.Aligned at hal' ⊢; omega
    have hon : b.On q := ⟨hqa, by have := hg.2.1; push_cast at hn; omega, by have := hg'.2.2; omega⟩
    have d1 := hb.derive q g' hon hg' (by omega)
    have d2 := ih hon hqa (by push_cast at hn ⊢; omega)
    have := d1.trans d2
    rwa [Nat.add_comm] at this

theorem Broadcast.derives_root (hb : b.Sound) {g : Gst} (hg : b.On g) :
    ∃ n : Nat, 1 ≤ n ∧ n ≤ 3000 ∧ Derives C b.root.chain n (g, (b.key g).bytes) (b.root.gst, b.root.bytes) := by
  have hal := hg.1
  have hra : b.root.gst.Aligned := hb.announced.aligned
  obtain ⟨q, hq⟩ := exists_gst (t := b.root.gst.abs + 30) (by
    have h1 := b.root.gst.abs_representable
    have h2 := g.abs_representable
    have := hg.2.1
    unfold Representable at h1 h2 ⊢
    unfold Gst.Aligned at hal hra
    omega)
  have hqa : q.Aligned := by unfold Gst.Aligned at hra ⊢; omega
  have hqg : q.abs ≤ g.abs := by
    have := hg.2.1
    unfold Gst.Aligned at hal hra
    omega
  have hon : b.On q := ⟨hqa, by omega, by have := hg.2.2; omega⟩
  obtain ⟨n, hn, hd⟩ := b.derives hb hon hg hqg
  have hw := hb.window
  have h3 := hg.2.2
  exact ⟨n + 1, by omega, by omega, hd.trans (hb.first q hon hq)⟩

theorem teslaHeld_append (log l : List (KeyEvent C)) : teslaHeld (log ++ l) = l.foldl teslaAfter (teslaHeld log) := by
  unfold teslaHeld; rw [List.foldl_append]

end Verif
