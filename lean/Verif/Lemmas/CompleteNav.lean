import Verif.Lemmas.CompleteMack
import Verif.Props.NavData
import Verif.Lemmas.PlacesKept

/-! # Lemmas: the entry that a tag authenticates is found in the store -/

namespace Verif
open CollectNavMessage

variable {C : Crypto} {S : Storage}

theorem Chronological.pairwise {p : List InavCall} (h : Chronological p) :
    p.Pairwise (fun a b => a.gst.subframe.abs ≤ b.gst.subframe.abs) := by
  induction p using CollectSubframe.snoc_induction with
  | h0 => exact List.Pairwise.nil
  | h1 p c ih =>
    have ih := ih h.init
    rw [List.pairwise_append]
    refine ⟨ih, by simp, ?_⟩
    intro a ha b hb
    rw [List.mem_singleton] at hb
    subst hb
    rcases List.eq_nil_or_concat p with rfl | ⟨q, d, rfl⟩
    · simp at ha
    · rw [List.concat_eq_append] at *
      have hl := h.last
      rcases List.mem_append.1 ha with ha | ha
      · have := (List.pairwise_append.1 ih).2.2 a ha d (by simp)
        omega
      · rw [List.mem_singleton] at ha
        subst ha; exact hl

theorem navRun_gst_mem (p : List InavCall) : ∀ s ∈ navRun S p, ∃ c ∈ p, s.gst = c.gst.subframe := by
  induction p using CollectSubframe.snoc_induction with
  | h0 => intro s hs; simp [navRun] at hs
  | h1 p c ih =>
    intro s hs
    rw [navRun_snoc] at hs
    unfold navStep at hs
    rcases List.mem_cons.1 hs with rfl | hs
    · exact ⟨c, by simp, rfl⟩
    · have hm : s ∈ navRun S p := by
        unfold navTail at hs
        split at hs
        · simp at hs
        · rename_i heq
          rw [heq]
          split at hs
          · exact List.mem_cons_of_mem _ hs
          · exact List.mem_of_mem_take hs
      obtain ⟨d, hd, e⟩ := ih s hm
      exact ⟨d, by simp [hd], e⟩

theorem navRun_decreasing_index {p : List InavCall} (h : Chronological p) {top : Int} (htop : ∀ c ∈ p, c.gst.subframe.abs ≤ top)
    {i : Nat} {s : NavSlot} (hi : (navRun S p)[i]? = some s) : s.gst.abs + 30 * i ≤ top := by
  have hm := navRun_gst_mem (S := S) p
  refine decreasing_index (L := (navRun S p).map (·.gst)) ?_ ?_ ?_ (i := i) ?_
  · rw [List.pairwise_map]; exact navRun_decreasing h
  · intro g hg
    obtain ⟨s, hs, rfl⟩ := List.mem_map.1 hg
    obtain ⟨c, _, e⟩ := hm s hs
    rw [e]; exact Gst.subframe_aligned c.gst
  · intro g hg
    obtain ⟨s, hs, rfl⟩ := List.mem_map.1 hg
    obtain ⟨c, hc, e⟩ := hm s hs
    rw [e]; exact htop c hc
  · rw [List.getElem?_map, hi]; rfl

/-- The subframe of a word is held until `navDepth` subframes later. -/
theorem navRun_holds {p : List InavCall} (h : Chronological p) {c : InavCall} (hc : c ∈ p) {top : Int}
    (htop : ∀ d ∈ p, d.gst.subframe.abs ≤ top) (hd : top - c.gst.subframe.abs < 30 * S.navDepth) :
    ∃ s ∈ navRun S p, s.gst = c.gst.subframe := by
  induction p using CollectSubframe.snoc_induction generalizing top with
  | h0 => simp at hc
  | h1 p e ih =>
    rw [navRun_snoc]
    unfold navStep
    by_cases hce : c.gst.subframe = e.gst.subframe
    · exact ⟨_, List.mem_cons_self, by rw [NavSlot.step_gst, hce]⟩
    · have hcp : c ∈ p := by
        rcases List.mem_append.1 hc with h' | h'
        · exact h'
        · rw [List.mem_singleton] at h'; subst h'; exact absurd rfl hce
      have hpw := h.pairwise
      have hle : ∀ d ∈ p, d.gst.subframe.abs ≤ e.gst.subframe.abs := fun d hd => (List.pairwise_append.1 hpw).2.2 d hd e (by simp)
      have hte := htop e (by simp)
      obtain ⟨s, hs, hg⟩ := ih h.init hcp (top := e.gst.subframe.abs) hle (by omega)
      refine ⟨s, List.mem_cons_of_mem _ ?_, hg⟩
      unfold navTail
      cases hL : navRun S p with
      | nil => rw [hL] at hs; simp at hs
      | cons hslot tl =>
        dsimp only
        rw [hL] at hs
        split
        · rename_i hh
          rcases List.mem_cons.1 hs with rfl | hs
          · exact absurd (hg.symm.trans hh) hce
          · exact hs
        · rename_i hh
          obtain ⟨i, hi, he⟩ := List.mem_iff_getElem.1 hs
          rw [List.mem_iff_getElem]
          refine ⟨i, ?_, by rw [List.getElem_take, he]⟩
          rw [List.length_take]
          refine Nat.lt_min.2 ⟨?_, hi⟩
          -- all the slots are before the new subframe
          have hhd : ∀ d ∈ p, d.gst.subframe.abs ≤ e.gst.subframe.abs - 30 := by
            intro d hdp
            have hhead : navHead S p = some hslot := by unfold navHead; rw [hL]; rfl
            obtain ⟨q, l, rfl, hl⟩ := navHead_gst hhead
            have hdl : d.gst.subframe.abs ≤ l.gst.subframe.abs := by
              rcases List.mem_append.1 hdp with h' | h'
              · exact (List.pairwise_append.1 h.init.pairwise).2.2 d h' l (by simp)
              · rw [List.mem_singleton] at h'; subst h'; exact Int.le_refl _
            have hle' := hle l (by simp)
            have hne : l.gst.subframe.abs ≠ e.gst.subframe.abs := fun hh' => hh (by rw [hl]; exact Gst.abs_inj hh')
            have a1 := Gst.subframe_aligned l.gst
            have a2 := Gst.subframe_aligned e.gst
            unfold Gst.Aligned at a1 a2
            omega
          have := navRun_decreasing_index (S := S) h.init hhd (i := i) (s := s) (by rw [hL, List.getElem?_eq_getElem hi, he])
          rw [hg] at this
          omega

/-- Where the entries of a slot are found. -/
theorem CollectNavMessage.Rep.entryAt {n : CollectNavMessage} {L : List NavSlot} (h : Rep S n L) (kd : NavKind) {s : NavSlot} (hs : s ∈ L)
    (huniq : ∀ t ∈ L, t.gst = s.gst → t = s) (v : Svn) :
    n.entryAt S (n.arr kd) s.gst v = (s.items kd).find? (fun x => x.svn == some v) := by
  have hsl : ∀ k, k < S.navDepth → slotOf S.numSats (n.arr kd) (pos S.navDepth n.writePointer k)
    = (L[k]?.map (fun s => s.items kd)).getD (List.replicate S.numSats kd.newItem) := by
    intro k hk
    cases kd
    · exact h.ced k hk
    · exact h.timing k hk
  unfold CollectNavMessage.entryAt
  cases hf : n.gsts.findIdx? (fun x => x == some s.gst) with
  | none =>
    exfalso
    rw [List.findIdx?_eq_none_iff] at hf
    obtain ⟨k, hk, he⟩ := List.mem_iff_getElem.1 hs
    have hk' : k < S.navDepth := by have := h.llen; omega
    have hg := h.gst k hk'
    rw [List.getElem?_eq_getElem hk, he] at hg
    have := hf _ (List.mem_of_getElem? hg)
    simp at this
  | some i =>
    dsimp only
    rw [List.findIdx?_eq_some_iff_getElem] at hf
    obtain ⟨hi, hp, _⟩ := hf
    obtain ⟨k, hk, rfl⟩ := pos_surj h.wp (by rw [← h.lg]; exact hi)
    have hg := h.gst k hk
    rw [List.getElem?_eq_getElem hi] at hg
    simp only [beq_iff_eq] at hp
    rw [hp, Option.some.injEq] at hg
    cases hL : L[k]? with
    | none => rw [hL] at hg; cases hg
    | some t =>
      rw [hL] at hg
      simp only [Option.map_some, Option.some.injEq] at hg
      have := huniq t (List.mem_of_getElem? hL) hg.symm
      subst this
      have := hsl k hk
      rw [hL] at this
      simp only [Option.map_some, Option.getD_some] at this
      rw [← this]
      rfl

theorem NavKind.latest_ge {kd : NavKind} {q : List InavCall} (h : Chronological q) {v : Svn} {f : NavField} {c : InavCall} (hc : c ∈ q)
    (hv : c.svn = v) (hcar : kd.carries c f = true) : ∃ l, kd.latest q v f = some l ∧ c.gst.subframe.abs ≤ l.gst.subframe.abs := by
  unfold NavKind.latest
  have hpw := (h.pairwise).filter (fun c => c.svn == v && kd.carries c f)
  have hm : c ∈ q.filter (fun c => c.svn == v && kd.carries c f) := by
    rw [List.mem_filter]; exact ⟨hc, by simp [hv, hcar]⟩
  generalize q.filter (fun c => c.svn == v && kd.carries c f) = l at hm hpw
  rcases List.eq_nil_or_concat l with rfl | ⟨l', d, rfl⟩
  · simp at hm
  · rw [List.concat_eq_append] at *
    refine ⟨d, by simp, ?_⟩
    rcases List.mem_append.1 hm with hm | hm
    · exact (List.pairwise_append.1 hpw).2.2 c hm d (by simp)
    · rw [List.mem_singleton] at hm; subst hm; exact Int.le_refl _

/-- The entry of a satellite for a subframe that is not too old is in the store, with the data that was received up to the
end of that subframe, and its age is that of the oldest field; provided that the satellite has kept its place since before the oldest
of these fields. -/
theorem entry_found_inv (hS : S.Consistent) {o : Osnma C} {hist : List Call} (hinv : NavInv S hist o (o.stored S))
    (hchr : Chronological (inavsOf hist)) {top : Int} (htop : ∀ c ∈ inavsOf hist, c.gst.subframe.abs ≤ top)
    {g : Gst} (alive : ∃ c ∈ inavsOf hist, c.gst.subframe.abs = g.abs) (hdepth : top - g.abs < 30 * S.navDepth)
    (kd : NavKind) (v : Svn) (n : Nat)
    (hplace : ∃ q r, inavsOf hist = q ++ r ∧ KeepsPlace S kd q v r ∧ ∀ c ∈ q, c.svn = v → c.gst.subframe.abs < g.abs + 30 - 30 * n)
    (recent : ∀ f ∈ kd.fields, ∃ c ∈ inavsOf hist, c.svn = v ∧ kd.carries c f = true ∧ c.gst.subframe.abs ≤ g.abs ∧
      g.abs + 30 - 30 * n ≤ c.gst.subframe.abs) :
    ∃ y, o.data.data.navmessage.entryAt S (o.data.data.navmessage.arr kd) g v = some y ∧
      y.messageBits kd.nbits = kd.expected (wordsUpTo hist g.abs) v ∧ y.maxAge + 1 ≤ n := by
  obtain ⟨c, hc, hcg⟩ := alive
  have hcg := Gst.abs_inj hcg
  obtain ⟨s', hs', hg'⟩ := navRun_holds (S := S) hchr hc htop (by rw [hcg]; exact hdepth)
  rw [← hinv.core] at hs'
  obtain ⟨s, hs, rfl⟩ := List.mem_map.1 hs'
  have hsg : s.gst = g := by rw [← hcg, ← hg']; rfl
  obtain ⟨k, hk, he⟩ := List.mem_iff_getElem.1 hs
  have hks : (o.stored S)[k]? = some s := by rw [List.getElem?_eq_getElem hk, he]
  have hdec : (o.stored S).Pairwise (fun s t => t.gst.abs < s.gst.abs) := by
    have := navRun_decreasing (S := S) hchr
    rw [← hinv.core, List.pairwise_map] at this
    exact this
  have huniq : ∀ t ∈ o.stored S, t.gst = s.gst → t = s := by
    intro t ht hts
    obtain ⟨j, hj, hje⟩ := List.mem_iff_getElem.1 ht
    rcases Nat.lt_trichotomy j k with hlt | heq | hgt
    · have := List.pairwise_iff_getElem.1 hdec j k hj hk hlt
      rw [hje, he, hts] at this; omega
    · subst heq; rw [← hje, he]
    · have := List.pairwise_iff_getElem.1 hdec k j hk hj hgt
      rw [hje, he, hts] at this; omega
  obtain ⟨q, r, h1, hhead, hrest⟩ := hinv.prefix hks
  have h3 : ∀ c, r.head? = some c → c.gst.subframe ≠ s.gst := by
    intro c hc
    rcases hrest with ⟨_, rfl⟩ | ⟨_, c', r', rfl, hne⟩
    · cases hc
    · cases hc; exact hne
  obtain ⟨q', l, hql, h5⟩ := navHead_gst hhead
  have h5 : s.gst = l.gst.subframe := h5
  have hgood := hinv.good hS kd hs
  have hpw := hchr.pairwise
  rw [h1] at hpw
  have hpa := List.pairwise_append.1 hpw
  have hlm : l ∈ q := by rw [hql]; simp
  have hcq : Chronological q := by
    intro i a b ha hb
    have l1 : i < q.length := (List.getElem?_eq_some_iff.1 ha).1
    have l2 : i + 1 < q.length := (List.getElem?_eq_some_iff.1 hb).1
    exact hchr i a b (by rw [h1, List.getElem?_append_left l1]; exact ha) (by rw [h1, List.getElem?_append_left l2]; exact hb)
  have hq : ∀ d ∈ q, d.gst.subframe.abs ≤ g.abs := by
    intro d hd
    rw [← hsg, h5]
    rw [hql] at hd hcq
    exact hcq.le_last d hd
  have hr : ∀ d ∈ r, g.abs < d.gst.subframe.abs := by
    intro d hd
    cases r with
    | nil => simp at hd
    | cons e r' =>
      have e1 : g.abs ≤ e.gst.subframe.abs := by
        rw [← hsg, h5]; exact hpa.2.2 l hlm e (by simp)
      have e2 : e.gst.subframe.abs ≠ g.abs := fun hh => h3 e rfl (by rw [hsg]; exact Gst.abs_inj hh)
      rcases List.mem_cons.1 hd with rfl | hd
      · omega
      · have := (List.pairwise_cons.1 hpa.2.1).1 d hd; omega
  have hqw : wordsUpTo hist g.abs = q := by
    unfold wordsUpTo
    rw [h1, List.filter_append, List.filter_eq_self.2 (by intro d hd; simpa using hq d hd),
      List.filter_eq_nil_iff.2 (by intro d hd; have := hr d hd; simp; omega), List.append_nil]
  have hmemq : ∀ d ∈ inavsOf hist, d.gst.subframe.abs ≤ g.abs → d ∈ q := by
    intro d hd hle
    rw [h1] at hd
    rcases List.mem_append.1 hd with hd | hd
    · exact hd
    · have := hr d hd; omega
  rw [← hsg, hinv.rep.entryAt kd hs huniq v, hsg]
  -- the words since the satellite has its place
  obtain ⟨q0, r0, hqr, hkeep, hold⟩ := hplace
  have hnot : ∀ d ∈ inavsOf hist, d.svn = v → g.abs + 30 - 30 * n ≤ d.gst.subframe.abs → d ∉ q0 := by
    intro d _ h2 h3 h4
    have := hold d h4 h2
    omega
  obtain ⟨f0, hf0⟩ := kd.fields_nonempty
  obtain ⟨c0, a1, a2, _, a4, a5⟩ := recent f0 hf0
  have hc0 := hmemq c0 a1 a4
  have hc0' := hnot c0 a1 a2 a5
  have hlen : q0.length ≤ q.length := by
    rcases Nat.le_total q0.length q.length with h | h
    · exact h
    · obtain ⟨e, e1, _⟩ := append_eq_append_prefix (h1.symm.trans hqr) h
      exact absurd (by rw [e1]; simp [hc0]) hc0'
  obtain ⟨r1, e1, e2⟩ := append_eq_append_prefix (hqr.symm.trans h1) hlen
  have hr1 : r1 ≠ [] := by
    rintro rfl
    rw [List.append_nil] at e1
    rw [e1] at hc0; exact hc0' hc0
  have hk1 := hkeep.prefix e2 hr1
  obtain ⟨y0, hy0, hh⟩ := hk1.holder hS.sats_pos (by rw [← e1]; exact hcq) s.core (by rw [← e1]; exact hhead)
  rw [NavSlot.core_items] at hy0
  obtain ⟨x0, hx0, rfl⟩ := List.mem_map.1 hy0
  have hx0s : x0.svn = some v := hh.svn
  have hchr1 : Chronological r1 := by rw [e1] at hcq; exact hcq.suffix
  have hin : ∀ f ∈ kd.fields, ∃ d, d ∈ r1 ∧ d.svn = v ∧ kd.carries d f = true ∧ g.abs + 30 - 30 * n ≤ d.gst.subframe.abs := by
    intro f hf
    obtain ⟨d, b1, b2, b3, b4, b5⟩ := recent f hf
    have := hmemq d b1 b4
    rw [e1] at this
    rcases List.mem_append.1 this with h | h
    · exact absurd h (hnot d b1 b2 b5)
    · exact ⟨d, h, b2, b3, b5⟩
  have hlat : ∀ f ∈ kd.fields, ∃ d, kd.latest r1 v f = some d ∧ g.abs + 30 - 30 * n ≤ d.gst.subframe.abs := by
    intro f hf
    obtain ⟨d, b1, b2, b3, b5⟩ := hin f hf
    obtain ⟨l', k1, k2⟩ := NavKind.latest_ge hchr1 b1 b2 b3
    exact ⟨l', k1, by omega⟩
  have hwf := hgood.wf x0 hx0
  refine ⟨x0, ?_, ?_, ?_⟩
  · cases hfind : (s.items kd).find? (fun x => x.svn == some v) with
    | none =>
      have := List.find?_eq_none.1 hfind x0 hx0
      exact absurd (by simpa using hx0s) this
    | some y =>
      have hym := List.mem_of_find?_eq_some hfind
      have hysv : y.svn = some v := by simpa using List.find?_some hfind
      obtain ⟨i, hi, hie⟩ := List.mem_iff_getElem.1 hym
      obtain ⟨j, hj, hje⟩ := List.mem_iff_getElem.1 hx0
      have := hgood.distinct i j y x0 v (by rw [List.getElem?_eq_getElem hi, hie]) (by rw [List.getElem?_eq_getElem hj, hje]) hysv hx0s
      subst this
      rw [← hie, hje]
  · rw [hqw, e1]
    exact hh.complete (q := q0) (fun f hf => (hlat f hf).imp fun _ h => h.1)
  · have hn : 1 ≤ n := by omega
    have : x0.maxAge ≤ n - 1 := by
      rw [NavItem.maxAge_le]
      intro a ha
      obtain ⟨i, hi, hia⟩ := List.mem_iff_getElem.1 ha
      have hil : i < kd.fields.length := by have := hwf.age; omega
      obtain ⟨d, d1, d2⟩ := hlat _ (List.getElem_mem hil)
      have hage := (hh.field i _ d (List.getElem?_eq_getElem hil) d1).2
      rw [show x0.core.age = x0.age from rfl, List.getElem?_eq_getElem hi, hia] at hage
      obtain ⟨r2, l2, rfl⟩ := hk1.last
      have hlast : l2 = l := by
        rw [hql, ← List.append_assoc] at e1
        exact (List.cons.inj (List.append_inj' e1 rfl).2).1.symm
      subst hlast
      have ht := NavKind.fieldAge_time hchr1 d1
      rw [← Option.some.inj hage, ← h5, hsg] at ht
      omega
    omega

/-- The same for a history without panics. -/
theorem entry_found (hS : S.Consistent) {o0 o : Osnma C} (h0 : o0.Fresh S) {hist : List Call} (h : run S o0 hist = .ok o)
    (hchr : Chronological (inavsOf hist)) {top : Int} (htop : ∀ c ∈ inavsOf hist, c.gst.subframe.abs ≤ top)
    {g : Gst} (alive : ∃ c ∈ inavsOf hist, c.gst.subframe.abs = g.abs) (hdepth : top - g.abs < 30 * S.navDepth)
    (kd : NavKind) (v : Svn) (n : Nat)
    (hplace : ∃ q r, inavsOf hist = q ++ r ∧ KeepsPlace S kd q v r ∧ ∀ c ∈ q, c.svn = v → c.gst.subframe.abs < g.abs + 30 - 30 * n)
    (recent : ∀ f ∈ kd.fields, ∃ c ∈ inavsOf hist, c.svn = v ∧ kd.carries c f = true ∧ c.gst.subframe.abs ≤ g.abs ∧
      g.abs + 30 - 30 * n ≤ c.gst.subframe.abs) :
    ∃ y, o.data.data.navmessage.entryAt S (o.data.data.navmessage.arr kd) g v = some y ∧
      y.messageBits kd.nbits = kd.expected (wordsUpTo hist g.abs) v ∧ y.maxAge + 1 ≤ n :=
  entry_found_inv hS (navInv_run hS h0 h) hchr htop alive hdepth kd v n hplace recent

end Verif
