import Verif.Props.NavMachine
import Verif.Lemmas.PlacesKept

/-! # C15: the reported time, exactly, with gaps in the reception -/

namespace Verif
open CollectNavMessage

variable {S : Storage} {C : Crypto} {root0 : Option MerkleTreeNode} {pk0 : Option (PublicKey C)} {slow : Bool}
  {hist : List Call} {log : List (KeyEvent C)} {o : Osnma C}

theorem length_le_of_nodup_subset {α : Type} [DecidableEq α] : ∀ (l₁ l₂ : List α), l₁.Nodup → (∀ x ∈ l₁, x ∈ l₂) → l₁.length ≤ l₂.length
  | [], _, _, _ => Nat.zero_le _
  | a :: l, l₂, hn, hs => by
    have ha : a ∈ l₂ := hs a (by simp)
    have hn' := List.nodup_cons.1 hn
    have ih := length_le_of_nodup_subset l (l₂.erase a) hn'.2 (fun x hx =>
      (List.mem_erase_of_ne (fun e => by subst e; exact hn'.1 hx)).2 (hs x (by simp [hx])))
    rw [List.length_erase_of_mem ha] at ih
    have : 0 < l₂.length := List.length_pos_of_mem ha
    simp only [List.length_cons]
    omega

theorem laterSubframes_anti (p : List InavCall) {g g' : Gst} (h : g.abs ≤ g'.abs) : laterSubframes p g' ≤ laterSubframes p g := by
  unfold laterSubframes
  refine length_le_of_nodup_subset _ _ (nodup_eraseDups _ _ (Nat.le_refl _)) fun x hx => ?_
  rw [List.mem_eraseDups, List.mem_filter, decide_eq_true_eq] at hx ⊢
  exact ⟨hx.1, by omega⟩

/-- The most recent word with data of a kind is the most recent one with one of its fields. -/
theorem latestAny_fields (kd : NavKind) {p : List InavCall} (hchr : Chronological p) (v : Svn) :
    match kd.latestAny p v with
    | none => ∀ f ∈ kd.fields, kd.latest p v f = none
    | some c => (∃ f ∈ kd.fields, kd.latest p v f = some c) ∧
        ∀ f ∈ kd.fields, ∀ c', kd.latest p v f = some c' → c'.gst.subframe.abs ≤ c.gst.subframe.abs := by
  cases hl : kd.latestAny p v with
  | none =>
    intro f hf
    unfold NavKind.latestAny at hl
    rw [List.getLast?_eq_none_iff, List.filter_eq_nil_iff] at hl
    unfold NavKind.latest
    rw [List.getLast?_eq_none_iff, List.filter_eq_nil_iff]
    intro c hc h
    rw [Bool.and_eq_true] at h
    exact hl c hc (by rw [Bool.and_eq_true]; exact ⟨h.1, List.any_eq_true.2 ⟨f, hf, h.2⟩⟩)
  | some c =>
    dsimp only
    induction p using CollectSubframe.snoc_induction with
    | h0 => cases hl
    | h1 p d ih =>
      rw [NavKind.latestAny_snoc] at hl
      by_cases hd : d.svn = v ∧ kd.fields.any (fun f => kd.carries d f) = true
      · rw [if_pos hd] at hl
        obtain rfl := Option.some.inj hl
        obtain ⟨f, hf, hfc⟩ := List.any_eq_true.1 hd.2
        refine ⟨⟨f, hf, ?_⟩, ?_⟩
        · rw [NavKind.latest_snoc, if_pos ⟨hd.1, hfc⟩]
        · intro f _ c' hc'
          have : c' ∈ p ++ [d] := by
            unfold NavKind.latest at hc'
            exact (List.mem_filter.1 (List.mem_of_getLast? hc')).1
          exact hchr.le_last c' this
      · rw [if_neg hd] at hl
        have hno : ∀ f ∈ kd.fields, ¬ (d.svn = v ∧ kd.carries d f = true) := fun f hf h => hd ⟨h.1, List.any_eq_true.2 ⟨f, hf, h.2⟩⟩
        obtain ⟨⟨f, hf, h1⟩, h2⟩ := ih hchr.init hl
        refine ⟨⟨f, hf, ?_⟩, ?_⟩
        · rw [NavKind.latest_snoc, if_neg (hno f hf)]; exact h1
        · intro f hf c' hc'
          rw [NavKind.latest_snoc, if_neg (hno f hf)] at hc'
          exact h2 f hf c' hc'

theorem foldl_min_eq {l : List Nat} {a : Nat} (m : Nat) (hle : m ≤ a) (hall : ∀ x ∈ l, m ≤ x) (hmem : m = a ∨ m ∈ l) : l.foldl min a = m := by
  induction l generalizing a with
  | nil => rcases hmem with h | h; exact h.symm; cases h
  | cons b l ih =>
    rw [List.foldl_cons]
    have hb : m ≤ b := hall b (by simp)
    refine ih (by omega) (fun x hx => hall x (by simp [hx])) ?_
    rcases hmem with h | h
    · left; omega
    · rcases List.mem_cons.1 h with h | h
      · left; omega
      · exact .inr h

/-- The age of the newest field counts the subframes with words since the most recent word of the satellite. -/
theorem newestAge_eq (kd : NavKind) {p : List InavCall} (hchr : Chronological p) (v : Svn) :
    kd.newestAge p v = match kd.latestAny p v with
      | some c => min 255 (laterSubframes p c.gst.subframe)
      | none => 255 := by
  have h := latestAny_fields kd hchr v
  unfold NavKind.newestAge
  cases hl : kd.latestAny p v with
  | none =>
    rw [hl] at h
    refine foldl_min_eq 255 (Nat.le_refl _) (fun x hx => ?_) (.inl rfl)
    obtain ⟨f, hf, rfl⟩ := List.mem_map.1 hx
    unfold NavKind.fieldAge
    rw [h f hf]
    exact Nat.le_refl _
  | some c =>
    rw [hl] at h
    obtain ⟨⟨f, hf, h1⟩, h2⟩ := h
    refine foldl_min_eq _ (Nat.min_le_left _ _) (fun x hx => ?_) (.inr (List.mem_map.2 ⟨f, hf, ?_⟩))
    · obtain ⟨f', hf', rfl⟩ := List.mem_map.1 hx
      unfold NavKind.fieldAge
      cases hf2 : kd.latest p v f' with
      | none => exact Nat.min_le_left _ _
      | some c' =>
        have := laterSubframes_anti p (h2 f' hf' c' hf2)
        show min 255 _ ≤ min 255 _
        omega
    · unfold NavKind.fieldAge
      rw [h1]

/-- A subframe of the machine ends with a word. -/
def EndsWithWord (p : List InavCall) (f : NavFrame) : Prop :=
  ∃ r l, p = f.words ++ r ∧ f.words.getLast? = some l ∧ f.gst = l.gst.subframe

theorem EndsWithWord.snoc {p : List InavCall} {f : NavFrame} (h : EndsWithWord p f) (c : InavCall) : EndsWithWord (p ++ [c]) f := by
  obtain ⟨r, l, rfl, h2, h3⟩ := h
  exact ⟨r ++ [c], l, by rw [List.append_assoc], h2, h3⟩

theorem tagsChecked_frames {us : NavKind → List TagUse} {fs : List NavFrame} {P : Gst → List InavCall → Prop} (h : ∀ f ∈ fs, P f.gst f.words) :
    ∀ f ∈ tagsChecked C us fs, P f.gst f.words := by
  intro f hf
  unfold tagsChecked at hf
  obtain ⟨g, hg, rfl⟩ := List.mem_map.1 hf
  exact h g hg

theorem NavMachine.ends {rs : List Received} {fs : List NavFrame} (h : NavMachine root0 pk0 S slow hist rs log fs) :
    (∀ f ∈ fs, EndsWithWord (inavsOf hist) f) ∧ (fs.head?.map NavFrame.words).getD [] = inavsOf hist := by
  induction h with
  | nil => exact ⟨by simp, rfl⟩
  | @word hist rs log fs c _ ih =>
    rw [inavsOf_inav]
    cases fs with
    | nil =>
      have e : inavsOf hist = [] := ih.2.symm
      rw [e]
      unfold wordReceived
      refine ⟨?_, rfl⟩
      intro f hf
      rw [List.mem_singleton.1 hf]
      exact ⟨[], c, rfl, rfl, rfl⟩
    | cons f fs =>
      have e : f.words = inavsOf hist := ih.2
      unfold wordReceived
      refine ⟨?_, by rw [← e]; rfl⟩
      intro f' hf
      rcases List.mem_cons.1 hf with rfl | hf
      · exact ⟨[], c, by dsimp only; rw [e, List.append_nil], List.getLast?_concat, rfl⟩
      · refine (ih.1 f' ?_).snoc c
        split at hf
        · exact List.mem_cons_of_mem _ hf
        · exact List.mem_of_mem_take hf
  | zero p _ hz ih => rw [inavsOf_osnma]; exact ih
  | page p _ hz hn ih => rw [inavsOf_osnma]; exact ih
  | subframe p r _ hz hr h₁ h₂ h₃ ih =>
    rw [inavsOf_osnma]
    cases h₃ with
    | none => exact ih
    | key k t1 t10 t11 h1 h10 h11 =>
      refine ⟨?_, ?_⟩
      · exact tagsChecked_frames (P := fun g w => EndsWithWord _ ⟨g, w, fun _ _ => 0⟩) ih.1
      · rw [← ih.2]
        unfold tagsChecked
        rw [List.head?_map, Option.map_map]
        rfl

/-- **C15, with gaps (part).**  Let words and pages be fed in chronological order, with not more satellites than places.  The data that a getter returns is that of the
subframe of some word `l`, when the words `q` had been received.  If `c` is the most recent of them with a part of the data, the reported time is exactly 30 s before that
subframe for each subframe after that of `c` in which some word (of any satellite) was received, counting up to 255; it is 255 subframes before if there is none (all-zero data of which no part had been received yet). -/
theorem C15_exact_partial (hS : S.Consistent) (ho : (Osnma.new S root0 pk0 slow : Osnma C).Fresh S)
    (h : Logs S (Osnma.new S root0 pk0 slow) hist log o) (hpages : (pagesOf hist).Pairwise (fun a b => a.sub.abs ≤ b.sub.abs))
    (hwords : Chronological (inavsOf hist)) (hfits : Fits S (inavsOf hist)) (kd : NavKind) {v : Svn} {d : NavMessageData}
    (hd : o.get S kd v = .ok (some d)) :
    ∃ q r l, inavsOf hist = q ++ r ∧ q.getLast? = some l ∧ d.data = kd.expected q v ∧ Chronological q ∧
      (kd.latestAny q v = none → d.gst.abs = l.gst.subframe.abs - 30 * 255) ∧
      ∀ c, kd.latestAny q v = some c → d.gst.abs = l.gst.subframe.abs - 30 * min 255 (laterSubframes q c.gst.subframe : Int) := by
  obtain ⟨rs, fs, hm, hget⟩ := C63_reference_machine hS ho h hpages hwords hfits
  have hres := hget kd v _ hd
  unfold authenticated at hres
  cases hf : fs.find? (fun f => decide (40 ≤ f.auth kd v)) with
  | none => rw [hf] at hres; cases hres
  | some f =>
    rw [hf] at hres
    simp only [Option.map_some, Option.some.injEq, Prod.mk.injEq] at hres
    obtain ⟨r, l, e1, e2, e3⟩ := hm.ends.1 f (List.mem_of_find?_eq_some hf)
    have hchr : Chronological f.words := by
      intro i a b ha hb
      have l1 : i < f.words.length := (List.getElem?_eq_some_iff.1 ha).1
      have l2 : i + 1 < f.words.length := (List.getElem?_eq_some_iff.1 hb).1
      exact hwords i a b (by rw [e1, List.getElem?_append_left l1]; exact ha) (by rw [e1, List.getElem?_append_left l2]; exact hb)
    have hage := newestAge_eq kd hchr v
    refine ⟨f.words, r, l, e1, e2, hres.1, hchr, ?_, ?_⟩
    · intro hl
      rw [hl] at hage
      rw [hres.2.2, hage, e3]
      rfl
    · intro c hl
      rw [hl] at hage
      dsimp only at hage
      rw [hres.2.2, hage, e3, show ((min 255 (laterSubframes f.words c.gst.subframe) : Nat) : Int) =
        min 255 (laterSubframes f.words c.gst.subframe : Int) by omega]

/-- The starts of subframes between two times. -/
theorem between (a b : Gst) (ha : a.Aligned) (n : Nat) (h : b.abs = a.abs + 30 * n) :
    ∃ T : List Gst, T.Nodup ∧ T.length = n ∧ ∀ g, g ∈ T ↔ g.Aligned ∧ a.abs < g.abs ∧ g.abs ≤ b.abs := by
  induction n generalizing b with
  | zero => exact ⟨[], by simp, rfl, fun g => ⟨by simp, fun ⟨_, _, _⟩ => by omega⟩⟩
  | succ n ih =>
    have h1 := a.abs_representable
    have h2 := b.abs_representable
    unfold Representable at h1 h2
    obtain ⟨b', hb'⟩ := exists_gst (t := a.abs + 30 * n) ⟨by omega, by omega⟩
    obtain ⟨T, t1, t2, t3⟩ := ih b' hb'
    refine ⟨b :: T, List.nodup_cons.2 ⟨fun hm => ?_, t1⟩, by rw [List.length_cons, t2], fun g => ?_⟩
    · have := ((t3 b).1 hm).2.2
      omega
    · rw [List.mem_cons, t3]
      unfold Gst.Aligned at ha ⊢
      constructor
      · rintro (rfl | ⟨p1, p2, p3⟩)
        · exact ⟨by omega, by omega, by omega⟩
        · exact ⟨p1, p2, by omega⟩
      · rintro ⟨p1, p2, p3⟩
        by_cases e : g.abs = b.abs
        · exact .inl (Gst.abs_inj e)
        · exact .inr ⟨p1, p2, by omega⟩

/-- **C15, exactly when it holds (part).**  The reported time is that of the most recent word in the data exactly if some word was received in each subframe since then, for less
than 256 subframes. -/
theorem C15_exact_iff_no_gap_partial {q : List InavCall} (hchr : Chronological q) {l c : InavCall} (hl : q.getLast? = some l) (hc : c ∈ q)
    (t : Int) (ht : t = l.gst.subframe.abs - 30 * min 255 (laterSubframes q c.gst.subframe : Int)) :
    t = c.gst.subframe.abs ↔ l.gst.subframe.abs ≤ c.gst.subframe.abs + 7650 ∧
      ∀ g : Gst, g.Aligned → c.gst.subframe.abs < g.abs → g.abs ≤ l.gst.subframe.abs → ∃ w ∈ q, w.gst.subframe = g := by
  subst ht
  have hlm : l ∈ q := List.mem_of_getLast? hl
  have hle : ∀ w ∈ q, w.gst.subframe.abs ≤ l.gst.subframe.abs := by
    obtain ⟨p, rfl⟩ : ∃ p, q = p ++ [l] := by
      rcases List.eq_nil_or_concat q with rfl | ⟨p, x, rfl⟩
      · cases hl
      · rw [List.concat_eq_append] at hl ⊢
        rw [List.getLast?_concat] at hl
        exact ⟨p, by rw [Option.some.inj hl]⟩
    exact hchr.le_last
  have hcl := hle c hc
  obtain ⟨n, hn⟩ : ∃ n : Nat, l.gst.subframe.abs = c.gst.subframe.abs + 30 * n := by
    have a1 := Gst.subframe_aligned l.gst
    have a2 := Gst.subframe_aligned c.gst
    unfold Gst.Aligned at a1 a2
    exact ⟨((l.gst.subframe.abs - c.gst.subframe.abs) / 30).toNat, by omega⟩
  obtain ⟨T, t1, t2, t3⟩ := between c.gst.subframe l.gst.subframe (Gst.subframe_aligned _) n hn
  have hm : ∀ g, g ∈ ((q.map (fun c => c.gst.subframe)).filter (fun h => decide (c.gst.subframe.abs < h.abs))).eraseDups ↔
      (∃ w ∈ q, w.gst.subframe = g) ∧ c.gst.subframe.abs < g.abs := by
    intro g
    rw [List.mem_eraseDups, List.mem_filter, decide_eq_true_eq, List.mem_map]
  have hmT : ∀ g, g ∈ ((q.map (fun c => c.gst.subframe)).filter (fun h => decide (c.gst.subframe.abs < h.abs))).eraseDups → g ∈ T := by
    intro g hg
    obtain ⟨⟨w, hw, rfl⟩, h2⟩ := (hm g).1 hg
    exact (t3 _).2 ⟨Gst.subframe_aligned _, h2, hle w hw⟩
  have hnd := nodup_eraseDups _ ((q.map (fun c => c.gst.subframe)).filter (fun h => decide (c.gst.subframe.abs < h.abs))) (Nat.le_refl _)
  have hmn : laterSubframes q c.gst.subframe ≤ n := by
    rw [← t2]
    exact length_le_of_nodup_subset _ _ hnd hmT
  constructor
  · intro he
    have hmn' : laterSubframes q c.gst.subframe = n := by omega
    refine ⟨by omega, fun g hg h1 h2 => ?_⟩
    refine Classical.byContradiction fun hno => ?_
    have hgT : g ∈ T := (t3 g).2 ⟨hg, h1, h2⟩
    have := length_le_of_nodup_subset _ (T.erase g) hnd (fun x hx =>
      (List.mem_erase_of_ne (fun e => by subst e; exact hno ((hm x).1 hx).1)).2 (hmT x hx))
    rw [List.length_erase_of_mem hgT, t2] at this
    have hp := List.length_pos_of_mem hgT
    unfold laterSubframes at hmn'
    omega
  · rintro ⟨h1, h2⟩
    have : n ≤ laterSubframes q c.gst.subframe := by
      rw [← t2]
      exact length_le_of_nodup_subset _ _ t1 fun x hx => (hm x).2 (by
        obtain ⟨a, b, d⟩ := (t3 x).1 hx
        exact ⟨h2 x a b d, b⟩)
    omega

/-- The hypotheses of `C15_exact_partial` are met by the run with a gap of `C15_gap_counterexample`, where the reported time is 36480 and nothing was received at that time. -/
example : ∃ (o : Osnma Sim.toy) (d : NavMessageData) (q r : List InavCall) (l : InavCall), run Sim.S Sim.withKey Sim.afterGap = .ok o ∧
    o.get Sim.S .ced (Sim.sv 1) = .ok (some d) ∧ d.gst.tow = 36480 ∧ inavsOf Sim.afterGap = q ++ r ∧ q.getLast? = some l ∧
    ∀ c, NavKind.ced.latestAny q (Sim.sv 1) = some c →
      d.gst.abs = l.gst.subframe.abs - 30 * min 255 (laterSubframes q c.gst.subframe : Int) := by
  obtain ⟨log, o, hl, hg⟩ := Sim.check_some Sim.afterGap_got
  obtain ⟨d, h1, h2, h3⟩ := Sim.got_some (of_decide_eq_true hg)
  have hc : ((inavsOf Sim.afterGap).map (fun c => c.gst.subframe.abs)).Pairwise (· ≤ ·) := by decide +kernel
  have hp : ((pagesOf Sim.afterGap).map (fun c => c.sub.abs)).Pairwise (· ≤ ·) := by decide +kernel
  have hw : Chronological (inavsOf Sim.afterGap) := by
    intro i a b ha hb
    obtain ⟨hi, rfl⟩ := List.getElem?_eq_some_iff.1 ha
    obtain ⟨hj, rfl⟩ := List.getElem?_eq_some_iff.1 hb
    exact List.pairwise_iff_getElem.1 (List.pairwise_map.1 hc) i (i + 1) hi hj (Nat.lt_succ_self i)
  obtain ⟨q, r, l, e1, e2, _, _, _, e3⟩ := C15_exact_partial (S := Sim.S) (root0 := none) (pk0 := some (Sim.pub 1)) (slow := false)
    Sim.S_consistent (.inr ⟨Sim.pub 1, false, rfl⟩) hl (List.pairwise_map.1 hp) hw ⟨[Sim.sv 1], by decide, by decide +kernel⟩ .ced h1
  exact ⟨o, d, q, r, l, hl.run, h1, h3, e1, e2, e3⟩

end Verif
