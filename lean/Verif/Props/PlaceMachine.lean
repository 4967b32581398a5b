import Verif.Lemmas.PlaceMachine
import Verif.Props.NavMachine

/-! # C87: the reference machine with places

C63 says what is authenticated when not more satellites are heard than the storage has places for.  `Spec/PlaceMachine.lean` says it for
any number of satellites. -/

namespace Verif
open CollectNavMessage CollectSubframe CollectDsm

variable {S : Storage} {C : Crypto} {root0 : Option MerkleTreeNode} {pk0 : Option (PublicKey C)} {slow : Bool}
  {hist : List Call} {log : List (KeyEvent C)} {o : Osnma C}

/-- **C87.**  In every run that does not panic, with words and pages in chronological order, of any number of satellites, the messages are
those of the reference machine with places, and each getter returns exactly what the machine says is authenticated: the data, the number
of authentication bits, and the time. -/
theorem C87_reference_machine (hS : S.Consistent) (ho : (Osnma.new S root0 pk0 slow : Osnma C).Fresh S)
    (h : Logs S (Osnma.new S root0 pk0 slow) hist log o) (hpages : (pagesOf hist).Pairwise (fun a b => a.sub.abs ≤ b.sub.abs))
    (hwords : Chronological (inavsOf hist)) :
    ∃ rs fs, PlaceMachine root0 pk0 S slow hist rs log fs ∧ ∀ kd v res, o.get S kd v = .ok res →
      res.map (fun m => (m.data, m.authbits, m.gst.abs)) = authenticatedIn fs kd v := by
  obtain ⟨rs, fs, p⟩ := placePace_run hS ho h hpages hwords
  refine ⟨rs, fs, p.machine, ?_⟩
  intro kd v res hres
  have hinv := navInv_run hS ho h.run
  rw [← p.frames.authenticated kd v]
  cases res with
  | some m =>
    obtain ⟨g, x, h1, h2, h3, h4⟩ := get_some hinv hres
    rw [h1, Option.map_some, Option.map_some, h2, h3, h4]
  | none =>
    rw [get_eq hinv] at hres
    cases hb : bestEntry (o.stored S) kd v with
    | none => rfl
    | some gx =>
      obtain ⟨g, x⟩ := gx
      rw [hb] at hres
      unfold resultOf at hres
      dsimp only at hres
      split at hres <;> cases hres

/-- **C87.**  If moreover no word is from the first 7650 s of GST, the getters return. -/
theorem C87_getters (hS : S.Consistent) (ho : (Osnma.new S root0 pk0 slow : Osnma C).Fresh S)
    (h : Logs S (Osnma.new S root0 pk0 slow) hist log o) (hpages : (pagesOf hist).Pairwise (fun a b => a.sub.abs ≤ b.sub.abs))
    (hwords : Chronological (inavsOf hist)) (hweek : ∀ c ∈ inavsOf hist, 7650 ≤ c.gst.abs) :
    ∃ rs fs, PlaceMachine root0 pk0 S slow hist rs log fs ∧ ∀ kd v, ∃ res, o.get S kd v = .ok res ∧
      res.map (fun m => (m.data, m.authbits, m.gst.abs)) = authenticatedIn fs kd v := by
  obtain ⟨rs, fs, h1, h2⟩ := C87_reference_machine hS ho h hpages hwords
  refine ⟨rs, fs, h1, fun kd v => ?_⟩
  obtain ⟨res, hr⟩ := C38_get_returns hS ho h.run hweek kd v
  exact ⟨res, hr, h2 kd v res hr⟩

/-- **C87.**  The machine contains that of C62. -/
theorem C87_contains_key_machine {rs : List Received} {fs : List PlaceFrame} (h : PlaceMachine root0 pk0 S slow hist rs log fs) :
    ReceivedIn (pagesOf hist) rs ∧ KeyMachine root0 pk0 rs log := by
  induction h with
  | nil => exact ⟨.nil, .nil⟩
  | word c h hw ih => rw [pagesOf_inav]; exact ih
  | zero p h hz ih => rw [pagesOf_zero _ _ _ hz]; exact ih
  | page p h hz hn ih => rw [pagesOf_page _ _ _ hz]; exact ⟨.skip _ ih.1 hn, ih.2⟩
  | subframe p r h hz hr h₁ h₂ h₃ ih => rw [pagesOf_page _ _ _ hz]; exact ⟨.got _ r ih.1 hr, .step r ih.2 h₁ h₂⟩

/-- **C87.**  With room for all the satellites that are heard, it authenticates what the machine of C63 does. -/
theorem C87_with_room (hS : S.Consistent) (ho : (Osnma.new S root0 pk0 slow : Osnma C).Fresh S)
    (h : Logs S (Osnma.new S root0 pk0 slow) hist log o) (hpages : (pagesOf hist).Pairwise (fun a b => a.sub.abs ≤ b.sub.abs))
    (hwords : Chronological (inavsOf hist)) (hfits : Fits S (inavsOf hist)) (hweek : ∀ c ∈ inavsOf hist, 7650 ≤ c.gst.abs) :
    ∃ rs fs gs, PlaceMachine root0 pk0 S slow hist rs log fs ∧ NavMachine root0 pk0 S slow hist rs log gs ∧
      ∀ kd v, authenticatedIn fs kd v = authenticated gs kd v := by
  obtain ⟨rs, fs, h1, h2⟩ := C87_getters hS ho h hpages hwords hweek
  obtain ⟨rs', gs, k1, k2⟩ := C63_reference_machine hS ho h hpages hwords hfits
  obtain rfl := (C87_contains_key_machine h1).1.unique (C63_contains_key_machine k1).1
  refine ⟨rs, fs, gs, h1, k1, fun kd v => ?_⟩
  obtain ⟨res, hr, he⟩ := h2 kd v
  rw [← he, k2 kd v res hr]

/-! ## The machine is deterministic -/

/-- No satellite has two places. -/
def DistinctPlaces (ps : List (Option Place)) : Prop :=
  ∀ (i j : Nat) (p q : Place), ps[i]? = some (some p) → ps[j]? = some (some q) → p.svn = q.svn → i = j

theorem DistinctPlaces.map {ps : List (Option Place)} (h : DistinctPlaces ps) {f : Place → Place} (hf : ∀ p, (f p).svn = p.svn) :
    DistinctPlaces (ps.map (Option.map f)) := by
  intro i j p q hp hq he
  rw [List.getElem?_map] at hp hq
  cases hi : ps[i]? with
  | none => rw [hi] at hp; cases hp
  | some a =>
    cases hj : ps[j]? with
    | none => rw [hj] at hq; cases hq
    | some b =>
      rw [hi] at hp; rw [hj] at hq
      cases a with
      | none => cases hp
      | some a =>
        cases b with
        | none => cases hq
        | some b => cases hp; cases hq; exact h i j a b hi hj (by rw [hf, hf] at he; exact he)

theorem GoesTo.unique {kd : NavKind} {v : Svn} {ps : List (Option Place)} (hd : DistinctPlaces ps) {i j : Nat} (hi : GoesTo kd v ps i)
    (hj : GoesTo kd v ps j) : i = j := by
  cases hi with
  | own p h hv =>
    cases hj with
    | own q k kv => exact hd i j p q h k (hv.trans kv.symm)
    | free hno => exact absurd hv (hno p (List.mem_of_getElem? h))
    | oldest q hno => exact absurd hv (hno p (List.mem_of_getElem? h))
  | free hno h hlast =>
    cases hj with
    | own q k kv => exact absurd kv (hno q (List.mem_of_getElem? k))
    | free _ k klast =>
      rcases Nat.lt_trichotomy i j with hlt | he | hlt
      · exact absurd k (hlast j hlt)
      · exact he
      · exact absurd h (klast i hlt)
    | oldest q _ hfull => exact absurd (List.mem_of_getElem? h) hfull
  | oldest p hno hfull h hold hlast =>
    cases hj with
    | own q k kv => exact absurd kv (hno q (List.mem_of_getElem? k))
    | free _ k _ => exact absurd (List.mem_of_getElem? k) hfull
    | oldest q _ _ k kold klast =>
      rcases Nat.lt_trichotomy i j with hlt | he | hlt
      · have := hlast j q hlt k
        have := kold p (List.mem_of_getElem? h)
        omega
      · exact he
      · have := klast i p hlt h
        have := hold q (List.mem_of_getElem? k)
        omega

theorem Place.fed_svn (kd : NavKind) (c : InavCall) (x : Option Place) : (Place.fed kd c x).svn = c.svn := by
  cases x with
  | none => rfl
  | some p =>
    unfold Place.fed
    dsimp only
    split
    · assumption
    · rfl

theorem WordPlaced.distinct {kd : NavKind} {c : InavCall} {ps ps' : List (Option Place)} (hd : DistinctPlaces ps)
    (h : WordPlaced kd c ps ps') : DistinctPlaces ps' := by
  obtain ⟨i, x, hg, _, rfl⟩ := h
  have hd' := hd.map (f := Place.hear c) (fun p => rfl)
  generalize ps.map (Option.map (Place.hear c)) = l at hg hd'
  have hown : ∀ j p, j ≠ i → l[j]? = some (some p) → p.svn ≠ c.svn := by
    intro j p hne hj
    cases hg with
    | own q k kv => intro he; exact hne (hd' j i p q hj k (he.trans kv.symm))
    | free hno => exact hno p (List.mem_of_getElem? hj)
    | oldest q hno => exact hno p (List.mem_of_getElem? hj)
  intro a b p q hp hq he
  rw [List.getElem?_set] at hp hq
  by_cases ha : i = a <;> by_cases hb : i = b
  · exact ha.symm.trans hb
  · rw [if_pos ha] at hp
    rw [if_neg hb] at hq
    split at hp
    · cases hp
      rw [Place.fed_svn] at he
      exact absurd he.symm (hown b q (fun h => hb h.symm) hq)
    · cases hp
  · rw [if_neg ha] at hp
    rw [if_pos hb] at hq
    split at hq
    · cases hq
      rw [Place.fed_svn] at he
      exact absurd he (hown a p (fun h => ha h.symm) hp)
    · cases hq
  · rw [if_neg ha] at hp
    rw [if_neg hb] at hq
    exact hd' a b p q hp hq he

theorem WordPlaced.unique {kd : NavKind} {c : InavCall} {ps a b : List (Option Place)} (hd : DistinctPlaces ps)
    (ha : WordPlaced kd c ps a) (hb : WordPlaced kd c ps b) : a = b := by
  obtain ⟨i, x, hg, hx, rfl⟩ := ha
  obtain ⟨j, y, kg, hy, rfl⟩ := hb
  obtain rfl := hg.unique (hd.map (f := Place.hear c) (fun p => rfl)) kg
  rw [hx] at hy
  cases hy
  rfl

/-- No satellite has two places, in any subframe. -/
def DistinctFrames (fs : List PlaceFrame) : Prop := ∀ f ∈ fs, ∀ kd, DistinctPlaces (f.places kd)

theorem distinct_free (n : Nat) : DistinctPlaces (List.replicate n none) := by
  intro i j p q hp _ _
  rw [List.getElem?_replicate] at hp
  split at hp <;> cases hp

theorem WordHeard.distinct {c : InavCall} {fs fs' : List PlaceFrame} (hd : DistinctFrames fs) (h : WordHeard S c fs fs') :
    DistinctFrames fs' := by
  cases h with
  | first ps h =>
    intro f hf kd
    obtain rfl := List.mem_singleton.1 hf
    exact (h kd).distinct (distinct_free _)
  | next f fs ps h =>
    intro g hg kd
    rcases List.mem_cons.1 hg with rfl | hg
    · exact (h kd).distinct (hd f (by simp) kd)
    · apply hd g _ kd
      split at hg
      · exact List.mem_cons_of_mem _ hg
      · exact List.mem_of_mem_take hg

theorem WordHeard.unique {c : InavCall} {fs a b : List PlaceFrame} (hd : DistinctFrames fs) (ha : WordHeard S c fs a)
    (hb : WordHeard S c fs b) : a = b := by
  cases ha with
  | first ps h =>
    cases hb with
    | first qs k => rw [show ps = qs from funext (fun kd => (h kd).unique (distinct_free _) (k kd))]
  | next f fs ps h =>
    cases hb with
    | next _ _ qs k => rw [show ps = qs from funext (fun kd => (h kd).unique (hd f (by simp) kd) (k kd))]

theorem KeyUsedPlaces.distinct {macks : List MackCall} {fs a : List PlaceFrame} {l : List (KeyEvent C)} (hd : DistinctFrames fs)
    (ha : KeyUsedPlaces S slow macks log fs l a) : DistinctFrames a := by
  cases ha with
  | none => exact hd
  | key k t1 t10 t11 h1 h10 h11 =>
    intro f hf kd
    obtain ⟨g, hg, rfl⟩ := List.mem_map.1 hf
    exact (hd g hg kd).map (fun p => rfl)

theorem KeyUsedPlaces.unique {macks : List MackCall} {fs a b : List PlaceFrame} {l : List (KeyEvent C)}
    (ha : KeyUsedPlaces S slow macks log fs l a) (hb : KeyUsedPlaces S slow macks log fs l b) : a = b := by
  cases ha with
  | none => cases hb; rfl
  | key k t1 t10 t11 h1 h10 h11 =>
    cases hb with
    | key k s1 s10 s11 k1 k10 k11 =>
      rw [Gst.abs_inj (h1.trans k1.symm), Gst.abs_inj (h10.trans k10.symm), Gst.abs_inj (h11.trans k11.symm)]

theorem PlaceMachine.distinct {rs : List Received} {fs : List PlaceFrame} (h : PlaceMachine root0 pk0 S slow hist rs log fs) :
    DistinctFrames fs := by
  induction h with
  | nil => intro f hf; cases hf
  | word c h hw ih => exact hw.distinct ih
  | zero p h hz ih => exact ih
  | page p h hz hn ih => exact ih
  | subframe p r h hz hr h₁ h₂ h₃ ih => exact h₃.distinct ih

/-- **C87.**  The machine is deterministic: the calls, the trust anchors and the settings determine what is authenticated. -/
theorem C87_machine_deterministic {rs rs' : List Received} {log log' : List (KeyEvent C)} {fs fs' : List PlaceFrame}
    (h : PlaceMachine root0 pk0 S slow hist rs log fs) (h' : PlaceMachine root0 pk0 S slow hist rs' log' fs') :
    rs = rs' ∧ log = log' ∧ fs = fs' := by
  induction h generalizing rs' log' fs' with
  | nil =>
    generalize hh : ([] : List Call) = hist at h'
    cases h' <;> first | exact ⟨rfl, rfl, rfl⟩ | simp at hh
  | @word hist rs log fs _ c h hw ih =>
    generalize hh : hist ++ [Call.inav c.word c.svn c.gst c.band] = hist' at h'
    cases h' with
    | nil => simp at hh
    | word c' h' hw' =>
      obtain ⟨rfl, he⟩ := append_singleton_cancel hh
      obtain ⟨rfl, rfl, rfl⟩ := ih h'
      rcases c with ⟨a, b, c, d⟩
      rcases c' with ⟨a', b', c', d'⟩
      cases he
      exact ⟨rfl, rfl, hw.unique h.distinct hw'⟩
    | zero p h' hz => obtain ⟨_, he⟩ := append_singleton_cancel hh; cases he
    | page p h' hz hn => obtain ⟨_, he⟩ := append_singleton_cancel hh; cases he
    | subframe p r h' hz hr h₁ h₂ h₃ => obtain ⟨_, he⟩ := append_singleton_cancel hh; cases he
  | @zero hist rs log fs p h hz ih =>
    generalize hh : hist ++ [Call.osnma p.data p.svn p.gst] = hist' at h'
    rcases p with ⟨pd, ps, pg⟩
    cases h' with
    | nil => simp at hh
    | word c' h' => obtain ⟨_, he⟩ := append_singleton_cancel hh; cases he
    | zero p h' hz =>
      obtain ⟨rfl, he⟩ := append_singleton_cancel hh
      exact ih h'
    | page p h' hz' hn =>
      obtain ⟨_, he⟩ := append_singleton_cancel hh
      rcases p with ⟨qd, qs, qg⟩
      cases he
      rw [hz] at hz'; cases hz'
    | subframe p r h' hz' hr h₁ h₂ h₃ =>
      obtain ⟨_, he⟩ := append_singleton_cancel hh
      rcases p with ⟨qd, qs, qg⟩
      cases he
      rw [hz] at hz'; cases hz'
  | @page hist rs log fs p h hz hn ih =>
    generalize hh : hist ++ [Call.osnma p.data p.svn p.gst] = hist' at h'
    rcases p with ⟨pd, ps, pg⟩
    cases h' with
    | nil => simp at hh
    | word c' h' => obtain ⟨_, he⟩ := append_singleton_cancel hh; cases he
    | zero p h' hz' =>
      obtain ⟨_, he⟩ := append_singleton_cancel hh
      rcases p with ⟨qd, qs, qg⟩
      cases he
      rw [hz] at hz'; cases hz'
    | page p h' hz' hn' =>
      obtain ⟨rfl, he⟩ := append_singleton_cancel hh
      exact ih h'
    | subframe p r h' hz' hr h₁ h₂ h₃ =>
      obtain ⟨rfl, he⟩ := append_singleton_cancel hh
      rcases p with ⟨qd, qs, qg⟩
      cases he
      exact absurd hr (hn r)
  | @subframe hist rs log l₁ l₂ fs fs2 p r h hz hr h₁ h₂ h₃ ih =>
    generalize hh : hist ++ [Call.osnma p.data p.svn p.gst] = hist' at h'
    rcases p with ⟨pd, ps, pg⟩
    cases h' with
    | nil => simp at hh
    | word c' h' => obtain ⟨_, he⟩ := append_singleton_cancel hh; cases he
    | zero p h' hz' =>
      obtain ⟨_, he⟩ := append_singleton_cancel hh
      rcases p with ⟨qd, qs, qg⟩
      cases he
      rw [hz] at hz'; cases hz'
    | page p h' hz' hn' =>
      obtain ⟨rfl, he⟩ := append_singleton_cancel hh
      rcases p with ⟨qd, qs, qg⟩
      cases he
      exact absurd hr (hn' r)
    | @subframe _ _ _ m₁ m₂ _ _ p r2 h' hz' hr' k₁ k₂ k₃ =>
      obtain ⟨rfl, he⟩ := append_singleton_cancel hh
      rcases p with ⟨qd, qs, qg⟩
      cases he
      obtain ⟨rfl, rfl, rfl⟩ := ih h'
      obtain rfl := hr.unique hr'
      obtain rfl := h₁.unique (fun a b ⟨da, ha, ha'⟩ ⟨db, hb, hb'⟩ => by
        rw [ha.unique hb] at ha'; exact ha'.unique hb') k₁
      obtain rfl := h₂.unique (fun a b ⟨ka, ea, ha⟩ ⟨kb, eb, hb⟩ => by rw [ea, eb, ha.unique hb]) k₂
      obtain rfl := h₃.unique k₃
      exact ⟨rfl, rfl, rfl⟩

end Verif
