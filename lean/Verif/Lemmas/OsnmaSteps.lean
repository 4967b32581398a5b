import Verif.Spec.TagUse
import Verif.Lemmas.TagLoop

/-! # Lemmas: what each step of the black box does -/

namespace Verif

theorem loopM_fold {α σ : Type} {f : σ → α → Res σ} (P : List α → σ → Prop) {as : List α} {s s' : σ} (h0 : P [] s)
    (hstep : ∀ done a s s', a ∈ as → P done s → f s a = .ok s' → P (done ++ [a]) s')
    (h : loopM f as s = .ok s') : P as s' := by
  have gen : ∀ (rest done : List α) (s : σ), (∀ a ∈ rest, a ∈ as) → P done s → loopM f rest s = .ok s' → P (done ++ rest) s' := by
    intro rest
    induction rest with
    | nil => intro done s _ hp h; simp only [loopM] at h; cases h; simpa using hp
    | cons a rest ih =>
      intro done s hm hp h
      simp only [loopM] at h
      split at h
      · rename_i s1 hs1
        have := ih (done ++ [a]) s1 (fun b hb => hm b (List.mem_cons_of_mem _ hb)) (hstep done a s s1 (hm a (by simp)) hp hs1) h
        simpa using this
      · cases h
  simpa using gen as [] s (fun _ h => h) h0 h

/-! ## MACK validation -/

theorem Key.validateMacseq_usable {C : Crypto} {k : Key} {m : Mack} {prna : Svn} {g : Gst}
    {r : Except MacseqCheckError Unit} (h : k.validateMacseq C m prna g = .ok r) : k.MacUsable := by
  unfold Key.validateMacseq at h
  obtain ⟨out, h1, _⟩ := Res.bind_eq_ok.1 h
  exact Key.mac_returns_iff.1 ⟨out, h1⟩

theorem Mack.validate_usable {C : Crypto} {k : Key} {m : Mack} {prna : Svn} {g : Gst}
    {r : Except MackValidationError Mack} (h : m.validate C k prna g = .ok r) : k.MacUsable := by
  unfold Mack.validate at h
  obtain ⟨out, h1, _⟩ := Res.bind_eq_ok.1 h
  exact Key.validateMacseq_usable h1

theorem Mack.validate_same {C : Crypto} {k : Key} {m m' : Mack} {prna : Svn} {g : Gst}
    (h : m.validate C k prna g = .ok (.ok m')) : m' = m := by
  unfold Mack.validate at h
  obtain ⟨r, h1, h2⟩ := Res.bind_eq_ok.1 h
  cases r with
  | error e => simp at h2
  | ok _ =>
    dsimp only at h2
    obtain ⟨n, h3, h4⟩ := Res.bind_eq_ok.1 h2
    obtain ⟨r2, h5, h6⟩ := Res.bind_eq_ok.1 h4
    cases r2 with
    | error e => simp at h6
    | ok _ => simp at h6; exact h6.symm

namespace CollectNavMessage

/-- Everything except the authentication bits, and their range. -/
structure Inv (S : Storage) (n : CollectNavMessage) : Prop where
  lens : Lens S n
  okc : AuthOk n.ced
  okt : AuthOk n.timing

theorem Inv.gains {S : Storage} {n : CollectNavMessage} (h : Inv S n) (a b : NavItem → Nat) : Inv S (n.gains a b) :=
  ⟨h.lens.gains a b, addGains_ok _ _, addGains_ok _ _⟩

variable {S : Storage} {C : Crypto}

theorem usesGain_nil (n : CollectNavMessage) (arr : List NavItem) (nbits : Nat) (x : NavItem) :
    usesGain S C n arr nbits [] x = 0 := rfl

theorem usesGain_append (n : CollectNavMessage) (arr : List NavItem) (nbits : Nat) (us vs : List TagUse) (x : NavItem) :
    usesGain S C n arr nbits (us ++ vs) x = usesGain S C n arr nbits us x + usesGain S C n arr nbits vs x := by
  simp [usesGain]

theorem entryBefore_eq {n : CollectNavMessage} {arr : List NavItem} {gst g : Gst} (h : gst.addSeconds (-30) = .ok g) :
    n.entryBefore S arr gst = n.entryAt S arr g := by
  funext s
  unfold entryBefore
  rw [h]

theorem entryBefore_gains (n : CollectNavMessage) (arr : List NavItem) (g : Gst) (a : NavItem → Nat) :
    SameEntry (n.entryBefore S (addGains a arr) g) (n.entryBefore S arr g) := by
  intro s
  unfold entryBefore
  split
  · exact entryAt_gains n arr _ a s
  · rfl

theorem usesGain_congr {n n' : CollectNavMessage} {arr arr' : List NavItem} {nbits : Nat}
    (h : ∀ g, SameEntry (n.entryBefore S arr g) (n'.entryBefore S arr' g)) (us : List TagUse) (x : NavItem) :
    usesGain S C n arr nbits us x = usesGain S C n' arr' nbits us x := by
  unfold usesGain
  congr 1
  apply List.map_congr_left
  intro u _
  exact tagGain_congr (h u.gst) u.tag x

/-- `gains` by the checked tags. -/
noncomputable def useGains (S : Storage) (C : Crypto) (n : CollectNavMessage) (us vs : List TagUse) : CollectNavMessage :=
  n.gains (usesGain S C n n.ced 549 us) (usesGain S C n n.timing 141 vs)

theorem useGains_nil {n : CollectNavMessage} (h : Inv S n) : n.useGains S C [] [] = n :=
  gains_zero h.okc h.okt (fun _ _ => rfl) (fun _ _ => rfl)

theorem useGains_inv {n : CollectNavMessage} (h : Inv S n) (us vs : List TagUse) : Inv S (n.useGains S C us vs) := h.gains _ _

theorem useGains_useGains (n : CollectNavMessage) (us vs us' vs' : List TagUse) :
    (n.useGains S C us vs).useGains S C us' vs' = n.useGains S C (us ++ us') (vs ++ vs') := by
  unfold useGains
  rw [show usesGain S C (n.gains (usesGain S C n n.ced 549 us) (usesGain S C n n.timing 141 vs))
      (n.gains (usesGain S C n n.ced 549 us) (usesGain S C n n.timing 141 vs)).ced 549 us' = usesGain S C n n.ced 549 us' from
      funext (usesGain_congr (fun g => entryBefore_gains n n.ced g _) us'),
    show usesGain S C (n.gains (usesGain S C n n.ced 549 us) (usesGain S C n n.timing 141 vs))
      (n.gains (usesGain S C n n.ced 549 us) (usesGain S C n n.timing 141 vs)).timing 141 vs' = usesGain S C n n.timing 141 vs' from
      funext (usesGain_congr (fun g => entryBefore_gains n n.timing g _) vs'),
    gains_gains]
  · congr 1
    · funext x; rw [usesGain_append]
    · funext x; rw [usesGain_append]
  · intros; rfl
  · intros; rfl

theorem usesGain_map {n : CollectNavMessage} {arr : List NavItem} {nbits : Nat} {key : Key} {prna : Svn} {gst g : Gst}
    {st : NmaStatus} (h : gst.addSeconds (-30) = .ok g) (ts : List TagSpec) :
    usesGain S C n arr nbits (ts.map (fun t => ⟨key, prna, gst, st, t⟩))
      = tagsGain C key prna gst st nbits (n.entryAt S arr g) ts := by
  funext x
  simp only [usesGain, tagsGain, List.map_map, Function.comp_def, entryBefore_eq h]

end CollectNavMessage

open CollectNavMessage

namespace OsnmaData
variable {C : Crypto} {S : Storage}

/-- The fast part of the loop body. -/
theorem processFast_of_ok {d d' : OsnmaData C} {key : Key} {g : Gst} {svn : Svn} (ha : g.Aligned)
    (hi : Inv S d.navmessage) (h : processFast S d key g svn = .ok d') :
    d' = { d with navmessage := d.navmessage.useGains S C (d.fastUses S key g 0 svn) (d.fastUses S key g 4 svn) } := by
  unfold processFast at h
  unfold fastUses
  by_cases hs : d.onlySlowmac
  · rw [if_pos hs] at h
    simp only [Res.pure_eq, Res.ok.injEq] at h
    rw [if_pos hs, if_pos hs, useGains_nil hi]
    exact h.symm
  · rw [if_neg hs] at h
    rw [if_neg hs, if_neg hs]
    obtain ⟨o, h1, h2⟩ := Res.bind_eq_ok.1 h
    unfold usableMack
    rw [h1]
    cases o with
    | none =>
      simp only [Res.pure_eq, Res.ok.injEq] at h2
      simp only [tagsOf, useGains_nil hi]
      exact h2.symm
    | some p =>
      obtain ⟨m, st⟩ := p
      dsimp only at h2 ⊢
      obtain ⟨v, h3, h4⟩ := Res.bind_eq_ok.1 h2
      unfold validateMack at h3
      obtain ⟨r, h5, h6⟩ := Res.bind_eq_ok.1 h3
      rw [h5]
      cases r with
      | error e =>
        simp only [Res.pure_eq, Res.ok.injEq] at h6
        subst h6
        simp only [Res.pure_eq, Res.ok.injEq] at h4
        simp only [tagsOf, useGains_nil hi]
        exact h4.symm
      | ok m' =>
        have hm := Mack.validate_same h5
        have hu := Mack.validate_usable h5
        subst hm
        simp only [Res.pure_eq, Res.ok.injEq] at h6
        subst h6
        dsimp only at h4 ⊢
        obtain ⟨n', h7, h8⟩ := Res.bind_eq_ok.1 h4
        simp only [Res.pure_eq, Res.ok.injEq] at h8
        have h7' := h7
        unfold processMack at h7'
        obtain ⟨gnav, hg, _⟩ := Res.bind_eq_ok.1 h7'
        have hga : gnav.isSubframe = true := by
          rw [Gst.isSubframe_iff]
          have := ((Gst.addSeconds_eq_ok (by omega)).1 hg).2
          unfold Gst.Aligned at *
          omega
        have := processMack_eq (C := C) (S := S) (c := key.chain) (msg := m) (prna := svn) (st := st) hu hg hga hi.lens hi.okc hi.okt
        unfold mackOf at this
        rw [this] at h7
        cases h7
        rw [← h8]
        congr 1
        unfold useGains tagsOf
        rw [usesGain_map hg, usesGain_map hg]
        rfl

/-- The slow part of the loop body. -/
theorem processSlow_of_ok {d d' : OsnmaData C} {key : Key} {sk : Option Key} {g : Gst} {svn : Svn} (ha : g.Aligned)
    (hi : Inv S d.navmessage) (h : processSlow S d key sk g svn = .ok d') :
    d' = { d with navmessage := d.navmessage.useGains S C (d.slowUses S key sk g svn) [] } := by
  unfold processSlow at h
  unfold slowUses
  cases sk with
  | none =>
    simp only [Res.pure_eq, Res.ok.injEq] at h
    simp only [useGains_nil hi]
    exact h.symm
  | some sk =>
    dsimp only at h ⊢
    obtain ⟨o, h1, h2⟩ := Res.bind_eq_ok.1 h
    unfold usableMack
    rw [h1]
    cases o with
    | none =>
      simp only [Res.pure_eq, Res.ok.injEq] at h2
      simp only [tagsOf, useGains_nil hi]
      exact h2.symm
    | some p =>
      obtain ⟨m, st⟩ := p
      dsimp only at h2 ⊢
      obtain ⟨v, h3, h4⟩ := Res.bind_eq_ok.1 h2
      unfold validateMack at h3
      obtain ⟨r, h5, h6⟩ := Res.bind_eq_ok.1 h3
      rw [h5]
      cases r with
      | error e =>
        simp only [Res.pure_eq, Res.ok.injEq] at h6
        subst h6
        simp only [Res.pure_eq, Res.ok.injEq] at h4
        simp only [tagsOf, useGains_nil hi]
        exact h4.symm
      | ok m' =>
        have hm := Mack.validate_same h5
        subst hm
        simp only [Res.pure_eq, Res.ok.injEq] at h6
        subst h6
        dsimp only at h4 ⊢
        obtain ⟨n', h7, h8⟩ := Res.bind_eq_ok.1 h4
        simp only [Res.pure_eq, Res.ok.injEq] at h8
        have h7' := h7
        unfold processMackSlowmac at h7'
        obtain ⟨gnav, hg, _⟩ := Res.bind_eq_ok.1 h7'
        have hga : gnav.isSubframe = true := by
          rw [Gst.isSubframe_iff]
          have := ((Gst.addSeconds_eq_ok (by omega)).1 hg).2
          unfold Gst.Aligned at *
          omega
        have := processMackSlowmac_of_ok (C := C) (S := S) (msg := m) (prna := svn) (st := st) hg hga hi.lens hi.okc hi.okt h7
        rw [← h8, this]
        congr 1
        unfold useGains tagsOf
        rw [usesGain_map hg]
        rfl

/-- All the tags checked when a key arrives. -/
theorem processTags_of_ok {d d' : OsnmaData C} {key : Key} (ha : key.gst.Aligned)
    (hi : Inv S d.navmessage) (h : processTags S d key = .ok d') :
    ∃ gstMack gstSlow slowKey, key.gst.addSeconds (-30) = .ok gstMack ∧ gstMack.addSeconds (-300) = .ok gstSlow ∧
      d.slowmacKey key = .ok slowKey ∧
      d' = { d with navmessage := d.navmessage.useGains S C (d.cedUses S key slowKey gstMack gstSlow) (d.timingUses S key gstMack) } := by
  unfold processTags at h
  obtain ⟨g1, h1, h⟩ := Res.bind_eq_ok.1 h
  obtain ⟨g2, h2, h⟩ := Res.bind_eq_ok.1 h
  obtain ⟨sk, h3, h⟩ := Res.bind_eq_ok.1 h
  refine ⟨g1, g2, sk, h1, h2, h3, ?_⟩
  have ha1 : g1.Aligned := by
    have := ((Gst.addSeconds_eq_ok (by omega)).1 h1).2
    unfold Gst.Aligned at *; omega
  have ha2 : g2.Aligned := by
    have := ((Gst.addSeconds_eq_ok (by omega)).1 h2).2
    unfold Gst.Aligned at *; omega
  refine loopM_fold (P := fun done s => s = { d with
      navmessage := (d.navmessage.useGains S C
        (done.flatMap (fun svn => d.fastUses S key g1 0 svn ++ d.slowUses S key sk g2 svn))
        (done.flatMap (fun svn => d.fastUses S key g1 4 svn))) }) ?_ ?_ h
  · simp only [List.flatMap_nil, useGains_nil hi]
  · intro done svn s s' _ hs hstep
    obtain ⟨s1, hs1, hs2⟩ := Res.bind_eq_ok.1 hstep
    subst hs
    have e1 := processFast_of_ok ha1 (useGains_inv hi _ _) hs1
    have hi1 : Inv S s1.navmessage := by rw [e1]; exact useGains_inv (useGains_inv hi _ _) _ _
    have e2 := processSlow_of_ok ha2 hi1 hs2
    rw [e2, e1]
    simp only [useGains_useGains, List.flatMap_append, List.flatMap_cons, List.flatMap_nil, List.append_nil, List.append_assoc]
    rfl

end OsnmaData
end Verif
