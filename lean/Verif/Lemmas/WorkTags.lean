import Verif.Lemmas.Work
import Verif.Props.KeyMachine
import Verif.Lemmas.NavTags

/-! # The work of processing the tags of a subframe -/

namespace Verif
namespace W

variable {C : Crypto} (S : Storage)

/-- A loop whose steps cost `w a` MACs while the invariant `I` holds. -/
theorem Costs.loopInv {σ α : Type} {f : σ → α → W C σ} (I : σ → Prop) (w : α → Nat) (l : List α)
    (hf : ∀ s a, a ∈ l → I s → Costs (f s a) 0 (w a) 0 ∧ ∀ s', (f s a).res = .ok s' → I s') :
    ∀ s, I s → Costs (W.loop f l s) 0 (l.map w).sum 0 := by
  induction l with
  | nil => intro s _; exact Costs.pure
  | cons a l ih =>
    intro s hs
    obtain ⟨h1, h2⟩ := hf s a (List.mem_cons_self ..) hs
    unfold W.loop
    refine (Costs.bind h1 fun s' hs' => ih (fun s a ha => hf s a (List.mem_cons_of_mem _ ha)) s' (h2 s' hs')).mono (Nat.le_refl _) ?_ (Nat.le_refl _)
    rw [List.map_cons, List.sum_cons]
    exact Nat.le_refl _

/-- Whether a MACK of a satellite is stored for a time. -/
def stored (m : MackStorage) (g : Gst) (svn : Svn) : Bool :=
  match m.get S svn g with
  | .ok (some _) => true
  | _ => false

theorem costs_processFast (d : OsnmaData C) (k : Key) (g : Gst) (svn : Svn) :
    Costs (processFast S d k g svn) 0 (if stored S d.mack g svn then 11 else 0) 0 := by
  unfold processFast
  split
  · exact Costs.pure
  · refine Costs.bindLift fun r hr => ?_
    cases r with
    | none => exact Costs.pure
    | some x =>
      dsimp only
      rw [if_pos (by unfold stored; rw [hr])]
      refine (Costs.bind (h' := 0) (m' := 10) (p' := 0) (costs_checkMack ..) fun r hr => ?_).mono (by omega) (by omega) (by omega)
      split
      · exact Costs.pure
      · rename_i m' 
        have hm : m' = Mack.new x.1 k.chain.keySizeBits k.chain.tagSizeBits := by
          rw [res_checkMack] at hr
          unfold OsnmaData.validateMack at hr
          obtain ⟨v, hv, hr⟩ := Res.bind_eq_ok.1 hr
          split at hr
          · cases hr
          · cases hr; exact Mack.validate_same hv
        subst hm
        exact Costs.bindPure (costs_processMack ..) fun _ _ => Costs.pure

theorem costs_processSlow (d : OsnmaData C) (k : Key) (sk : Option Key) (g : Gst) (svn : Svn) :
    Costs (processSlow S d k sk g svn) 0 (if stored S d.mack g svn then 10 else 0) 0 := by
  unfold processSlow
  split
  · exact Costs.pure
  · refine Costs.bindLift fun r hr => ?_
    cases r with
    | none => exact Costs.pure
    | some x =>
      dsimp only
      rw [if_pos (by unfold stored; rw [hr])]
      refine (Costs.bind (h' := 0) (m' := 9) (p' := 0) (costs_checkMack ..) fun r hr => ?_).mono (by omega) (by omega) (by omega)
      split
      · exact Costs.pure
      · rename_i m' 
        have hm : m' = Mack.new x.1 k.chain.keySizeBits k.chain.tagSizeBits := by
          rw [res_checkMack] at hr
          unfold OsnmaData.validateMack at hr
          obtain ⟨v, hv, hr⟩ := Res.bind_eq_ok.1 hr
          split at hr
          · cases hr
          · cases hr; exact Mack.validate_same hv
        subst hm
        exact Costs.bindPure (costs_processMackSlowmac ..) fun _ _ => Costs.pure

theorem processFast_mack {d d' : OsnmaData C} {k : Key} {g : Gst} {svn : Svn} (h : (processFast S d k g svn).res = .ok d') : d'.mack = d.mack := by
  rw [res_processFast] at h
  unfold OsnmaData.processFast at h
  split at h
  · cases h; rfl
  · obtain ⟨r, _, h⟩ := Res.bind_eq_ok.1 h
    cases r with
    | none => cases h; rfl
    | some x =>
      obtain ⟨r, _, h⟩ := Res.bind_eq_ok.1 h
      cases r with
      | none => cases h; rfl
      | some m =>
        obtain ⟨n, _, h⟩ := Res.bind_eq_ok.1 h
        cases h; rfl

theorem processSlow_mack {d d' : OsnmaData C} {k : Key} {sk : Option Key} {g : Gst} {svn : Svn} (h : (processSlow S d k sk g svn).res = .ok d') :
    d'.mack = d.mack := by
  rw [res_processSlow] at h
  unfold OsnmaData.processSlow at h
  cases sk with
  | none => cases h; rfl
  | some sk =>
    obtain ⟨r, _, h⟩ := Res.bind_eq_ok.1 h
    cases r with
    | none => cases h; rfl
    | some x =>
      obtain ⟨r, _, h⟩ := Res.bind_eq_ok.1 h
      cases r with
      | none => cases h; rfl
      | some m =>
        obtain ⟨n, _, h⟩ := Res.bind_eq_ok.1 h
        cases h; rfl

theorem countP_found (cur : List (Option StoredMack)) (l : List Svn) (hl : l.Nodup) :
    l.countP (fun svn => cur.any (fun x => x.any (fun y => y.svn == svn))) ≤ cur.length := by
  induction cur with
  | nil => simp
  | cons x cur ih =>
    simp only [List.any_cons]
    have h1 : l.countP (fun svn => x.any (fun y => y.svn == svn) || cur.any (fun x => x.any (fun y => y.svn == svn))) ≤
        l.countP (fun svn => x.any (fun y => y.svn == svn)) + l.countP (fun svn => cur.any (fun x => x.any (fun y => y.svn == svn))) := by
      clear ih hl
      induction l with
      | nil => exact Nat.zero_le _
      | cons s l ih =>
        rw [List.countP_cons, List.countP_cons, List.countP_cons]
        cases x.any (fun y => y.svn == s) <;> cases cur.any (fun x => x.any (fun y => y.svn == s)) <;> simp <;> omega
    have h2 : l.countP (fun svn => x.any (fun y => y.svn == svn)) ≤ 1 := by
      cases x with
      | none => simp
      | some y =>
        have : l.countP (fun svn => (some y).any (fun y => y.svn == svn)) = l.count y.svn := by
          rw [List.count]
          refine List.countP_congr fun s _ => ?_
          show (y.svn == s) = true ↔ (s == y.svn) = true
          rw [beq_iff_eq, beq_iff_eq]
          exact eq_comm
        rw [this]
        exact List.nodup_iff_count.1 hl y.svn
    rw [List.length_cons]
    omega

theorem countP_stored (m : MackStorage) (g : Gst) : Svn.iter.countP (stored S m g) ≤ min 36 S.numSats := by
  refine Nat.le_min.2 ⟨?_, ?_⟩
  · refine Nat.le_trans (List.countP_le_length) ?_
    exact Nat.le_of_eq (by decide)
  · unfold stored MackStorage.get
    cases hf : m.gsts.findIdx? (fun g' => g' == some g) with
    | none => simp
    | some i =>
      dsimp only
      cases hs : slice m.macks (i * S.numSats) ((i + 1) * S.numSats) with
      | panic w => simp
      | ok cur =>
        have hl : cur.length = S.numSats := by
          rw [slice_length hs, Nat.succ_mul]; omega
        refine Nat.le_trans (Nat.le_trans (List.countP_mono_left ?_) (countP_found cur Svn.iter Svn.iter_nodup)) (Nat.le_of_eq hl)
        intro svn _ h
        simp only [Res.ok_bind, Res.pure_eq] at h
        split at h
        · rename_i y hy
          obtain ⟨x, hx, hxy⟩ := List.exists_of_findSome?_eq_some (Res.ok.inj hy)
          refine List.any_eq_true.2 ⟨x, hx, ?_⟩
          cases x with
          | none => cases hxy
          | some z =>
            dsimp only at hxy
            split at hxy
            · rename_i hz
              show (z.svn == svn) = true
              rw [beq_iff_eq]; exact hz
            · cases hxy
        · cases h

theorem sum_weights {α : Type} (l : List α) (p q : α → Bool) (a b : Nat) :
    (l.map (fun x => (if p x then a else 0) + (if q x then b else 0))).sum = l.countP p * a + l.countP q * b := by
  induction l with
  | nil => simp
  | cons x l ih =>
    rw [List.map_cons, List.sum_cons, ih, List.countP_cons, List.countP_cons]
    cases p x <;> cases q x <;> simp [Nat.add_mul] <;> omega

theorem costs_slowmacKey (d : OsnmaData C) (k : Key) (D : Nat)
    (hD : ∀ k' ∈ d.key.keys, ∀ g n, k.gst.addSeconds (-300) = .ok g → k'.gst.subframesDifference g = .ok n → n ≤ D) :
    Costs (slowmacKey d k) D 0 0 := by
  unfold slowmacKey
  refine Costs.bindLift fun g hg => ?_
  split
  · exact Costs.pure
  · rename_i k' hk'
    refine Costs.bindLift fun n hn => ?_
    split
    · refine Costs.bindPure ((costs_derive n.toNat k').mono ?_ (Nat.le_refl _) (Nat.le_refl _)) fun _ _ => Costs.pure
      have hm : k' ∈ d.key.keys := by
        unfold KeyStore.keyPastChain at hk'
        obtain ⟨cif, hc, hk'⟩ := Option.bind_eq_some_iff.1 hk'
        have hcur : ∀ {k'}, d.key.currentKey = some k' → k' ∈ d.key.keys := by
          intro k' h
          unfold KeyStore.currentKey at h
          obtain ⟨cif, _, h⟩ := Option.bind_eq_some_iff.1 h
          exact List.mem_of_find?_eq_some h
        split at hk'
        · split at hk'
          · exact List.mem_of_find?_eq_some hk'
          · exact hcur hk'
        · exact hcur hk'
      have := hD k' hm g n hg hn
      omega
    · exact Costs.pure

theorem costs_processTags (d : OsnmaData C) (k : Key) (D : Nat)
    (hD : ∀ k' ∈ d.key.keys, ∀ g n, k.gst.addSeconds (-300) = .ok g → k'.gst.subframesDifference g = .ok n → n ≤ D) :
    Costs (processTags S d k) D (21 * min 36 S.numSats) 0 := by
  unfold processTags
  refine Costs.bindLift fun g _ => Costs.bindLift fun gs _ => ?_
  refine (Costs.bind (h' := 0) (m' := 21 * min 36 S.numSats) (p' := 0) (costs_slowmacKey d k D hD) fun sk _ => ?_).mono
    (by omega) (by omega) (by omega)
  refine (Costs.loopInv (fun e : OsnmaData C => e.mack = d.mack)
    (fun svn => (if stored S d.mack g svn then 11 else 0) + (if stored S d.mack gs svn then 10 else 0)) Svn.iter ?_ d rfl).mono
    (Nat.le_refl _) ?_ (Nat.le_refl _)
  · intro e svn _ he
    constructor
    · refine (Costs.bind (costs_processFast S e k g svn) (h' := 0) (m' := if stored S d.mack gs svn then 10 else 0) (p' := 0) fun e' he' => ?_).mono
        (Nat.le_refl _) ?_ (Nat.le_refl _)
      · rw [← he, ← processFast_mack S he']
        exact costs_processSlow S e' k sk gs svn
      · rw [he]; exact Nat.le_refl _
    · intro e' he'
      rw [res_bind] at he'
      obtain ⟨e1, h1, h2⟩ := Res.bind_eq_ok.1 he'
      rw [processSlow_mack S h2, processFast_mack S h1, he]
  · rw [sum_weights]
    have h1 := countP_stored S d.mack g
    have h2 := countP_stored S d.mack gs
    omega

theorem costs_acceptKey {d d' : OsnmaData C} {m : MackMessage} {gst : Gst} (hret : d.validateKey S m gst = .ok d') (N D : Nat)
    (hal : ∀ k, d.key.Has k → k.gst.Aligned) (hal' : ∀ k, d'.key.Has k → k.gst.Aligned)
    (hN : 3000 ≤ N ∨ ∀ k, d.key.currentKey = some k → gst.abs ≤ k.gst.abs + 30 * N)
    (hD : ∀ k, d'.key.Has k → k.gst.abs ≤ gst.abs - 300 + 30 * D) :
    Costs (acceptKey S d m gst) (N + D) (21 * min 36 S.numSats) 0 := by
  unfold acceptKey
  cases hcur : d.key.currentKey with
  | none => exact Costs.pure
  | some cur =>
    dsimp only
    refine Costs.bindLift fun kb hkb => Costs.bindLift fun nk hnk => ?_
    obtain ⟨hg, _, hnk'⟩ := Key.fromBitslice_eq_ok hnk
    have hgst : nk.gst = gst := by rw [hnk']
    unfold OsnmaData.validateKey at hret
    rw [hcur] at hret
    dsimp only at hret
    obtain ⟨kb', hkb', hret⟩ := Res.bind_eq_ok.1 hret
    rw [hkb] at hkb'; cases hkb'
    obtain ⟨nk', hnk'', hret⟩ := Res.bind_eq_ok.1 hret
    rw [hnk] at hnk''; cases hnk''
    cases hcmp : Gst.cmp cur.gst nk.gst with
    | eq => exact Costs.pure
    | gt => exact Costs.pure
    | lt =>
      rw [hcmp] at hret
      dsimp only at hret ⊢
      have hca : cur.gst.Aligned := by
        refine hal cur ?_
        unfold KeyStore.currentKey at hcur
        obtain ⟨cif, _, hcur⟩ := Option.bind_eq_some_iff.1 hcur
        have := List.mem_of_find?_eq_some hcur
        unfold KeyStore.keys at this
        simpa [KeyStore.Has, eq_comm] using this
      have hk : Costs (validateKey cur nk : W C _) N 0 0 := by
        rcases hN with hN | hN
        · exact (costs_validateKey cur nk).mono hN (Nat.le_refl _) (Nat.le_refl _)
        · refine costs_validateKey_near cur nk N fun n hn => ?_
          obtain ⟨z, hz, hz'⟩ := subframesDifference_steps (a := nk.gst) (b := cur.gst) (by rw [hgst]; exact hg) hca
          rw [hn] at hz; cases hz
          have := hN cur hcur
          rw [hgst] at hz'
          omega
      refine (Costs.bind (h' := D) (m' := 21 * min 36 S.numSats) (p' := 0) hk fun r hr => ?_).mono (by omega) (by omega) (by omega)
      rw [res_validateKey] at hr
      rw [hr] at hret
      cases r with
      | error e => exact Costs.pure
      | ok v =>
        have hv := Key.validateKey_same hr
        subst hv
        dsimp only at hret ⊢
        rw [Res.ok_bind] at hret
        obtain ⟨ks, hks, hret⟩ := Res.bind_eq_ok.1 hret
        refine Costs.bindLift fun ks' hks' => ?_
        rw [hks] at hks'; cases hks'
        have hkey := (OsnmaData.processTags_keys hret).1
        refine costs_processTags S _ v D ?_
        intro k' hk' g n hg' hn
        have hh : d'.key.Has k' := by
          rw [hkey]
          unfold KeyStore.keys at hk'
          simpa [KeyStore.Has, eq_comm] using hk'
        have h1 := hal' k' hh
        have h2 := hD k' hh
        obtain ⟨h3, h4⟩ : g.Aligned ∧ g.abs = gst.abs - 300 := by
          have h := ((Gst.addSeconds_eq_ok (by omega)).1 hg').2
          rw [hgst] at h
          unfold Gst.Aligned at hg ⊢
          omega
        obtain ⟨z, hz, hz'⟩ := subframesDifference_steps h1 h3
        rw [hn] at hz; cases hz
        omega

end W
end Verif
