import Verif.Model.Release
import Verif.Lemmas.PanicIff
import Verif.Props.NavData
import Verif.Props.Gst
import Verif.Tests.ScenariosChain
import Verif.Spec.GalmonSpec

/-! # C70: builds without overflow checks -/

namespace Verif
open Osnma OsnmaData

variable {C : Crypto} {S : Storage}

namespace Gst

theorem ofPartsRelease_eq_ok {wn tow : Int} {g : Gst} :
    ofPartsRelease wn tow = .ok g ↔ (g.tow : Int) = tow ∧ (g.wn : Int) = wn % 65536 := by
  have h1 := g.hwn; have h2 := g.htow
  unfold ofPartsRelease
  split
  · rename_i h
    obtain ⟨a, b, ha, hb⟩ := g
    simp only [Res.ok.injEq, Gst.mk.injEq]
    dsimp only at h1 h2
    omega
  · rename_i h
    simp only [reduceCtorEq, false_iff]
    rintro ⟨h3, _⟩
    apply h; omega

theorem addSecondsRelease_eq_ok {g g' : Gst} {s : Int} (hs : IsI32 s) :
    g.addSecondsRelease s = .ok g' ↔ -604800 < s ∧ (g'.abs - (g.abs + s)) % (65536 * 604800) = 0 := by
  have h1 := g.hwn; have h2 := g.htow
  have h3 := g'.hwn; have h4 := g'.htow
  unfold IsI32 at hs
  unfold addSecondsRelease
  have hw : s.tdiv 604800 = if 0 ≤ s then s / 604800 else -((-s) / 604800) := by
    split
    · exact Int.tdiv_eq_ediv_of_nonneg (by omega)
    · have : s = -(-s) := by omega
      rw [this, Int.neg_tdiv, Int.tdiv_eq_ediv_of_nonneg (by omega)]; simp
  simp only [hw, abs]
  by_cases hp : 0 ≤ s
  · simp only [hp, if_true]
    split
    · split
      · rw [ofPartsRelease_eq_ok]; omega
      · split
        · rw [ofPartsRelease_eq_ok]; omega
        · rw [ofPartsRelease_eq_ok]; omega
    · simp only [reduceCtorEq, false_iff]; omega
  · simp only [hp, if_false]
    split
    · split
      · rw [ofPartsRelease_eq_ok]; omega
      · split
        · rw [ofPartsRelease_eq_ok]; omega
        · rw [ofPartsRelease_eq_ok]; omega
    · simp only [reduceCtorEq, false_iff]; omega

theorem abs_mod_inj {a b : Gst} (h : (a.abs - b.abs) % (65536 * 604800) = 0) : a = b := by
  apply abs_inj
  have h1 := a.hwn; have h2 := a.htow; have h3 := b.hwn; have h4 := b.htow
  simp only [abs] at h ⊢
  omega

theorem addSecondsRelease_of {g g' : Gst} {s : Int} (hs : IsI32 s) (h : g.addSeconds s = .ok g') : g.addSecondsRelease s = .ok g' := by
  obtain ⟨h1, h2⟩ := (addSeconds_eq_ok hs.2).1 h
  exact (addSecondsRelease_eq_ok hs).2 ⟨h1, by rw [h2]; omega⟩

theorem addSecondsRelease_eq {g : Gst} {s : Int} (hs : IsI32 s) (h : -604800 < s) (hr : Representable (g.abs + s)) :
    g.addSecondsRelease s = g.addSeconds s := by
  obtain ⟨g', h1, _⟩ := addSeconds_exists (g := g) hs.2 h hr
  rw [h1, addSecondsRelease_of hs h1]

theorem addSecondsRelease_back {g : Gst} {s : Int} (h0 : 0 ≤ s) (h1 : s < 604800) (hr : s ≤ g.abs) :
    g.addSecondsRelease (-s) = g.addSeconds (-s) := by
  refine addSecondsRelease_eq ⟨by omega, by omega⟩ (by omega) ?_
  have := abs_representable g
  unfold Representable at this ⊢
  omega

theorem wrapI32_of {x : Int} (h : IsI32 x) : wrapI32 x = x := by
  unfold IsI32 at h
  unfold wrapI32
  omega

theorem addSubframesRelease_of {g g' : Gst} {n : Int} (h : g.addSubframes n = .ok g') : g.addSubframesRelease n = .ok g' := by
  unfold addSubframes at h
  obtain ⟨s, hs, h⟩ := Res.bind_eq_ok.1 h
  obtain ⟨e, h1, h2⟩ := i32_eq_ok.1 hs
  subst e
  unfold addSubframesRelease
  rw [wrapI32_of ⟨h1, h2⟩]
  exact addSecondsRelease_of ⟨h1, h2⟩ h

end Gst

/-! ## If a function returns with the checks, it returns the same without them -/

/-- Whatever the first returns, the second returns too. -/
def Res.Le {α : Type u} (a b : Res α) : Prop := ∀ x, a = .ok x → b = .ok x

theorem Res.Le.refl {α : Type u} (a : Res α) : Res.Le a a := fun _ h => h

theorem Res.Le.bind {α β : Type u} {a b : Res α} {f g : α → Res β} (h : Res.Le a b) (hf : ∀ x, a = .ok x → Res.Le (f x) (g x)) :
    Res.Le (a >>= f) (b >>= g) := by
  intro y hy
  obtain ⟨x, hx, hy⟩ := Res.bind_eq_ok.1 hy
  rw [h x hx]
  exact hf x hx y hy

theorem Res.Le.loopM {α : Type u} {σ : Type v} {f g : σ → α → Res σ} (h : ∀ s a, Res.Le (f s a) (g s a)) (l : List α) (s : σ) :
    Res.Le (loopM f l s) (loopM g l s) := by
  induction l generalizing s with
  | nil => exact .refl _
  | cons a l ih =>
    intro x hx
    simp only [Verif.loopM] at hx ⊢
    cases hf : f s a with
    | panic w => rw [hf] at hx; cases hx
    | ok s' =>
      rw [hf] at hx
      rw [h s a s' hf]
      exact ih s' x hx

theorem Res.bind_congr_ok {α β : Type u} {x : Res α} {f g : α → Res β} (h : ∀ a, x = .ok a → f a = g a) : (x >>= f) = (x >>= g) := by
  cases x with
  | panic w => rfl
  | ok a => exact h a rfl

namespace Key

theorem oneWay_le (k : Key) : Res.Le (oneWayFunction C k) (oneWayFunctionRelease C k) :=
  .bind (fun _ h => Gst.addSecondsRelease_of ⟨by decide, by decide⟩ h) fun _ _ => .refl _

theorem derive_le (k : Key) (n : Nat) : Res.Le (derive C k n) (deriveRelease C k n) := by
  induction n generalizing k with
  | zero => exact .refl _
  | succ n ih =>
    intro x hx
    unfold derive at hx
    unfold deriveRelease
    cases h : oneWayFunction C k with
    | panic w => rw [h] at hx; cases hx
    | ok k' =>
      rw [h] at hx
      rw [oneWay_le k k' h]
      exact ih k' x hx

theorem validateKey_le (k k' : Key) : Res.Le (validateKey C k k') (validateKeyRelease C k k') := by
  unfold validateKey validateKeyRelease
  split
  · exact .refl _
  · split
    · exact .refl _
    · refine .bind (.refl _) fun n _ => .bind (.refl _) fun _ _ => ?_
      split
      · exact .refl _
      · exact .bind (derive_le _ _) fun _ _ => .refl _

/-- The rest of `Key::from_dsm_kroot` once the signature is verified (`tesla.rs:616-623`), without overflow checks. -/
def krootKeyRelease (d : DsmKroot) (chain : Chain) : Res Key := do
  let wn ← d.krootWn
  let towh ← d.krootTowh
  let gst ← if hwn : wn < 65536 then Gst.new wn (towh * 3600) hwn else .panic "unreachable"
  checkGst gst
  let gst ← gst.addSecondsRelease (-30)
  let kroot ← d.kroot
  fromSlice kroot gst chain

theorem fromDsmKrootRelease_unfold (h : NmaHeader) (d : DsmKroot) (pk : PublicKey C) :
    fromDsmKrootRelease C h d pk = (do
      match ← Chain.fromDsmKroot d with
      | .error e => pure (.error (.WrongDsmKrootChain e))
      | .ok chain =>
        if !(← d.checkPadding C h) then pure (.error .WrongDsmKrootPadding)
        else do
          let f ← d.ecdsaFunction
          match ← sigVerdict C h d pk f with
          | some e => pure (.error e)
          | none => do
            let key ← krootKeyRelease d chain
            pure (.ok (key, h))) := by
  unfold fromDsmKrootRelease
  congr 1
  funext r
  cases r with
  | error e => rfl
  | ok chain =>
    dsimp only
    congr 1
    funext b
    cases b with
    | false => rfl
    | true =>
      simp only [Bool.not_true, Bool.false_eq_true, if_false]
      congr 1
      funext f
      have hk : ∀ hh, (do
          let wn ← d.krootWn
          let towh ← d.krootTowh
          let gst ← if hwn : wn < 65536 then Gst.new wn (towh * 3600) hwn else .panic "unreachable"
          checkGst gst
          let gst ← gst.addSecondsRelease (-30)
          let kroot ← d.kroot
          let key ← fromSlice kroot gst chain
          pure (.ok (key, hh)) : Res (Except KrootValidationError (Key × NmaHeader)))
          = (do let key ← krootKeyRelease d chain; pure (.ok (key, hh))) := by
        intro hh
        unfold krootKeyRelease
        cases d.krootWn with
        | panic w => rfl
        | ok wn =>
        simp only [Res.ok_bind]
        cases d.krootTowh with
        | panic w => rfl
        | ok towh =>
        simp only [Res.ok_bind]
        by_cases hw : wn < 65536
        case neg => rw [dif_neg hw, dif_neg hw]; rfl
        rw [dif_pos hw, dif_pos hw]
        cases Gst.new wn (towh * 3600) hw with
        | panic w => rfl
        | ok g =>
        simp only [Res.ok_bind]
        cases checkGst g with
        | panic w => rfl
        | ok u =>
        simp only [Res.ok_bind]
        cases g.addSecondsRelease (-30) with
        | panic w => rfl
        | ok g' =>
        simp only [Res.ok_bind]
        cases d.kroot with
        | panic w => rfl
        | ok kr => simp only [Res.ok_bind]
      unfold sigVerdict
      rcases pk with ⟨key, id⟩
      cases key with
      | P256 key =>
        cases f with
        | P256Sha256 =>
          dsimp only
          cases d.checkSignatureP256 C h key with
          | panic w => rfl
          | ok b =>
            simp only [Res.ok_bind]
            cases b with
            | false => rfl
            | true => exact hk h
        | P521Sha512 => rfl
      | P521 key =>
        cases f with
        | P256Sha256 => rfl
        | P521Sha512 =>
          dsimp only
          by_cases hp : C.p521 = true
          · simp only [hp, if_true]
            cases d.checkSignatureP521 C h key with
            | panic w => rfl
            | ok b =>
              simp only [Res.ok_bind]
              cases b with
              | false => rfl
              | true => exact hk h
          · simp only [Bool.not_eq_true] at hp
            simp only [hp]
            rfl

theorem krootKey_le (d : DsmKroot) (c : Chain) : Res.Le (krootKey d c) (krootKeyRelease d c) := by
  unfold krootKey krootKeyRelease
  refine .bind (.refl _) fun wn _ => .bind (.refl _) fun towh _ => ?_
  by_cases hw : wn < 65536
  case neg => rw [dif_neg hw, dif_neg hw]; exact .refl _
  rw [dif_pos hw, dif_pos hw]
  refine .bind (.refl _) fun _ _ => .bind (.refl _) fun _ _ => ?_
  exact .bind (fun _ h => Gst.addSecondsRelease_of ⟨by decide, by decide⟩ h) fun _ _ => .refl _

theorem fromDsmKroot_le (h : NmaHeader) (d : DsmKroot) (pk : PublicKey C) :
    Res.Le (fromDsmKroot C h d pk) (fromDsmKrootRelease C h d pk) := by
  rw [fromDsmKroot_unfold, fromDsmKrootRelease_unfold]
  refine .bind (.refl _) fun r _ => ?_
  cases r with
  | error e => exact .refl _
  | ok c =>
    dsimp only
    refine .bind (.refl _) fun b _ => ?_
    split
    · exact .refl _
    · refine .bind (.refl _) fun f _ => .bind (.refl _) fun v _ => ?_
      cases v with
      | some e => exact .refl _
      | none => exact .bind (krootKey_le _ _) fun _ _ => .refl _

end Key

namespace CollectNavMessage

theorem search_le (arr : List NavItem) (gsts : List (Option Gst)) (nbits : Nat) (svn : Svn) (is : List Nat) :
    Res.Le (search S arr gsts nbits svn is) (searchRelease S arr gsts nbits svn is) := by
  induction is with
  | nil => exact .refl _
  | cons i is ih =>
    unfold search searchRelease
    cases slot S arr i with
    | panic w => exact .refl _
    | ok s =>
      dsimp only
      cases s.find? (fun x => x.svn == some svn && decide (x.authbits ≥ MIN_AUTHBITS)) with
      | none => exact ih
      | some item =>
        dsimp only
        refine .bind (.refl _) fun _ _ => .bind (.refl _) fun _ _ => ?_
        exact .bind (fun _ h => Gst.addSubframesRelease_of h) fun _ _ => .refl _

theorem processMack_le (n : CollectNavMessage) (mack : Mack) (key : Key) (prna : Svn) (g : Gst) (st : NmaStatus) :
    Res.Le (processMack S C n mack key prna g st) (processMackRelease S C n mack key prna g st) :=
  .bind (fun _ h => Gst.addSecondsRelease_of ⟨by decide, by decide⟩ h) fun _ _ => .refl _

theorem processMackSlowmac_le (n : CollectNavMessage) (mack : Mack) (key : Key) (prna : Svn) (g : Gst) (st : NmaStatus) :
    Res.Le (processMackSlowmac S C n mack key prna g st) (processMackSlowmacRelease S C n mack key prna g st) :=
  .bind (fun _ h => Gst.addSecondsRelease_of ⟨by decide, by decide⟩ h) fun _ _ => .refl _

end CollectNavMessage

namespace OsnmaData

theorem processDsmKroot_le (d : OsnmaData C) (k : DsmKroot) (h : NmaHeader) (g : Gst) :
    Res.Le (d.processDsmKroot k h g) (d.processDsmKrootRelease k h g) := by
  unfold processDsmKroot processDsmKrootRelease
  refine .bind (.refl _) fun _ _ => .bind (.refl _) fun r _ => ?_
  cases r with
  | none => exact .refl _
  | some pk =>
    dsimp only
    refine .bind (Key.fromDsmKroot_le _ _ _) fun r _ => ?_
    cases r with
    | error e => exact .refl _
    | ok x => obtain ⟨k, h⟩ := x; exact .refl _

theorem processDsm_le (d : OsnmaData C) (x : Dsm) (h : NmaHeader) (g : Gst) : Res.Le (d.processDsm x h g) (d.processDsmRelease x h g) := by
  unfold processDsm processDsmRelease
  cases x.dsmType with
  | Kroot => exact processDsmKroot_le _ _ _ _
  | Pkr => exact .refl _

theorem processFast_le (d : OsnmaData C) (key : Key) (g : Gst) (svn : Svn) :
    Res.Le (processFast S d key g svn) (processFastRelease S d key g svn) := by
  unfold processFast processFastRelease
  split
  · exact .refl _
  · refine .bind (.refl _) fun r _ => ?_
    cases r with
    | none => exact .refl _
    | some x =>
      obtain ⟨m, st⟩ := x
      dsimp only
      refine .bind (.refl _) fun r _ => ?_
      cases r with
      | none => exact .refl _
      | some m => exact .bind (CollectNavMessage.processMack_le _ _ _ _ _ _) fun _ _ => .refl _

theorem processSlow_le (d : OsnmaData C) (key : Key) (sk : Option Key) (g : Gst) (svn : Svn) :
    Res.Le (processSlow S d key sk g svn) (processSlowRelease S d key sk g svn) := by
  unfold processSlow processSlowRelease
  cases sk with
  | none => exact .refl _
  | some sk =>
    dsimp only
    refine .bind (.refl _) fun r _ => ?_
    cases r with
    | none => exact .refl _
    | some x =>
      obtain ⟨m, st⟩ := x
      dsimp only
      refine .bind (.refl _) fun r _ => ?_
      cases r with
      | none => exact .refl _
      | some m => exact .bind (CollectNavMessage.processMackSlowmac_le _ _ _ _ _ _) fun _ _ => .refl _

theorem slowmacKey_le (d : OsnmaData C) (key : Key) : Res.Le (d.slowmacKey key) (d.slowmacKeyRelease key) := by
  unfold slowmacKey slowmacKeyRelease
  refine .bind (fun _ h => Gst.addSecondsRelease_of ⟨by decide, by decide⟩ h) fun g _ => ?_
  cases d.key.keyPastChain g with
  | none => exact .refl _
  | some k =>
    dsimp only
    refine .bind (.refl _) fun n _ => ?_
    split
    · exact .bind (Key.derive_le _ _) fun _ _ => .refl _
    · exact .refl _

theorem processTags_le (d : OsnmaData C) (key : Key) : Res.Le (d.processTags S key) (d.processTagsRelease S key) := by
  unfold processTags processTagsRelease
  refine .bind (fun _ h => Gst.addSecondsRelease_of ⟨by decide, by decide⟩ h) fun _ _ => ?_
  refine .bind (fun _ h => Gst.addSecondsRelease_of ⟨by decide, by decide⟩ h) fun _ _ => ?_
  refine .bind (slowmacKey_le _ _) fun _ _ => ?_
  exact .loopM (fun d svn => .bind (processFast_le _ _ _ _) fun _ _ => processSlow_le _ _ _ _ _) _ _

theorem validateKey_le (d : OsnmaData C) (m : MackMessage) (g : Gst) : Res.Le (d.validateKey S m g) (d.validateKeyRelease S m g) := by
  unfold validateKey validateKeyRelease
  cases d.key.currentKey with
  | none => exact .refl _
  | some cur =>
    dsimp only
    refine .bind (.refl _) fun _ _ => .bind (.refl _) fun nk _ => ?_
    cases Gst.cmp cur.gst nk.gst with
    | eq => exact .refl _
    | gt => exact .refl _
    | lt =>
      dsimp only
      refine .bind (Key.validateKey_le _ _) fun r _ => ?_
      cases r with
      | error e => exact .refl _
      | ok v => exact .bind (.refl _) fun _ _ => processTags_le _ _

end OsnmaData

theorem OsnmaDsm.processSubframe_le (o : OsnmaDsm C) (hk : HkrootMessage) (m : MackMessage) (svn : Svn) (g : Gst) :
    Res.Le (o.processSubframe S hk m svn g) (o.processSubframeRelease S hk m svn g) := by
  unfold OsnmaDsm.processSubframe OsnmaDsm.processSubframeRelease
  refine .bind (.refl _) fun _ _ => .bind (.refl _) fun _ _ => .bind (.refl _) fun _ _ => .bind (.refl _) fun _ _ => .bind (.refl _) fun r _ => ?_
  obtain ⟨dsm, out⟩ := r
  cases out with
  | none => exact .bind (.refl _) fun _ _ => .bind (OsnmaData.validateKey_le _ _ _) fun _ _ => .refl _
  | some x => exact .bind (OsnmaData.processDsm_le _ _ _ _) fun _ _ => .bind (OsnmaData.validateKey_le _ _ _) fun _ _ => .refl _

theorem Osnma.feedOsnma_le (o : Osnma C) (data : OsnmaDataMessage) (svn : Svn) (g : Gst) :
    Res.Le (o.feedOsnma S data svn g) (o.feedOsnmaRelease S data svn g) := by
  unfold feedOsnma feedOsnmaRelease
  split
  · exact .refl _
  · refine .bind (.refl _) fun r _ => ?_
    obtain ⟨sf, out⟩ := r
    cases out with
    | none => exact .refl _
    | some x => exact .bind (OsnmaDsm.processSubframe_le _ _ _ _ _) fun _ _ => .refl _

/-! ## Away from the origin of time, both builds do the same -/

namespace Key

theorem derive_eq {k : Key} {n : Nat} (h : 30 * (n : Int) ≤ k.gst.abs) : deriveRelease C k n = derive C k n := by
  induction n generalizing k with
  | zero => rfl
  | succ n ih =>
    have e : oneWayFunctionRelease C k = oneWayFunction C k := by
      unfold oneWayFunctionRelease oneWayFunction
      rw [Gst.addSecondsRelease_back (by omega) (by omega) (by omega)]
    unfold deriveRelease derive
    rw [e]
    cases hk : oneWayFunction C k with
    | panic w => rfl
    | ok k' =>
      dsimp only
      refine ih ?_
      unfold oneWayFunction at hk
      obtain ⟨g, hg, hk⟩ := Res.bind_eq_ok.1 hk
      have := ((Gst.addSeconds_eq_ok (by omega)).1 hg).2
      cases hk
      dsimp only
      omega

theorem difference_bound {a b : Gst} {n : Int} (h : a.subframesDifference b = .ok n) : 30 * n ≤ a.abs - b.abs + 29 := by
  rw [Gst.subframesDifference_ok] at h
  cases h
  have h1 := Int.mul_tdiv_add_tmod ((a.tow : Int) - b.tow) 30
  have h6 := Int.lt_tmod_of_pos ((a.tow : Int) - b.tow) (b := 30) (by omega)
  unfold Gst.abs
  omega

theorem validateKey_eq {k k' : Key} (ha : k'.gst.Aligned) : validateKeyRelease C k k' = validateKey C k k' := by
  unfold validateKeyRelease validateKey
  split
  · rfl
  · split
    · rfl
    · refine Res.bind_congr_ok fun n hn => Res.bind_congr_ok fun _ ha1 => ?_
      split
      · rfl
      · have hb := difference_bound hn
        have := k.gst.abs_representable
        unfold Representable at this
        unfold Gst.Aligned at ha
        have h1 : 1 ≤ n := by simpa using Res.assert_eq_ok.1 ha1
        rw [derive_eq (by omega)]

theorem krootKey_eq {d : DsmKroot} {c : Chain} (h : ¬ (bitField d.data 36 12 = 0 ∧ bitField d.data 48 8 = 0)) :
    krootKeyRelease d c = krootKey d c := by
  unfold krootKey krootKeyRelease
  refine Res.bind_congr_ok fun wn hwn => Res.bind_congr_ok fun towh ht => ?_
  by_cases hw : wn < 65536
  case neg => rw [dif_neg hw, dif_neg hw]; rfl
  rw [dif_pos hw, dif_pos hw]
  refine Res.bind_congr_ok fun g hg => Res.bind_congr_ok fun _ _ => ?_
  rw [Gst.addSecondsRelease_back (by omega) (by omega)]
  have e1 := (field_eq_ok.1 hwn).2.2
  have e2 := (field_eq_ok.1 ht).2.2
  unfold Gst.new at hg
  split at hg
  · cases hg
    unfold Gst.abs
    dsimp only
    simp only [Nat.reduceSub] at e1 e2
    omega
  · cases hg

theorem fromDsmKroot_eq {h : NmaHeader} {d : DsmKroot} {pk : PublicKey C} (ht : ¬ (bitField d.data 36 12 = 0 ∧ bitField d.data 48 8 = 0)) :
    fromDsmKrootRelease C h d pk = fromDsmKroot C h d pk := by
  rw [fromDsmKroot_unfold, fromDsmKrootRelease_unfold]
  refine Res.bind_congr_ok fun r _ => ?_
  cases r with
  | error e => rfl
  | ok c =>
    dsimp only
    refine Res.bind_congr_ok fun b _ => ?_
    split
    · rfl
    · refine Res.bind_congr_ok fun f _ => Res.bind_congr_ok fun v _ => ?_
      cases v with
      | some e => rfl
      | none => dsimp only; rw [krootKey_eq ht]

end Key

namespace OsnmaData

theorem processDsm_eq {d : OsnmaData C} {x : Dsm} {h : NmaHeader} {g : Gst}
    (ht : x.dsmType = .Kroot → ¬ (bitField x.data 36 12 = 0 ∧ bitField x.data 48 8 = 0)) : d.processDsmRelease x h g = d.processDsm x h g := by
  unfold processDsm processDsmRelease
  cases hx : x.dsmType with
  | Pkr => rfl
  | Kroot =>
    dsimp only
    unfold processDsmKroot processDsmKrootRelease
    refine Res.bind_congr_ok fun _ _ => Res.bind_congr_ok fun r _ => ?_
    cases r with
    | none => rfl
    | some pk =>
      dsimp only
      rw [Key.fromDsmKroot_eq (d := ⟨x.data⟩) (ht hx)]
      refine Res.bind_congr_ok fun r _ => ?_
      cases r with
      | error e => rfl
      | ok x => rfl

theorem processFast_eq {d : OsnmaData C} {key : Key} {g : Gst} {svn : Svn} (hg : 30 ≤ g.abs) :
    processFastRelease S d key g svn = processFast S d key g svn := by
  unfold processFast processFastRelease
  split
  · rfl
  · refine Res.bind_congr_ok fun r _ => ?_
    cases r with
    | none => rfl
    | some x =>
      obtain ⟨m, st⟩ := x
      dsimp only
      refine Res.bind_congr_ok fun r _ => ?_
      cases r with
      | none => rfl
      | some m =>
        dsimp only
        unfold CollectNavMessage.processMackRelease CollectNavMessage.processMack
        rw [Gst.addSecondsRelease_back (s := 30) (by omega) (by omega) hg]

theorem processSlow_eq {d : OsnmaData C} {key : Key} {sk : Option Key} {g : Gst} {svn : Svn} (hg : 30 ≤ g.abs) :
    processSlowRelease S d key sk g svn = processSlow S d key sk g svn := by
  unfold processSlow processSlowRelease
  cases sk with
  | none => rfl
  | some sk =>
    dsimp only
    refine Res.bind_congr_ok fun r _ => ?_
    cases r with
    | none => rfl
    | some x =>
      obtain ⟨m, st⟩ := x
      dsimp only
      refine Res.bind_congr_ok fun r _ => ?_
      cases r with
      | none => rfl
      | some m =>
        dsimp only
        unfold CollectNavMessage.processMackSlowmacRelease CollectNavMessage.processMackSlowmac
        rw [Gst.addSecondsRelease_back (s := 30) (by omega) (by omega) hg]

theorem slowmacKey_eq {d : OsnmaData C} {key : Key} (hg : 330 ≤ key.gst.abs) : d.slowmacKeyRelease key = d.slowmacKey key := by
  unfold slowmacKey slowmacKeyRelease
  rw [Gst.addSecondsRelease_back (s := 300) (by omega) (by omega) (by omega)]
  refine Res.bind_congr_ok fun g h => ?_
  have hh := ((Gst.addSeconds_eq_ok (by omega)).1 h).2
  cases d.key.keyPastChain g with
  | none => rfl
  | some k =>
    dsimp only
    refine Res.bind_congr_ok fun n hn => ?_
    have hb := Key.difference_bound hn
    split
    · rw [Key.derive_eq (by omega)]
    · rfl

theorem processTags_eq {d : OsnmaData C} {key : Key} (hg : 360 ≤ key.gst.abs) : d.processTagsRelease S key = d.processTags S key := by
  unfold processTags processTagsRelease
  rw [Gst.addSecondsRelease_back (s := 30) (by omega) (by omega) (by omega)]
  refine Res.bind_congr_ok fun g h => ?_
  have hh := ((Gst.addSeconds_eq_ok (by omega)).1 h).2
  rw [Gst.addSecondsRelease_back (s := 300) (by omega) (by omega) (by omega)]
  refine Res.bind_congr_ok fun g' h' => ?_
  have hh' := ((Gst.addSeconds_eq_ok (by omega)).1 h').2
  rw [slowmacKey_eq (by omega)]
  have e1 : 30 ≤ g.abs := by omega
  have e2 : 30 ≤ g'.abs := by omega
  simp only [processFast_eq e1, processSlow_eq e2]

theorem validateKey_eq {d : OsnmaData C} {m : MackMessage} {g : Gst} (hg : 360 ≤ g.abs) : d.validateKeyRelease S m g = d.validateKey S m g := by
  unfold validateKey validateKeyRelease
  cases d.key.currentKey with
  | none => rfl
  | some cur =>
    dsimp only
    refine Res.bind_congr_ok fun _ _ => Res.bind_congr_ok fun nk hk => ?_
    obtain ⟨ha, _, e⟩ := Key.fromBitslice_eq_ok hk
    cases Gst.cmp cur.gst nk.gst with
    | eq => rfl
    | gt => rfl
    | lt =>
      dsimp only
      rw [Key.validateKey_eq (by rw [e]; exact ha)]
      refine Res.bind_congr_ok fun r hr => ?_
      cases r with
      | error e => rfl
      | ok v =>
        dsimp only
        have hv : v.gst = g := by
          unfold Key.validateKey at hr
          split at hr
          · cases hr
          · split at hr
            · cases hr
            · obtain ⟨_, _, hr⟩ := Res.bind_eq_ok.1 hr
              obtain ⟨_, _, hr⟩ := Res.bind_eq_ok.1 hr
              split at hr
              · cases hr
              · obtain ⟨_, _, hr⟩ := Res.bind_eq_ok.1 hr
                obtain ⟨_, _, hr⟩ := Res.bind_eq_ok.1 hr
                split at hr
                · cases hr; rw [e]
                · cases hr
        have : 360 ≤ v.gst.abs := by rw [hv]; exact hg
        simp only [processTags_eq this]

end OsnmaData

theorem CollectSubframe.feed_time {s sf : CollectSubframe} {data : OsnmaDataMessage} {svn : Svn} {gst g : Gst} {hk : HkrootMessage} {m : MackMessage}
    (h : s.feed data svn gst = .ok (sf, some (hk, m, g))) : g = gst.subframe := by
  have e : (s.adjust gst).wn = gst.wn ∧ (s.adjust gst).subframe = gst.tow / 30 := by
    unfold adjust
    split
    · exact ⟨rfl, rfl⟩
    · rename_i hc
      exact ⟨by omega, by omega⟩
  unfold feed at h
  dsimp only at h
  obtain ⟨v, _, h⟩ := Res.bind_eq_ok.1 h
  split at h
  · cases h
  · obtain ⟨_, _, h⟩ := Res.bind_eq_ok.1 h
    obtain ⟨_, _, h⟩ := Res.bind_eq_ok.1 h
    obtain ⟨_, _, h⟩ := Res.bind_eq_ok.1 h
    obtain ⟨_, _, h⟩ := Res.bind_eq_ok.1 h
    obtain ⟨_, _, h⟩ := Res.bind_eq_ok.1 h
    obtain ⟨_, _, h⟩ := Res.bind_eq_ok.1 h
    obtain ⟨_, _, h⟩ := Res.bind_eq_ok.1 h
    split at h
    · obtain ⟨_, _, h⟩ := Res.bind_eq_ok.1 h
      obtain ⟨_, _, h⟩ := Res.bind_eq_ok.1 h
      have hw := gst.hwn
      rw [dif_pos (by rw [e.1]; exact hw)] at h
      obtain ⟨g', hg', h⟩ := Res.bind_eq_ok.1 h
      cases h
      unfold Gst.new at hg'
      split at hg'
      · cases hg'
        unfold Gst.subframe
        simp only [e.1, e.2]
      · cases hg'
    · cases h

/-- What makes the builds differ: a completed DSM-KROOT whose time is the origin of GST. -/
def NoKrootAtOrigin (o : Osnma C) (data : OsnmaDataMessage) (svn : Svn) (gst : Gst) : Prop :=
  ∀ h x, CompletesDsm o data svn gst h x → x.dsmType = .Kroot → ¬ (bitField x.data 36 12 = 0 ∧ bitField x.data 48 8 = 0)

theorem Osnma.feedOsnma_eq {o : Osnma C} {data : OsnmaDataMessage} {svn : Svn} {gst : Gst} (hg : 360 ≤ gst.subframe.abs)
    (hk : NoKrootAtOrigin o data svn gst) : o.feedOsnmaRelease S data svn gst = o.feedOsnma S data svn gst := by
  unfold feedOsnma feedOsnmaRelease
  split
  · rfl
  · rename_i hz
    refine Res.bind_congr_ok fun r hr => ?_
    obtain ⟨sf, out⟩ := r
    cases out with
    | none => rfl
    | some x =>
      obtain ⟨hkr, m, g⟩ := x
      have hgs := CollectSubframe.feed_time hr
      subst hgs
      dsimp only
      suffices hp : o.data.processSubframeRelease S hkr m svn gst.subframe = o.data.processSubframe S hkr m svn gst.subframe by rw [hp]
      unfold OsnmaDsm.processSubframe OsnmaDsm.processSubframeRelease
      obtain ⟨b0, b1, block, e⟩ := hkroot_cons hkr
      refine Res.bind_congr_ok fun b0' hb0 => ?_
      have : b0' = b0 := by rw [e] at hb0; cases hb0; rfl
      subst this
      refine Res.bind_congr_ok fun ms _ => Res.bind_congr_ok fun b1' hb1 => Res.bind_congr_ok fun bl hbl => Res.bind_congr_ok fun r hf => ?_
      have : b1' = b1 := by rw [e] at hb1; cases hb1; rfl
      subst this
      have hbl' : bl.val = block.val := by
        unfold CollectSubframe.toBytes at hbl
        split at hbl
        · cases hbl
          show hkr.val.drop 2 = _
          rw [e]; rfl
        · cases hbl
      obtain ⟨dsm, out⟩ := r
      cases out with
      | none => simp only [OsnmaData.validateKey_eq hg]
      | some x =>
        have : x.dsmType = .Kroot → ¬ (bitField x.data 36 12 = 0 ∧ bitField x.data 48 8 = 0) := by
          refine hk ⟨b0'⟩ x ⟨?_, sf, hkr, m, _, b1', bl, dsm, hr, by rw [e, hbl'], hf⟩
          apply Classical.byContradiction
          intro hc
          apply hz
          rw [List.all_eq_true]
          intro b hb
          by_cases hb0 : b = 0#8
          · simp [hb0]
          · exact absurd ⟨b, hb, hb0⟩ hc
        simp only [OsnmaData.validateKey_eq hg, OsnmaData.processDsm_eq this]

/-! ## C70 -/

/-- **C70.**  Without overflow checks, `add_seconds(s)` returns if and only if `s > -604800`, and then the time `s` seconds later modulo 65536 weeks. -/
theorem C70_add_seconds (g g' : Gst) (s : Int) (hs : IsI32 s) :
    g.addSecondsRelease s = .ok g' ↔ -604800 < s ∧ ∃ k : Int, g'.abs = g.abs + s + k * (65536 * 604800) := by
  rw [Gst.addSecondsRelease_eq_ok hs]
  constructor
  · rintro ⟨h1, h2⟩
    exact ⟨h1, (g'.abs - (g.abs + s)) / (65536 * 604800), by omega⟩
  · rintro ⟨h1, k, h2⟩
    exact ⟨h1, by omega⟩

/-- **C70.**  It returns if and only if `s > -604800`, wherever the result. -/
theorem C70_add_seconds_returns (g : Gst) (s : Int) (hs : IsI32 s) : (g.addSecondsRelease s).Returns ↔ -604800 < s := by
  constructor
  · rintro ⟨g', h⟩
    exact ((Gst.addSecondsRelease_eq_ok hs).1 h).1
  · intro h
    obtain ⟨g', hg⟩ := exists_gst (t := (g.abs + s) % (65536 * 604800)) ⟨by omega, by omega⟩
    exact ⟨g', (Gst.addSecondsRelease_eq_ok hs).2 ⟨h, by omega⟩⟩

/-- **C70.**  The same with `add_subframes`, whose multiplication by 30 wraps to 32 bits first. -/
theorem C70_add_subframes (g g' : Gst) (n : Int) :
    g.addSubframesRelease n = .ok g' ↔ ∃ s, IsI32 s ∧ (∃ j : Int, s = 30 * n + j * 4294967296) ∧ -604800 < s ∧
      ∃ k : Int, g'.abs = g.abs + s + k * (65536 * 604800) := by
  have hi : IsI32 (wrapI32 (n * 30)) := by unfold IsI32 wrapI32; omega
  unfold Gst.addSubframesRelease
  rw [C70_add_seconds _ _ _ hi]
  constructor
  · intro h
    exact ⟨_, hi, ⟨-((n * 30 + 2147483648) / 4294967296), by unfold wrapI32; omega⟩, h⟩
  · rintro ⟨s, hs, ⟨j, hj⟩, h⟩
    have : wrapI32 (n * 30) = s := by unfold wrapI32; unfold IsI32 at hs; omega
    rw [this]
    exact h

/-- **C70.**  Whatever the state: if a call returns in a build with overflow checks, it does the same without them. -/
theorem C70_call_same (o o' : Osnma C) (c : Call) (h : c.run S o = .ok o') : c.runRelease S o = .ok o' := by
  cases c with
  | inav w s g b => exact h
  | osnma d s g => exact Osnma.feedOsnma_le o d s g o' h

/-- **C70.**  The same for all histories of calls: in particular, what is proved in the other files of the state after a history holds of this build. -/
theorem C70_history_same (o o' : Osnma C) (calls : List Call) (h : run S o calls = .ok o') : runRelease S o calls = .ok o' := by
  unfold run at h
  exact Res.Le.loopM (fun o c => fun x hx => C70_call_same o x c hx) calls o o' h

/-- **C70.**  The same for the getters. -/
theorem C70_getters_same (o : Osnma C) (svn : Svn) (r : Option NavMessageData) :
    (o.getCedAndStatus S svn = .ok r → o.getCedAndStatusRelease S svn = .ok r) ∧
    (o.getTimingParameters S svn = .ok r → o.getTimingParametersRelease S svn = .ok r) :=
  ⟨fun h => CollectNavMessage.search_le _ _ _ _ _ _ h, fun h => CollectNavMessage.search_le _ _ _ _ _ _ h⟩

/-- **C70.**  Conversely, whatever the state, `feed_osnma` has the same outcome in both builds (even if it is a panic) from 6 minutes after the origin of
GST on, if it does not complete a DSM-KROOT whose time is the origin of GST. -/
theorem C70_call_agree (o : Osnma C) (data : OsnmaDataMessage) (svn : Svn) (gst : Gst) (hg : 360 ≤ gst.subframe.abs)
    (hk : NoKrootAtOrigin o data svn gst) : o.feedOsnmaRelease S data svn gst = o.feedOsnma S data svn gst := Osnma.feedOsnma_eq hg hk

/-- **C70.**  So the builds agree on all histories from week 1 on, unless the DSM-KROOT of some call has the time 0. -/
theorem C70_history_agree (o : Osnma C) (calls : List Call) (hw : ∀ c ∈ calls, 1 ≤ c.gst.wn)
    (hk : ∀ pre data svn gst post, calls = pre ++ .osnma data svn gst :: post → ∀ o', run S o pre = .ok o' → NoKrootAtOrigin o' data svn gst) :
    runRelease S o calls = run S o calls := by
  induction calls generalizing o with
  | nil => simp only [runRelease, run, loopM]
  | cons c cs ih =>
    have e : c.runRelease S o = c.run S o := by
      cases c with
      | inav w s g b => rfl
      | osnma d s g =>
        refine C70_call_agree o d s g ?_ (hk [] d s g cs rfl o rfl)
        have h1 : 1 ≤ g.wn := hw _ (List.mem_cons_self)
        rw [Gst.subframe_abs]
        unfold Gst.abs
        omega
    unfold runRelease run
    unfold loopM
    rw [e]
    cases hc : c.run S o with
    | panic w => rfl
    | ok o1 =>
      refine ih o1 (fun c hc => hw c (List.mem_cons_of_mem _ hc)) ?_
      intro pre data svn gst post he o' ho'
      refine hk (c :: pre) data svn gst post (by rw [he]; rfl) o' ?_
      unfold run loopM
      rw [hc]
      exact ho'

/-- **C70.**  The getters agree after all histories whose navigation data is from week 1 on. -/
theorem C70_getters_agree (hS : S.Consistent) {o0 o : Osnma C} (h0 : o0.Fresh S) {hist : List Call} (h : run S o0 hist = .ok o)
    (hw : ∀ c ∈ hist, 1 ≤ c.gst.wn) (svn : Svn) :
    o.getCedAndStatusRelease S svn = o.getCedAndStatus S svn ∧ o.getTimingParametersRelease S svn = o.getTimingParameters S svn := by
  have hweek : ∀ c ∈ inavsOf hist, 7650 ≤ c.gst.abs := by
    intro c hc
    unfold inavsOf at hc
    obtain ⟨c', hc', e⟩ := List.mem_filterMap.1 hc
    have h1 := hw c' hc'
    cases c' with
    | osnma _ _ _ => cases e
    | inav w s g b =>
      cases e
      change 1 ≤ g.wn at h1
      show 7650 ≤ g.abs
      unfold Gst.abs
      omega
  constructor
  · obtain ⟨r, hr⟩ := C38_get_returns hS h0 h hweek .ced svn
    change o.getCedAndStatus S svn = .ok r at hr
    rw [hr, (C70_getters_same o svn r).1 hr]
  · obtain ⟨r, hr⟩ := C38_get_returns hS h0 h hweek .timing svn
    change o.getTimingParameters S svn = .ok r at hr
    rw [hr, (C70_getters_same o svn r).2 hr]

end Verif

namespace Verif.Sim

/-- A DSM-KROOT signed by key 1 whose time is the origin of GST. -/
def originKroot : List Byte := signKroot hdr1 1 {
    nb := 2, pkid := 1, cidkr := 1, rsvd1 := 0, hf := 0, mf := 0, ks := 4, ts := 9, maclt := 33,
    rsvd2 := 0, wn := 0, towh := 0, alpha := 0x112233445566, kroot := lateRoot,
    signature := [], padding := [] }

/-- The time of the current TESLA key after a history, in the build without checks. -/
def currentTimeRelease (h : List Call) : Option (Nat × Nat) :=
  match runRelease S withKey h with
  | .ok o => o.data.data.key.currentKey.map (fun k => (k.gst.wn, k.gst.tow))
  | .panic _ => none

theorem originKroot_panics : panicsAtLast S withKey (sendDsm hdr1 3 8 36000 originKroot) = true := by decide +kernel

theorem originKroot_release : currentTimeRelease (sendDsm hdr1 3 8 36000 originKroot) = some (65535, 604770) := by decide +kernel

end Verif.Sim

namespace Verif
open Sim

/-- **C70, the difference.**  A signed DSM-KROOT with time 0 makes the library panic with overflow checks; without them, the TESLA root key is stored with a
time at the end of week 65535. -/
theorem C70_origin_kroot : ∃ (hist : List Call) (c : Call) (o o' : Osnma Sim.toy) (k : Key), run Sim.S Sim.withKey hist = .ok o ∧ (c.run Sim.S o).Panics ∧
    c.runRelease Sim.S o = .ok o' ∧ o'.data.data.key.currentKey = some k ∧ k.gst.wn = 65535 ∧ k.gst.tow = 604770 := by
  obtain ⟨hist, c, o, e, h1, h2⟩ := panicsAtLast_some originKroot_panics
  have hr := originKroot_release
  unfold currentTimeRelease at hr
  have hh : runRelease Sim.S Sim.withKey (sendDsm hdr1 3 8 36000 originKroot) = c.runRelease Sim.S o := by
    rw [e]
    unfold runRelease
    rw [loopM_append]
    have := C70_history_same _ _ _ h1
    unfold runRelease at this
    rw [this]
    dsimp only
    unfold loopM
    cases c.runRelease Sim.S o <;> rfl
  rw [hh] at hr
  cases ho : c.runRelease Sim.S o with
  | panic w => rw [ho] at hr; cases hr
  | ok o' =>
    rw [ho] at hr
    dsimp only at hr
    cases hk : o'.data.data.key.currentKey with
    | none => rw [hk] at hr; cases hr
    | some k =>
      rw [hk] at hr
      simp only [Option.map_some, Option.some.injEq, Prod.mk.injEq] at hr
      exact ⟨hist, c, o, o', k, h1, h2, ho, hk, hr.1, hr.2⟩

/-- A key at the end of time is never superseded: no key follows it. -/
theorem C70_origin_kroot_stuck (d : OsnmaData C) (m : MackMessage) (g : Gst) (k : Key) (hk : d.key.currentKey = some k) (h1 : k.gst.wn = 65535)
    (h2 : k.gst.tow = 604770) (hg : g.isSubframe) : d.validateKeyRelease S m g = .ok d := by
  unfold OsnmaData.validateKeyRelease
  rw [hk]
  dsimp only
  have hkey := Mack.key_ok m k.chain
  unfold mackOf at hkey
  rw [hkey, Res.ok_bind]
  have hf : Key.fromBitslice (((bitsOf m.val).drop (k.chain.numTags * (k.chain.tagSizeBits + 16))).take (8 * k.chain.keySizeBytes)) g k.chain
      = .ok (mackKey m k.chain g) := by
    unfold Key.fromBitslice Key.checkGst
    rw [hg, Mack.key_length]
    simp only [Res.assert_true, Res.ok_bind]
    rw [show (8 * k.chain.keySizeBytes == k.chain.keySizeBytes * 8) = true by rw [Nat.mul_comm]; exact beq_self_eq_true _]
    rfl
  rw [hf, Res.ok_bind]
  rw [show (mackKey m k.chain g).gst = g from rfl]
  have hc : Gst.cmp k.gst g ≠ .lt := by
    rw [ne_eq, Gst.cmp_lt]
    have h3 := g.hwn
    have h4 := g.htow
    unfold Gst.isSubframe at hg
    simp only [beq_iff_eq] at hg
    unfold Gst.abs
    omega
  cases hcmp : Gst.cmp k.gst g with
  | lt => exact absurd hcmp hc
  | eq => rfl
  | gt => rfl

/-! ## Examples -/

namespace Sim

/-- Evaluates whether the call completes a DSM-KROOT of time 0. -/
def noOrigin (o : Osnma C) (data : OsnmaDataMessage) (svn : Svn) (gst : Gst) : Bool :=
  match o.subframe.feed data svn gst with
  | .ok (_, some (hk, _, _)) =>
    match index hk.val 1, CollectSubframe.toBytes 13 (hk.val.drop 2) with
    | .ok b1, .ok block =>
      match o.data.dsm.feed ⟨b1⟩ block with
      | .ok (_, some x) => !(decide (bitField x.data 36 12 = 0) && decide (bitField x.data 48 8 = 0))
      | _ => true
    | _, _ => true
  | _ => true

theorem noOrigin_sound {o : Osnma C} {data : OsnmaDataMessage} {svn : Svn} {gst : Gst} (h : noOrigin o data svn gst = true) :
    NoKrootAtOrigin o data svn gst := by
  rintro hd x ⟨_, sf, hk, m, g, b1, block, c, hf, he, hx⟩ _ ⟨h1, h2⟩
  unfold noOrigin at h
  rw [hf] at h
  dsimp only at h
  have hb1 : index hk.val 1 = .ok b1 := by rw [he]; rfl
  have hb : CollectSubframe.toBytes 13 (hk.val.drop 2) = .ok block := by
    unfold CollectSubframe.toBytes
    have : hk.val.drop 2 = block.val := by rw [he]; rfl
    rw [dif_pos (by rw [this]; exact block.property)]
    exact congrArg Res.ok (Subtype.ext this)
  rw [hb1, hb] at h
  dsimp only at h
  rw [hx] at h
  simp [h1, h2] at h

/-- The same for all calls of a history that returns. -/
def noOrigins (S : Storage) : Osnma C → List Call → Bool
  | _, [] => true
  | o, c :: cs =>
    (match c with
      | .osnma data svn gst => noOrigin o data svn gst
      | .inav _ _ _ _ => true) &&
    match c.run S o with
    | .ok o' => noOrigins S o' cs
    | .panic _ => true

theorem noOrigins_sound {calls : List Call} {o : Osnma C} (h : noOrigins S o calls = true) : ∀ pre data svn gst post,
    calls = pre ++ .osnma data svn gst :: post → ∀ o', run S o pre = .ok o' → NoKrootAtOrigin o' data svn gst := by
  induction calls generalizing o with
  | nil => intro pre data svn gst post he; simp at he
  | cons c cs ih =>
    intro pre data svn gst post he o' ho'
    unfold noOrigins at h
    rw [Bool.and_eq_true] at h
    cases pre with
    | nil =>
      simp only [List.nil_append, List.cons.injEq] at he
      obtain ⟨rfl, rfl⟩ := he
      simp only [run, loopM, Res.ok.injEq] at ho'
      subst ho'
      exact noOrigin_sound h.1
    | cons p pre =>
      simp only [List.cons_append, List.cons.injEq] at he
      obtain ⟨rfl, he⟩ := he
      unfold run loopM at ho'
      have h2 := h.2
      cases hc : c.run S o with
      | panic w => rw [hc] at ho'; cases ho'
      | ok o1 =>
        rw [hc] at ho' h2
        exact ih h2 pre data svn gst post he o' ho'

end Sim

/-- A complete scenario (a DSM-KROOT, TESLA keys, navigation data and tags) to which the theorems apply: both builds authenticate the same. -/
example : runRelease Sim.S Sim.withKey (nominal 8) = run Sim.S Sim.withKey (nominal 8) :=
  C70_history_agree _ _ (by decide +kernel) (Sim.noOrigins_sound (by decide +kernel))

/-- The theorem on the blocked receiver applies after `C70_origin_kroot`. -/
example : ∃ (o' : Osnma Sim.toy), ∀ (m : MackMessage) (g : Gst), g.isSubframe → o'.data.data.validateKeyRelease Sim.S m g = .ok o'.data.data := by
  obtain ⟨_, _, _, o', k, _, _, _, hk, h1, h2⟩ := C70_origin_kroot
  exact ⟨o', fun m g hg => C70_origin_kroot_stuck _ m g k hk h1 h2 hg⟩

/-- In the first 6 minutes of week 0 the builds differ. -/
example : (⟨0, 0, by decide, by decide⟩ : Gst).addSecondsRelease (-30) = .ok ⟨65535, 604770, by decide, by decide⟩ := by decide +kernel
example : ((⟨0, 0, by decide, by decide⟩ : Gst).addSeconds (-30)).Panics := ⟨_, rfl⟩

end Verif
