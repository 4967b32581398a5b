import Verif.Lemmas.PanicIff
import Verif.Tests.Scenarios

/-! # C39: exactly which received data makes `feed_osnma` panic; C40: all-zero OSNMA data -/

namespace Verif
open Osnma OsnmaData

variable {C : Crypto} {S : Storage} {root0 : Option MerkleTreeNode} {pk0 : Option (PublicKey C)} {slow : Bool}
  {hist : List Call} {log : List (KeyEvent C)} {o : Osnma C}

/-- **C39, the part that holds.**  The claim "`feed_osnma` never panics" is false of this code (see the
counterexamples below).  This is exactly when it panics, for every history of calls and every page: the
page completes a DSM which is not harmless: a DSM-KROOT that names a stored public key but has an
impossible size, or the right padding and an undecodable signature (or is signed and has an invalid
time), or a DSM-PKR too short for its P-521 key (or that proves an invalid key), with a Merkle tree root loaded.
Assumed: the subframe is not among the first 12 of week 0, and the chain parameters that were *signed*
by the operator are sensible. -/
theorem C39_panics_iff_partial (hS : S.Consistent) {o0 : Osnma C} (h0 : o0.Fresh S) (hl : Logs S o0 hist log o)
    (data : OsnmaDataMessage) (svn : Svn) (gst : Gst) (hg : 360 ≤ gst.subframe.abs)
    (hs : SensibleLog (log ++ o.events S (.osnma data svn gst))) :
    (o.feedOsnma S data svn gst).Panics ↔
      ∃ h x, CompletesDsm o data svn gst h x ∧
        ¬ HarmlessDsm o.data.data.pubkey.current o.data.data.pubkey.next o.data.data.merkleTree h x := by
  obtain ⟨root, pk, slow, rfl⟩ := h0.new
  have hiff := feedOsnma_returns_iff hS h0 hl data svn gst hg hs
  constructor
  · rintro ⟨w, hw⟩
    apply Classical.byContradiction
    intro hc
    obtain ⟨o', ho'⟩ := hiff.2 (fun h x hx => Classical.byContradiction fun hn => hc ⟨h, x, hx, hn⟩)
    rw [hw] at ho'
    cases ho'
  · rintro ⟨h, x, hx, hn⟩
    cases hf : o.feedOsnma S data svn gst with
    | panic w => exact ⟨w, rfl⟩
    | ok o' => exact absurd (hiff.1 ⟨o', hf⟩ h x hx) hn

/-- **C39, in terms of what was received.**  If every DSM that the page completes is harmless for the
public keys trusted so far and the Merkle tree root given at construction, then `feed_osnma` does not panic.
In particular it does not panic when the page completes no DSM. -/
theorem C39_harmless_returns_partial (hS : S.Consistent) (h0 : (Osnma.new S root0 pk0 slow : Osnma C).Fresh S)
    (hl : Logs S (Osnma.new S root0 pk0 slow) hist log o)
    (data : OsnmaDataMessage) (svn : Svn) (gst : Gst) (hg : 360 ≤ gst.subframe.abs)
    (hs : SensibleLog (log ++ o.events S (.osnma data svn gst)))
    (hh : ∀ h x, CompletesDsm o data svn gst h x →
      (x.dsmType = .Kroot → ∀ pk, TrustedPk pk0 log pk → pk.pkid = bitField x.data 4 4 → HarmlessKroot C pk.key h x.data) ∧
      (x.dsmType = .Pkr → ∀ r, root0 = some r → HarmlessPkr C r.val x.data)) :
    (o.feedOsnma S data svn gst).Returns := by
  refine (feedOsnma_returns_iff hS h0 hl data svn gst hg hs).2 fun h x hx => ?_
  have hinv := keyInv_run hl
  obtain ⟨a, b⟩ := hh h x hx
  unfold HarmlessDsm
  cases ht : x.dsmType with
  | Kroot =>
    intro pk hpk he
    exact a ht pk (hinv.ptrust pk hpk) he
  | Pkr =>
    intro r hr
    rcases hinv.root with hr' | hr'
    · rw [hr'] at hr; cases hr
    · rw [hr'] at hr
      exact b ht r hr

/-- Non-vacuity: the usual chain parameters are sensible, so a log with any KROOTs of that chain is. -/
example : SensibleChains (Sim.chain 1) (Sim.chain 1) := by
  refine ⟨(fun h => by cases h), ?_⟩
  intro half slots hs j hj
  change (icdMaclt 33).map (fun r => if half = 0 then r.1 else r.2) = some slots at hs
  change j < (480 - 8 * 16) / (40 + 16)
  have h33 : ∃ r, icdMaclt 33 = some r ∧ (∀ j ∈ flexSlots r.1, j < 6) ∧ ∀ j ∈ flexSlots r.2, j < 6 :=
    ⟨_, rfl, by decide, by decide⟩
  obtain ⟨r, hr, ha, hb⟩ := h33
  rw [hr, Option.map_some] at hs
  have hs := Option.some.inj hs
  subst hs
  split at hj
  · exact ha j hj
  · exact hb j hj

/-- **C39 fails**: seven subframes with the blocks of a DSM-KROOT made without any secret (NB = 1, KS = 8, a
known PKID) make `feed_osnma` panic. -/
theorem C39_counterexample_short_kroot : ∃ (hist : List Call) (c : Call) (o : Osnma Sim.toy),
    hist ++ [c] = Sim.sendDsm Sim.hdr1 3 7 36000 Sim.shortKroot ∧ run Sim.S Sim.withKey hist = .ok o ∧ (c.run Sim.S o).Panics := by
  obtain ⟨hist, c, o, h1, h2, h3⟩ := Sim.panicsAtLast_some Sim.shortKroot_panics
  exact ⟨hist, c, o, h1.symm, h2, h3⟩

/-- **C39 fails**: the same with a DSM-KROOT that has a signature of zero bytes and the right (public) padding. -/
theorem C39_counterexample_bad_signature : ∃ (hist : List Call) (c : Call) (o : Osnma Sim.toy),
    hist ++ [c] = Sim.sendDsm Sim.hdr1 3 8 36000 (Sim.zeroSigKroot Sim.hdr1) ∧ run Sim.S Sim.withKey hist = .ok o ∧ (c.run Sim.S o).Panics := by
  obtain ⟨hist, c, o, h1, h2, h3⟩ := Sim.panicsAtLast_some Sim.zeroSigKroot_panics
  exact ⟨hist, c, o, h1.symm, h2, h3⟩

/-- **C39 fails**: the same with a DSM-PKR of 13 blocks that announces a P-521 key, in a receiver with a Merkle
tree root. -/
theorem C39_counterexample_short_pkr : ∃ (hist : List Call) (c : Call) (o : Osnma Sim.toy),
    hist ++ [c] = Sim.sendDsm Sim.hdr1 13 13 36000 Sim.shortPkr ∧ run Sim.S Sim.withRoot hist = .ok o ∧ (c.run Sim.S o).Panics := by
  obtain ⟨hist, c, o, h1, h2, h3⟩ := Sim.panicsAtLast_some Sim.shortPkr_panics
  exact ⟨hist, c, o, h1.symm, h2, h3⟩

/-- A call of `feed_osnma` with five zero bytes. -/
def Call.isZeroOsnma : Call → Prop
  | .inav .. => False
  | .osnma data _ _ => data.val = List.replicate 5 0#8

instance : DecidablePred Call.isZeroOsnma := fun c => by
  cases c <;> unfold Call.isZeroOsnma <;> infer_instance

theorem Call.isZeroOsnma.run {c : Call} (hc : c.isZeroOsnma) (o : Osnma C) :
    c.run S o = .ok o ∧ o.events S c = [] := by
  cases c with
  | inav => exact absurd hc id
  | osnma data svn gst =>
    have : data.val.all (fun x => x == 0#8) = true := by
      rw [show data.val = List.replicate 5 0#8 from hc]; decide
    constructor
    · show o.feedOsnma S data svn gst = _
      unfold feedOsnma
      rw [if_pos this]; rfl
    · unfold Osnma.events
      simp only [this, if_true]

/-- **C40.** All-zero OSNMA data changes nothing: any history leads to the same result (final state or
panic), hence the same results of all later calls, as the history without the all-zero calls. -/
theorem C40_zero_ignored (o : Osnma C) (hist : List Call) :
    run S o hist = run S o (hist.filter (fun c => ¬ c.isZeroOsnma)) := by
  unfold run
  induction hist generalizing o with
  | nil => rfl
  | cons c hist ih =>
    by_cases hc : c.isZeroOsnma
    · rw [List.filter_cons_of_neg (by simpa using hc), loopM_cons, (hc.run o).1]
      exact ih o
    · rw [List.filter_cons_of_pos (by simpa using hc), loopM_cons, loopM_cons]
      cases hr : c.run S o with
      | panic w => rfl
      | ok o' => exact ih o'

/-- **C40.** … and logs the same messages. -/
theorem C40_zero_logs_nothing {o0 : Osnma C} (h : Logs S o0 hist log o) :
    Logs S o0 (hist.filter (fun c => ¬ c.isZeroOsnma)) log o := by
  induction h with
  | nil => exact .nil
  | snoc c h hc ih =>
    rename_i hist1 log1 o1 o2
    rw [List.filter_append]
    by_cases hz : c.isZeroOsnma
    · obtain ⟨h1, h2⟩ := hz.run (S := S) o1
      rw [h2, List.append_nil]
      rw [List.filter_cons_of_neg (by simpa using hz), List.filter_nil, List.append_nil]
      rw [h1] at hc
      cases hc
      exact ih
    · rw [List.filter_cons_of_pos (by simpa using hz), List.filter_nil]
      exact .snoc c ih hc

/-- Non-vacuity: such calls exist, and are filtered from a history. -/
example : (Call.osnma (Bytes.zero 5) (Sim.sv 1) (Sim.gst 0)).isZeroOsnma := rfl

end Verif
