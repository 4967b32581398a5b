import Verif.Props.Complete
import Verif.Tests.Scenarios

/-! # The places of the navigation data store (C65) -/

namespace Verif
open CollectNavMessage

variable {S : Storage} {C : Crypto} {root0 : Option MerkleTreeNode} {pk0 : Option (PublicKey C)} {slow : Bool}

/-! ## One word changes one place -/

/-- **C65, one place.**  A word fed changes one place of the current subframe, for each kind of data: that of its satellite if it has one;
otherwise a free one; and if there is none, one whose oldest field is the oldest of all.  The other places keep satellite, data and
authentication bits; their ages grow by one with a new subframe. -/
theorem C65_one_place (hS : S.Consistent) {o0 o o' : Osnma C} (h0 : o0.Fresh S) {hist : List Call} (h : run S o0 hist = .ok o)
    {w : InavWord} {svn : Svn} {g : Gst} {band : InavBand} (hc : o.feedInav S w svn g band = .ok o') (kd : NavKind)
    {s : NavSlot} (hs : (o.stored S)[0]? = some s) :
    ∃ s' i x x', (o'.stored S)[0]? = some s' ∧ (s'.items kd).length = (s.items kd).length ∧
      (s.items kd)[i]? = some x ∧ (s'.items kd)[i]? = some x' ∧ x'.svn = some svn ∧
      (x.svn = some svn ∨ ((∀ y ∈ s.items kd, y.svn ≠ some svn) ∧
        (x.svn = none ∨ ∀ y ∈ s.items kd, y.svn ≠ none ∧
          (if s.gst = g.subframe then y else y.older).maxAge ≤ (if s.gst = g.subframe then x else x.older).maxAge))) ∧
      ∀ (j : Nat) (y : NavItem), j ≠ i → (s.items kd)[j]? = some y →
        (s'.items kd)[j]? = some { y with age := if s.gst = g.subframe then y.age else y.age.map (fun a => min 255 (a + 1)) } := by
  have hinv := navInv_run hS h0 h
  have hinv' := hinv.inav hS (c := ⟨w, svn, g, band⟩) hc
  have hst : o'.stored S = navStep S (o.stored S) ⟨w, svn, g, band⟩ := Rep.stored hinv'.rep
  have hhead : (o.stored S).head? = some s := by rw [List.head?_eq_getElem?]; exact hs
  have hg := hinv.good hS kd (List.mem_of_getElem? hs)
  have hb : NavSlot.Good S.numSats kd ((NavSlot.base S.numSats g.subframe (some s)).items kd) :=
    NavSlot.Good.base (fun t ht => by cases ht; exact hg)
  have hbi : (NavSlot.base S.numSats g.subframe (some s)).items kd = (s.items kd).map (fun y => if s.gst = g.subframe then y else y.older) := by
    rcases NavSlot.base_items S.numSats g.subframe (some s) kd with ⟨h, _⟩ | ⟨t, ht, ⟨h1, h2⟩ | ⟨h1, h2⟩⟩
    · cases h
    · cases ht; rw [h2]; simp [h1]
    · cases ht; rw [h2]; simp [h1]
  have hsvn : ∀ y : NavItem, (if s.gst = g.subframe then y else y.older).svn = y.svn := by intro y; split <;> rfl
  obtain ⟨i, x0, e1, e2, e3, _⟩ := hb.upd hS.sats_pos ⟨w, svn, g, band⟩
  rw [hbi, List.getElem?_map, Option.map_eq_some_iff] at e1
  obtain ⟨x, hx, rfl⟩ := e1
  have hil := (List.getElem?_eq_some_iff.1 hx).1
  refine ⟨NavSlot.step S.numSats (some s) ⟨w, svn, g, band⟩, i, x,
    NavItem.feedUpd (kd.upd ⟨w, svn, g, band⟩) svn (if s.gst = g.subframe then x else x.older), by rw [hst, ← hhead]; rfl, ?_, hx, ?_, ?_, ?_, ?_⟩
  · rw [NavSlot.step_items, e2, hbi]; simp
  · rw [NavSlot.step_items, e2, hbi, List.getElem?_set_self (by simpa using hil)]
  · exact NavItem.feedUpd_svn _ _ _
  · rcases e3 with e3 | ⟨e3, e4⟩
    · rw [hsvn] at e3; exact .inl e3
    · refine .inr ⟨?_, ?_⟩
      · intro y hy
        have := e3 _ (by rw [hbi]; exact List.mem_map_of_mem hy)
        rwa [hsvn] at this
      · rcases e4 with e4 | e4
        · rw [hsvn] at e4; exact .inl e4
        · refine .inr ?_
          intro y hy
          have := e4 _ (by rw [hbi]; exact List.mem_map_of_mem hy)
          rw [hsvn] at this
          exact this
  · intro j y hj hy
    rw [NavSlot.step_items, e2, hbi, List.getElem?_set_ne (Ne.symm hj), List.getElem?_map, hy]
    simp only [Option.map_some, Option.some.injEq]
    split <;> rfl

/-! ## Who keeps a place -/

/-- **C65, kept.**  A satellite that keeps its place has an entry in the current subframe with the last copy of each field received since
then, and its age; with all of them, the entry is the data the satellite sends. -/
theorem C65_kept (hS : S.Consistent) {o0 o : Osnma C} (h0 : o0.Fresh S) {hist : List Call} (h : run S o0 hist = .ok o)
    (hchr : Chronological (inavsOf hist)) (kd : NavKind) {v : Svn} {q r : List InavCall} (hsplit : inavsOf hist = q ++ r)
    (hk : KeepsPlace S kd q v r) :
    ∃ s x, (o.stored S)[0]? = some s ∧ x ∈ s.items kd ∧ x.svn = some v ∧
      (∀ (i : Nat) (f : NavField) (c : InavCall), kd.fields[i]? = some f → kd.latest r v f = some c →
        (x.data.drop ((kd.fields.take i).map NavField.len).sum).take f.len = f.bits c ∧ x.age[i]? = some (kd.fieldAge r v f)) ∧
      ((∀ f ∈ kd.fields, ∃ c, kd.latest r v f = some c) → x.data.take kd.nbits = kd.expected (inavsOf hist) v) := by
  have hinv := navInv_run hS h0 h
  obtain ⟨r', l, hr⟩ := hk.last
  have hne : navHead S (q ++ r) = some (NavSlot.step S.numSats (navHead S (q ++ r')) l) := by
    rw [hr, ← List.append_assoc, navHead_snoc]
  cases hst : o.stored S with
  | nil =>
    exfalso
    have := hinv.core
    rw [hst, hsplit] at this
    unfold navHead at hne
    rw [← this] at hne
    cases hne
  | cons s rest =>
    have hhead : navHead S (q ++ r) = some s.core := by
      unfold navHead
      rw [← hsplit, ← hinv.core, hst]; rfl
    obtain ⟨y, hy, hh⟩ := hk.holder hS.sats_pos (by rw [← hsplit]; exact hchr) _ hhead
    rw [NavSlot.core_items] at hy
    obtain ⟨x, hx, rfl⟩ := List.mem_map.1 hy
    refine ⟨s, x, rfl, hx, hh.svn, fun i f c hf hc => hh.field i f c hf hc, ?_⟩
    intro hall
    rw [hsplit]
    exact hh.complete hall

/-- With a place for each satellite ever heard, all of them keep theirs. -/
theorem C65_fits (kd : NavKind) {q r : List InavCall} (c : InavCall) (hf : Fits S (q ++ c :: r)) : KeepsPlace S kd q c.svn (c :: r) :=
  KeepsPlace.of_fits kd c hf

/-- **C65, in view.**  A satellite that has a place with all its fields keeps it, with its data, while its oldest field is less than `K`
subframes old and no more satellites are in view than there are places: those heard in the last `K` subframes seen. -/
theorem C65_in_view (hS : S.Consistent) {o0 o : Osnma C} (h0 : o0.Fresh S) {hist : List Call} (h : run S o0 hist = .ok o)
    (hchr : Chronological (inavsOf hist)) (kd : NavKind) {v : Svn} {q r t : List InavCall} (hsplit : inavsOf hist = q ++ (r ++ t))
    (hk : KeepsPlace S kd q v r) {K : Nat} (hK : 0 < K) (hK' : K ≤ 255)
    (hage : ∀ t1 t2, t = t1 ++ t2 → kd.oldestAge (r ++ t1) v < K)
    (hview : ∀ t1 t2, t = t1 ++ t2 → (heardWithin K (q ++ (r ++ t1))).length ≤ S.numSats) :
    KeepsPlace S kd q v (r ++ t) ∧
    ∃ s x, (o.stored S)[0]? = some s ∧ x ∈ s.items kd ∧ x.svn = some v ∧ x.data.take kd.nbits = kd.expected (inavsOf hist) v := by
  have hk' := hk.in_view hK hK' (by rw [← hsplit]; exact hchr) hage hview
  refine ⟨hk', ?_⟩
  obtain ⟨s, x, h1, h2, h3, _, h5⟩ := C65_kept hS h0 h hchr kd hsplit hk'
  refine ⟨s, x, h1, h2, h3, h5 ?_⟩
  intro f hf
  have h1 := hage t [] (by simp)
  have h2 : kd.fieldAge (r ++ t) v f ≤ kd.oldestAge (r ++ t) v :=
    ((NavItem.foldl_max_le (l := kd.fields.map (kd.fieldAge (r ++ t) v)) (a := 0)).1 (Nat.le_refl _)).2 _ (List.mem_map_of_mem hf)
  unfold NavKind.fieldAge at h2
  split at h2
  · exact ⟨_, by assumption⟩
  · omega

/-- The words of a part of the history. -/
theorem inavsOf_take_prefix {hist : List Call} {n i : Nat} (hi : n ≤ i) :
    ∃ t t', inavsOf (hist.take i) = inavsOf (hist.take n) ++ t ∧ inavsOf hist = inavsOf (hist.take i) ++ t' := by
  refine ⟨inavsOf ((hist.take i).drop n), inavsOf (hist.drop i), ?_, ?_⟩
  · unfold inavsOf
    rw [← List.filterMap_append, show hist.take n = (hist.take i).take n by rw [List.take_take, Nat.min_eq_left hi], List.take_append_drop]
  · unfold inavsOf
    rw [← List.filterMap_append, List.take_append_drop]

/-- **C65, genuine data of a satellite in view.**  As C52, for any number of satellites heard: it is enough that the satellite has a place,
with all its fields, from call number `n` on. -/
theorem C65_genuine_data_in_view (hS : S.Consistent) (h0 : (Osnma.new S root0 pk0 slow : Osnma C).Fresh S) {hist : List Call}
    {o : Osnma C} (h : run S (Osnma.new S root0 pk0 slow) hist = .ok o) (hchr : Chronological (inavsOf hist))
    (hweek : ∀ c ∈ inavsOf hist, 7650 ≤ c.gst.abs) (kd : NavKind) (v : Svn) (bits : List Bool) (n : Nat)
    {q r0 r : List InavCall} (hsplit : inavsOf hist = q ++ r) (hsplit0 : inavsOf (hist.take n) = q ++ r0)
    (hk : KeepsPlace S kd q v r) (hfed : ∀ f ∈ kd.fields, ∃ c, kd.latest r0 v f = some c)
    (hsame : ∀ i, n ≤ i → i ≤ hist.length → kd.expected (inavsOf (hist.take i)) v = bits)
    (due : List (Nat × TagUse)) (hnd : due.Nodup)
    (hdue : ∀ p ∈ due, n ≤ p.1 ∧ TagDue S (Osnma.new S root0 pk0 slow) slow hist kd v bits p.1 p.2)
    (hsince : ∀ p ∈ due, ∀ c ∈ q, c.svn = v → c.gst.subframe.abs < p.2.gst.abs - 30 * p.2.tag.cop)
    (hn : n ≤ hist.length) (henough : 40 ≤ (due.map (fun p => p.2.tag.tag.length)).sum) :
    ∃ d, o.get S kd v = .ok (some d) ∧ d.data = bits ∧ min 65535 (due.map (fun p => p.2.tag.tag.length)).sum ≤ d.authbits := by
  have hr0 : r0 ≠ [] := by
    obtain ⟨f, hf⟩ := kd.fields_nonempty
    obtain ⟨c, hc⟩ := hfed f hf
    rintro rfl
    cases hc
  have key : ∀ i, n ≤ i → ∃ ri, inavsOf (hist.take i) = q ++ ri ∧ KeepsPlace S kd q v ri ∧ (∀ f ∈ kd.fields, ∃ c, kd.latest ri v f = some c) ∧
      Chronological (inavsOf (hist.take i)) := by
    intro i hi
    obtain ⟨t, t', h1, h2⟩ := inavsOf_take_prefix (hist := hist) hi
    have hri : inavsOf (hist.take i) = q ++ (r0 ++ t) := by rw [h1, hsplit0, List.append_assoc]
    refine ⟨r0 ++ t, hri, ?_, ?_, ?_⟩
    · rw [hri, hsplit, List.append_assoc] at h2
      exact hk.prefix (List.append_cancel_left h2) (fun hc => hr0 (List.append_eq_nil_iff.1 hc).1)
    · intro f hf
      obtain ⟨c, hc⟩ := hfed f hf
      unfold NavKind.latest at hc ⊢
      rw [List.filter_append, List.getLast?_append]
      cases ((t.filter _).getLast?) with
      | some d => exact ⟨d, rfl⟩
      | none => exact ⟨c, hc⟩
    · intro j a b ha hb
      have l1 := (List.getElem?_eq_some_iff.1 ha).1
      have l2 := (List.getElem?_eq_some_iff.1 hb).1
      exact hchr j a b (by rw [h2, List.getElem?_append_left l1]; exact ha) (by rw [h2, List.getElem?_append_left l2]; exact hb)
  refine genuine_core hS h0 h hweek kd v bits n ?_ due hnd hdue ?_ hn henough
  · intro i hi hi'
    obtain ⟨ri, h1, h2, h3, h4⟩ := key i hi
    obtain ⟨oi, hoi⟩ := run_prefix (a := hist.take i) (b := hist.drop i) (by rw [List.take_append_drop]; exact h)
    obtain ⟨s, x, e1, e2, e3, _, e5⟩ := C65_kept hS h0 hoi h4 kd h1 h2
    exact ⟨oi, s, x, hoi, e1, e2, e3, by rw [e5 h3, hsame i hi hi']⟩
  · intro p hp
    obtain ⟨ri, h1, h2, _, _⟩ := key p.1 (hdue p hp).1
    exact ⟨q, ri, h1, h2, hsince p hp⟩

/-! ## A satellite in view can fail to keep a place -/

namespace Sim

/-- A store with three places. -/
def S3 : Storage := ⟨3, 2, 6, 2, 6⟩

/-- Satellites send all their words with CED in a subframe, taking turns; the data of each is different. -/
def turns (svns : List Nat) (tow : Nat) : List Call :=
  [1, 2, 3, 4, 5].flatMap (fun ty => svns.map (fun v => Call.inav (word ty (16 * v + 1)) (sv v) (gst tow) .E1B))

/-- Satellites 1, 2 and 3 in one subframe; from then on 1, 4 and 5, for six subframes. -/
def starving : List Call := turns [1, 2, 3] 36000 ++ (List.range 6).flatMap (fun i => turns [1, 4, 5] (36030 + 30 * i))

def receiver3 : Osnma toy := Osnma.fromPubkey S3 (pub 1) false

/-- The subframes stored, after a run. -/
def storedAfter (o0 : Osnma toy) (S : Storage) (h : List Call) : Option (List NavSlot) :=
  match run S o0 h with
  | .ok o => some (o.stored S)
  | .panic _ => none

theorem storedAfter_some {o0 : Osnma toy} {S : Storage} {h : List Call} {L : List NavSlot} (hs : storedAfter o0 S h = some L) :
    ∃ o, run S o0 h = .ok o ∧ o.stored S = L := by
  unfold storedAfter at hs
  cases hr : run S o0 h with
  | panic w => rw [hr] at hs; cases hs
  | ok o => rw [hr] at hs; exact ⟨o, rfl, Option.some.inj hs⟩

end Sim

open Sim in
/-- **C65 in full is false.**  With three places, satellites 1, 2 and 3 received completely, and then only satellites 1, 4 and 5, each with
all its words in every subframe: six subframes later no entry of a subframe stored for 1, 4 or 5 is good for any tag (the oldest field is more
than 15 subframes old, the greatest COP a tag can have), but satellites 2 and 3, which have not been heard since, still have theirs.  A
satellite that gets a place has no fields yet, which counts as very old, so that the three satellites in view take the same place from each
other at every word. -/
theorem C65_starvation_counterexample : ∃ o, run S3 receiver3 starving = .ok o ∧ Chronological (inavsOf starving) ∧
    (heardWithin 6 (inavsOf starving)).map Svn.val = [1, 4, 5] ∧ S3.numSats = 3 ∧
    (∀ s ∈ o.stored S3, ∀ x ∈ s.items .ced, ∀ v ∈ [sv 1, sv 4, sv 5], x.svn = some v → 15 < x.maxAge) ∧
    (∀ s ∈ o.stored S3, ∀ v ∈ [sv 2, sv 3], ∃ x ∈ s.items .ced, x.svn = some v) := by
  have hc : (storedAfter receiver3 S3 starving).map (fun L => decide (
      (∀ s ∈ L, ∀ x ∈ s.items .ced, ∀ v ∈ [sv 1, sv 4, sv 5], x.svn = some v → 15 < x.maxAge) ∧
      (∀ s ∈ L, ∀ v ∈ [sv 2, sv 3], ∃ x ∈ s.items .ced, x.svn = some v))) = some true := by
    decide +kernel
  rw [Option.map_eq_some_iff] at hc
  obtain ⟨L, h1, h2⟩ := hc
  obtain ⟨o, h3, rfl⟩ := storedAfter_some h1
  have h2 := of_decide_eq_true h2
  refine ⟨o, h3, ?_, by decide +kernel, by decide, h2.1, h2.2⟩
  have h : ((inavsOf starving).map (fun c => c.gst.subframe.abs)).Pairwise (· ≤ ·) := by decide +kernel
  intro i a b ha hb
  obtain ⟨hi, rfl⟩ := List.getElem?_eq_some_iff.1 ha
  obtain ⟨hj, rfl⟩ := List.getElem?_eq_some_iff.1 hb
  exact List.pairwise_iff_getElem.1 (List.pairwise_map.1 h) i (i + 1) hi hj (Nat.lt_succ_self i)

end Verif
