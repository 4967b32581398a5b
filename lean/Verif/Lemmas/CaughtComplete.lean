import Verif.Lemmas.CaughtRecovery
import Verif.Props.Disclosure

/-! # Lemmas: genuine tags authenticate data after caught panics

As `Props/Complete`, for calls that return and follow a history in which panics were caught. -/

namespace Verif
open CollectNavMessage

variable {S : Storage} {C : Crypto} {root0 : Option MerkleTreeNode} {pk0 : Option (PublicKey C)} {slow : Bool}
  {before after hist : List Call} {log₁ l log : List (KeyEvent C)} {o₁ o : Osnma C}

/-- Calls that return go on from a history with caught panics. -/
theorem Caught.append {o0 : Osnma C} (h₁ : Caught S o0 before log₁ o₁) (h : Logs S o₁ after l o) : Caught S o0 (before ++ after) (log₁ ++ l) o := by
  induction h with
  | nil => rw [List.append_nil, List.append_nil]; exact h₁
  | snoc c hl hc ih => rw [← List.append_assoc, ← List.append_assoc]; exact .returns c ih hc

/-- The recorded chain in force is determined by the messages. -/
theorem Caught.force (h : Caught S (Osnma.new S root0 pk0 slow) hist log o) : o.data.data.key.chainInForce = Verif.force log := by
  generalize ho : (Osnma.new S root0 pk0 slow : Osnma C) = o0 at h
  induction h with
  | nil => subst ho; rfl
  | returns c _ hc ih =>
    have st := Call.keyStep hc
    generalize Osnma.events S _ c = evs at st
    cases st with
    | nothing h1 h2 h3 => rw [h2, ih, List.append_nil]
    | subframe m g hd d0 d1 l1 l2 hp hk hm s1 s2 hp' hm' =>
      rw [teslaStep_force s2, dsmStep_force s1, hk, ih, force_append, List.foldl_append]
  | panics c _ _ hl ih =>
    obtain ⟨d, s, g, rfl, ⟨k⟩⟩ := left_some hl
    have e := congrArg (fun x => x.data.data) k.ho
    dsimp only at e
    rw [e]; exact ih

theorem CaughtInv.stored (h : CaughtInv S root0 pk0 slow hist log o) : NavInv S hist o (o.stored S) := by
  obtain ⟨L, hL⟩ := h.nav
  have : o.stored S = L := Rep.stored hL.rep
  rw [this]; exact hL

/-- A key is reported in its subframe. -/
theorem CaughtInv.tesla_when (h : CaughtInv S root0 pk0 slow hist log o) {c : Call} {o' : Osnma C} (hc : c.run S o = .ok o') {k : Key}
    (he : KeyEvent.tesla k ∈ o.events S c) : ∃ p ∈ pagesOf [c], p.sub = c.gst.subframe ∧ p.sub = k.gst := by
  cases c with
  | inav w s g bd => cases he
  | osnma d s g =>
    have hz : ¬ d.val.all (fun x => x == 0#8) = true := by
      intro hz
      simp [Osnma.events, hz] at he
    obtain ⟨⟨a⟩, h2⟩ := tesla_arrives h.inv hc he
    have h3 := h2 a
    have h4 := a.toCompletes.sub_inv h.pages
    refine ⟨⟨d, s, g⟩, ?_, rfl, ?_⟩
    · unfold pagesOf
      rw [List.mem_filterMap]
      exact ⟨_, List.mem_singleton_self _, by simp only [hz, if_false, Bool.false_eq_true]⟩
    · rw [← h4, ← h3]; rfl

/-- A reported key is of a subframe that was heard. -/
theorem Caught.tesla_heard (hS : S.Consistent) (h0 : (Osnma.new S root0 pk0 slow : Osnma C).Fresh S)
    (h : Caught S (Osnma.new S root0 pk0 slow) hist log o) {k : Key} (he : KeyEvent.tesla k ∈ log) : ∃ p ∈ pagesOf hist, p.sub = k.gst := by
  generalize ho : (Osnma.new S root0 pk0 slow : Osnma C) = o0 at h
  induction h with
  | nil => cases he
  | returns c h hc ih =>
    rcases List.mem_append.1 he with he | he
    · obtain ⟨p, h1, h2⟩ := ih he
      exact ⟨p, by rw [pagesOf_append]; exact List.mem_append_left _ h1, h2⟩
    · subst ho
      obtain ⟨p, h1, _, h2⟩ := (h.kept hS h0).tesla_when hc he
      exact ⟨p, by rw [pagesOf_append]; exact List.mem_append_right _ h1, h2⟩
  | panics c _ _ _ ih =>
    obtain ⟨p, h1, h2⟩ := ih he
    exact ⟨p, by rw [pagesOf_append]; exact List.mem_append_left _ h1, h2⟩

/-- As `TagDue`, for call number `i` of `after`. -/
def TagDueAfter (S : Storage) (o₁ : Osnma C) (slow : Bool) (before : List Call) (log₁ : List (KeyEvent C)) (after : List Call) (kd : NavKind) (v : Svn)
    (bits : List Bool) (i : Nat) (u : TagUse) : Prop :=
  ∃ (l : List (KeyEvent C)) (o : Osnma C) (c : Call), after[i]? = some c ∧ Logs S o₁ (after.take i) l o ∧
    KeyEvent.tesla u.key ∈ o.events S c ∧ InOrder S (before ++ after.take (i + 1)) u.key.gst ∧
    u.Genuine C S slow (before ++ after.take (i + 1)) kd v bits ∧
    (u.tag.adkd = 12 → NoChangeAfter (log₁ ++ l ++ o.events S c) (u.gst.abs + 30))

/-- A tag that is due is among those checked, and counts. -/
theorem due_counts (hS : S.Consistent) (h0 : (Osnma.new S root0 pk0 slow : Osnma C).Fresh S)
    (h : Caught S (Osnma.new S root0 pk0 slow) hist log o) {c : Call} {o' : Osnma C} (hc : c.run S o = .ok o') {kd : NavKind} {v : Svn} {bits : List Bool}
    {u : TagUse} (he : KeyEvent.tesla u.key ∈ o.events S c) (hord : InOrder S (hist ++ [c]) u.key.gst)
    (hu : u.Genuine C S slow (hist ++ [c]) kd v bits) (hone : u.tag.adkd = 12 → NoChangeAfter (log ++ o.events S c) (u.gst.abs + 30))
    (hplace : ∃ q r, inavsOf hist = q ++ r ∧ KeepsPlace S kd q v r ∧ ∀ c ∈ q, c.svn = v → c.gst.subframe.abs < u.gst.abs - 30 * u.tag.cop) :
    u ∈ checkedTags S o c kd ∧ ∀ x : NavItem, x.svn = some v → x.messageBits kd.nbits = bits →
      u.Counts S C o.data.data.navmessage (o.data.data.navmessage.arr kd) kd.nbits x := by
  cases c with
  | inav => simp [Osnma.events] at he
  | osnma d s g =>
    have hi := h.kept hS h0
    have h' := Caught.returns (.osnma d s g) h hc
    have hi' := h'.kept hS h0
    obtain ⟨⟨a0⟩, hall⟩ := tesla_arrives hi.inv hc he
    obtain ⟨a, ha⟩ := checkedTags_arrives hc a0 kd
    have hak := hall a
    have hag : u.key.gst = a.g := by rw [← hak]; rfl
    rw [ha]
    exact a.counts_inv hS hi.pages hi'.pages hi.stored hi.only h'.force hi'.key (by rw [← hag]; exact hord) hu hak.symm hplace hone

/-- The place of a satellite, when there is room for all. -/
theorem place_of_fits {p : List InavCall} (hfit : Fits S p) {v : Svn} (kd : NavKind) (h : ∃ c ∈ p, c.svn = v) (t : Int) :
    ∃ q r, p = q ++ r ∧ KeepsPlace S kd q v r ∧ ∀ c ∈ q, c.svn = v → c.gst.subframe.abs < t := by
  obtain ⟨q, e, r, e1, e2, e3⟩ := first_word h
  refine ⟨q, e :: r, e1, ?_, fun d hd hdv => absurd hdv (e3 d hd)⟩
  rw [← e2]
  exact KeepsPlace.of_fits kd e (by rw [← e1]; exact hfit)

/-- Data that has been the same from call number `n` on has at least the lengths of the tags that were due since as authentication bits. -/
theorem caught_authbits (hS : S.Consistent) (h0 : (Osnma.new S root0 pk0 slow : Osnma C).Fresh S)
    (h₁ : Caught S (Osnma.new S root0 pk0 slow) before log₁ o₁) (kd : NavKind) (v : Svn) (bits : List Bool) (n : Nat) :
    ∀ {after : List Call} {l : List (KeyEvent C)} {o : Osnma C}, Logs S o₁ after l o → Fits S (inavsOf (before ++ after)) →
    n ≤ (before ++ after).length → (∃ c ∈ inavsOf ((before ++ after).take n), c.svn = v) →
    (∀ i, n ≤ i → i ≤ (before ++ after).length → kd.expected (inavsOf ((before ++ after).take i)) v = bits) →
    ∀ due : List (Nat × TagUse), due.Nodup →
    (∀ p ∈ due, n ≤ before.length + p.1 ∧ TagDueAfter S o₁ slow before log₁ after kd v bits p.1 p.2) →
    ∃ s x, (o.stored S)[0]? = some s ∧ x ∈ s.items kd ∧ x.svn = some v ∧ x.data.take kd.nbits = bits ∧
      min 65535 (due.map (fun p => p.2.tag.tag.length)).sum ≤ x.authbits := by
  intro after
  induction after using CollectSubframe.snoc_induction with
  | h0 =>
    intro l o hl hfit hn hfed hsame due hnd hdue
    have hd : due = [] := by
      cases due with
      | nil => rfl
      | cons p due =>
        obtain ⟨_, _, _, _, h, _⟩ := hdue p (by simp)
        simp at h
    subst hd
    have hc := h₁.append hl
    obtain ⟨c, hc1, hc2⟩ := hfed
    obtain ⟨s, x, e1, e2, e3, e4⟩ := current_entry_inv hS (hc.kept hS h0).stored hfit kd (v := v) ⟨c, by
      unfold inavsOf at *
      exact ((List.take_sublist _ _).filterMap _).subset hc1, hc2⟩
    refine ⟨s, x, e1, e2, e3, ?_, by simp⟩
    rw [e4]
    have := hsame _ hn (Nat.le_refl _)
    rwa [List.take_length] at this
  | h1 after c ih =>
    intro l o' hl hfit hn hfed hsame due hnd hdue
    obtain ⟨l0, o, hl0, hc, rfl⟩ := hl.snoc_inv
    have hcau := h₁.append hl0
    have hcau' := h₁.append hl
    have hi := hcau.kept hS h0
    have hi' := hcau'.kept hS h0
    have hsub : ∀ c', c' ∈ inavsOf ((before ++ (after ++ [c])).take n) → c' ∈ inavsOf (before ++ (after ++ [c])) := by
      intro c' hc'
      unfold inavsOf at *
      exact ((List.take_sublist _ _).filterMap _).subset hc'
    obtain ⟨cf, hcf1, hcf2⟩ := hfed
    obtain ⟨s', x', e1, e2, e3, e4⟩ := current_entry_inv hS hi'.stored hfit kd (v := v) ⟨cf, hsub _ hcf1, hcf2⟩
    have e5 : x'.data.take kd.nbits = bits := by
      rw [e4]
      have := hsame _ hn (Nat.le_refl _)
      rwa [List.take_length] at this
    refine ⟨s', x', e1, e2, e3, e5, ?_⟩
    have hlen : (before ++ (after ++ [c])).length = (before ++ after).length + 1 := by simp; omega
    have hla : (before ++ after).length = before.length + after.length := by simp
    have hidx : ∀ p ∈ due, p.1 < after.length + 1 := by
      intro p hp
      obtain ⟨_, _, _, _, h, _⟩ := hdue p hp
      have := (List.getElem?_eq_some_iff.1 h).1
      simpa using this
    rcases Nat.lt_or_ge (before ++ after).length n with hlt | hge
    · -- the data is new
      have hd : due = [] := by
        cases due with
        | nil => rfl
        | cons p due =>
          have := (hdue p (by simp)).1
          have := hidx p (by simp)
          omega
      subst hd; simp
    · have happ : before ++ (after ++ [c]) = (before ++ after) ++ [c] := (List.append_assoc _ _ _).symm
      have htake : ∀ i, i ≤ (before ++ after).length → (before ++ (after ++ [c])).take i = (before ++ after).take i := by
        intro i hi
        rw [happ, List.take_append_of_le_length hi]
      have hfit' : Fits S (inavsOf (before ++ after)) := hfit.sub (by
        intro d hd
        unfold inavsOf at *
        rw [happ, List.filterMap_append]
        exact List.mem_append_left _ hd)
      rw [htake n hge] at hcf1
      -- the tags of the calls before, and those of this one
      have hsplit : (due.map (fun p => p.2.tag.tag.length)).sum =
          ((due.filter (fun p => decide (p.1 < after.length))).map (fun p => p.2.tag.tag.length)).sum +
          ((due.filter (fun p => !decide (p.1 < after.length))).map (fun p => p.2.tag.tag.length)).sum := by
        clear hnd hdue hidx
        induction due with
        | nil => rfl
        | cons p due ih =>
          by_cases hp : p.1 < after.length
          · simp only [List.filter_cons, hp, decide_true, if_true, Bool.not_true, Bool.false_eq_true, if_false, List.map_cons, List.sum_cons, ih]
            omega
          · simp only [List.filter_cons, hp, decide_false, Bool.false_eq_true, if_false, Bool.not_false, if_true, List.map_cons, List.sum_cons, ih]
            omega
      obtain ⟨s, x, f1, f2, f3, f4, f5⟩ := ih hl0 hfit' hge ⟨cf, hcf1, hcf2⟩
        (by intro i h1 h2; rw [← htake i h2]; exact hsame i h1 (by omega))
        (due.filter (fun p => decide (p.1 < after.length))) (hnd.filter _) (by
          intro p hp
          rw [List.mem_filter, decide_eq_true_eq] at hp
          obtain ⟨hp1, hp2⟩ := hp
          obtain ⟨g1, la, oa, ca, g2, g3, g4, g5, g6, g7⟩ := hdue p hp1
          rw [List.getElem?_append_left hp2] at g2
          rw [List.take_append_of_le_length (by omega)] at g3
          rw [List.take_append_of_le_length (by omega)] at g5 g6
          exact ⟨g1, la, oa, ca, g2, g3, g4, g5, g6, g7⟩)
      have hlast : ∀ p ∈ due.filter (fun p => !decide (p.1 < after.length)), p.1 = after.length ∧ p ∈ due := by
        intro p hp
        rw [List.mem_filter] at hp
        have h1 := hidx p hp.1
        have h2 : ¬ p.1 < after.length := by simpa using hp.2
        exact ⟨by omega, hp.1⟩
      have hnow : ∀ p ∈ due.filter (fun p => !decide (p.1 < after.length)), p.2 ∈ checkedTags S o c kd ∧
          ∀ y : NavItem, y.svn = some v → y.messageBits kd.nbits = bits →
            p.2.Counts S C o.data.data.navmessage (o.data.data.navmessage.arr kd) kd.nbits y := by
        intro p hp
        obtain ⟨hp1, hp2⟩ := hlast p hp
        obtain ⟨_, la, oa, ca, g2, g3, g4, g5, g6, g7⟩ := hdue p hp2
        rw [hp1] at g2 g3 g5 g6
        rw [List.getElem?_append_right (Nat.le_refl _), Nat.sub_self] at g2
        obtain rfl : c = ca := Option.some.inj g2
        rw [List.take_append_of_le_length (Nat.le_refl _), List.take_length] at g3
        obtain ⟨rfl, rfl⟩ := hl0.unique g3
        rw [List.take_of_length_le (by simp), happ] at g5 g6
        refine due_counts hS h0 hcau hc g4 g5 g6 g7 ?_
        exact place_of_fits hfit' kd ⟨cf, by
          unfold inavsOf at *
          exact ((List.take_sublist _ _).filterMap _).subset hcf1, hcf2⟩ _
      cases c with
      | inav w sv g b =>
        have hsame' := feedInav_same_bits_inv hS hi.stored (c := ⟨w, sv, g, b⟩) hc kd f1 e1 f2 e2 f3 e3 (by
          unfold NavItem.messageBits; rw [e5, f4])
        have hd : due.filter (fun p => !decide (p.1 < after.length)) = [] := by
          cases hq : due.filter (fun p => !decide (p.1 < after.length)) with
          | nil => rfl
          | cons p r =>
            have := (hnow p (by rw [hq]; simp)).1
            simp [checkedTags] at this
        rw [hsplit, hd, hsame']
        simpa using f5
      | osnma d sv g =>
        obtain ⟨t, y, k1, k2, rfl⟩ := feedOsnma_head_inv hi.stored hc kd e1 e2
        rw [f1] at k1; cases k1
        have hyv : y.svn = some v := e3
        have hyx : y = x := by
          obtain ⟨a, ha, hya⟩ := List.mem_iff_getElem.1 k2
          obtain ⟨b, hb, hxe⟩ := List.mem_iff_getElem.1 f2
          have := (hi.stored.good hS kd (List.mem_of_getElem? f1)).distinct a b y x v
            (by rw [List.getElem?_eq_getElem ha, hya]) (by rw [List.getElem?_eq_getElem hb, hxe]) hyv f3
          subst this
          rw [← hya, hxe]
        subst hyx
        have hgain : ((due.filter (fun p => !decide (p.1 < after.length))).map (fun p => p.2.tag.tag.length)).sum ≤
            usesGain S C o.data.data.navmessage (o.data.data.navmessage.arr kd) kd.nbits (checkedTags S o (.osnma d sv g) kd) y := by
          have hm : ((due.filter (fun p => !decide (p.1 < after.length))).map (fun p => p.2.tag.tag.length)) =
              (((due.filter (fun p => !decide (p.1 < after.length))).map Prod.snd).map (fun u => tagGain C u.key u.prna u.gst u.st kd.nbits
                (o.data.data.navmessage.entryBefore S (o.data.data.navmessage.arr kd) u.gst) u.tag y)) := by
            rw [List.map_map]
            apply List.map_congr_left
            intro p hp
            have := (hnow p hp).2 y hyv f4
            simp only [Function.comp]
            unfold tagGain
            exact (if_pos this).symm
          rw [hm]
          unfold usesGain
          refine sum_map_le_of_subset _ ?_ ?_
          · rw [List.nodup_iff_pairwise_ne, List.pairwise_map]
            refine List.Pairwise.imp_of_mem ?_ (hnd.filter _)
            intro p q hp hq hne he
            exact hne (Prod.ext ((hlast p hp).1.trans (hlast q hq).1.symm) he)
          · intro u hu
            obtain ⟨p, hp, rfl⟩ := List.mem_map.1 hu
            exact (hnow p hp).1
        rw [hsplit]
        show _ ≤ min 65535 (y.authbits + _)
        omega

end Verif
