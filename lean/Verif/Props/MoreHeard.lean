import Verif.Lemmas.MoreHeardPair
import Verif.Props.StorageSize

/-! # C86: hearing more

A receiver that is given the same words and more OSNMA pages (`Spec/MoreHeard.lean`), during a genuine broadcast among which there may be spoofed
satellites (`Spec/Spoofing.lean`).  Cases, and what is not true: `Props/MoreHeardExample.lean`. -/

namespace Verif
open CollectSubframe (snoc_induction)

variable {S : Storage} {C : Crypto} {b : Broadcast C} {root0 : Option MerkleTreeNode} {pk0 : Option (PublicKey C)} {slow : Bool}
  {before after after' : List Call} {log₁ log log' : List (KeyEvent C)} {o₁ o o' : Osnma C} {G : Svn → Prop}

/-- **C86.**  Let a receiver follow a genuine broadcast, and be given pages of genuine satellites; let another one be given the same words and pages and, anywhere
among them, more pages: of genuine satellites what they send, and under the numbers of the others anything.  If the first one reports data of a satellite, the second one also does: that of
the same time or a later one; if it is not from words received later, then it is the same, with the same time and at least as many authentication bits; or else a key was accepted that
gives an explicit collision of the one-way function. -/
theorem C86_hearing_more (hS : S.Consistent) (h0 : (Osnma.new S root0 pk0 slow : Osnma C).Fresh S) (hb : b.Sound)
    (h₁ : Logs S (Osnma.new S root0 pk0 slow) before log₁ o₁) (h : Logs S (Osnma.new S root0 pk0 slow) (before ++ after) log o)
    (h' : Logs S (Osnma.new S root0 pk0 slow) (before ++ after') log' o')
    (hmore : HearsMore after after') (hf : Spoofed b G before log₁ after') (hG : ∀ p ∈ pagesOf after, G p.svn)
    (hsame : SameHeader b log₁ log) (hsame' : SameHeader b log₁ log') (hset : ∀ q ∈ pagesOf after', NoChangeAfter log₁ (q.sub.abs - 300))
    (hord : CallsInOrder (before ++ after')) (hfit : Fits S (inavsOf (before ++ after'))) (hroom : PagesFit S (before ++ after'))
    (hen : S.MackEnough (before ++ after) log) (hret : NoReturn (before ++ after')) {kd : NavKind} {v : Svn} {d : NavMessageData}
    (hd : o.get S kd v = .ok (some d)) {res' : Option NavMessageData} (hd' : o'.get S kd v = .ok res') :
    (∃ d', res' = some d' ∧ d.gst.abs ≤ d'.gst.abs ∧
      ∃ q q', q <+: q' ∧ q' <+: inavsOf (before ++ after) ∧ d.data = kd.expected q v ∧ d'.data = kd.expected q' v ∧
        (q = q' → d'.gst = d.gst ∧ d.authbits ≤ d'.authbits)) ∨ ForgedKey b log ∨ ForgedKey b log' := by
  by_cases hno : ForgedKey b log
  · exact .inr (.inl hno)
  by_cases hno' : ForgedKey b log'
  · exact .inr (.inr hno')
  left
  have hwe : inavsOf (before ++ after') = inavsOf (before ++ after) := by rw [inavsOf_append', inavsOf_append', hmore.2]
  have hord0 : CallsInOrder (before ++ after) := hord.sublist ((List.Sublist.refl _).append hmore.1)
  have hordB : CallsInOrder before := (List.pairwise_append.1 hord).1
  have hfit0 : Fits S (inavsOf (before ++ after)) := by rw [← hwe]; exact hfit
  have hfitB : Fits S (inavsOf before) := by
    obtain ⟨sats, f1, f2⟩ := hfit
    exact ⟨sats, f1, fun c hc => f2 c (by rw [inavsOf_append']; exact List.mem_append_left _ hc)⟩
  obtain ⟨rs₁, fs₁, hm₁, _⟩ := C63_reference_machine hS h0 h₁ hordB.pages hordB.words hfitB
  obtain ⟨rs, fs, hm, hget⟩ := C63_reference_machine hS h0 h hord0.pages hord0.words hfit0
  obtain ⟨rs', fs', hm', hget'⟩ := C63_reference_machine hS h0 h' hord.pages hord.words hfit
  have hA := ahead_machines hb hS.nav_pos hm₁ hmore.more
    ⟨hf, hG, hset, hsame, hsame', hno, hno', fun _ _ _ _ he => C30_key_accepted_once h he, hord, hroom, hen, hret⟩ hm hm'
  exact lined_reports hm hm' hwe hord0.words hA.lined (hget kd v _ hd) (hget' kd v _ hd')

/-- **C86, the keys.**  And every TESLA key that the first one accepts, the second one also accepts. -/
theorem C86_keys (hb : b.Sound)
    (h₁ : Logs S (Osnma.new S root0 pk0 slow) before log₁ o₁) (h : Logs S (Osnma.new S root0 pk0 slow) (before ++ after) log o)
    (h' : Logs S (Osnma.new S root0 pk0 slow) (before ++ after') log' o')
    (hmore : HearsMore after after') (hf : Spoofed b G before log₁ after') (hG : ∀ p ∈ pagesOf after, G p.svn)
    (hsame : SameHeader b log₁ log) (hsame' : SameHeader b log₁ log') (hord : (pagesOf after').Pairwise (fun p q => p.sub.abs ≤ q.sub.abs)) {k : Key}
    (hk : KeyEvent.tesla k ∈ log) : KeyEvent.tesla k ∈ log' ∨ ForgedKey b log ∨ ForgedKey b log' := by
  by_cases hno : ForgedKey b log
  · exact .inr (.inl hno)
  by_cases hno' : ForgedKey b log'
  · exact .inr (.inr hno')
  left
  have hfs : Spoofed b G before log₁ after := hf.sub fun p hp => (pagesOf_sub hmore.1).subset hp
  obtain ⟨rs₁, rs₂, hr⟩ := hfs.received hb h₁ h
  obtain ⟨rs₁', rs₂', hr'⟩ := hf.received hb h₁ h'
  obtain rfl := hr.first.unique hr'.first
  have st := hr.tracks.state (hr.on hfs) (hr.leads hfs) (hr.sorted (hord.sublist (pagesOf_sub hmore.1))) hr.machine hsame hno
  have st' := hr'.tracks.state (hr'.on hf) (hr'.leads hf) (hr'.sorted hord) hr'.machine hsame' hno'
  obtain ⟨rest, e1, e2⟩ := st.1
  obtain ⟨rest', e1', _⟩ := st'.1
  rw [e1] at hk
  rcases List.mem_append.1 hk with hk | hk
  · rw [e1']; exact List.mem_append_left _ hk
  · -- accepted in `after`
    have hkb := e2 k hk
    obtain ⟨r, hr2, hrk⟩ := machine_tesla_after hr.tracks.before (e1 ▸ hr.machine) hk
    obtain ⟨q, hq, hqr⟩ := hr.sub hr2
    have hrm := received_more hmore.1 hf hG hord hr hr' (List.mem_append_right rs₁ hr2)
    rcases List.mem_append.1 hrm with hr1 | hr1
    · exfalso
      obtain ⟨p, hp, he⟩ := received_sub hr.first hr1
      have := hfs.later p hp q hq
      rw [he, hqr] at this
      omega
    · have hGr : G r.svn := by
        have hw := received_heard hr.all (List.mem_append_right rs₁ hr2)
        obtain ⟨x, x1, _⟩ := List.mem_map.1 (hw.subset (show 14 ∈ List.range 15 by decide))
        rw [List.mem_filter, Bool.and_eq_true, beq_iff_eq, beq_iff_eq] at x1
        rcases List.mem_append.1 x1.1 with hx | hx
        · exfalso
          have := hfs.later x hx q hq
          rw [x1.2.2, hqr] at this
          omega
        · rw [← x1.2.1]; exact hG x hx
      have := st'.2.2.2.2 r hr1 (hr'.sent r hr1 hGr)
      rw [hkb, ← hrk]
      exact this

end Verif
