import Verif.Props.Authentic
import Verif.Props.Replay
import Verif.Props.Work

/-! # C88: week numbers

On the air a week number has 12 bits; `Gst` has 16.  What is hashed and MACed, and the time of the root key, have the 12 bits. -/

namespace Verif
open CollectNavMessage CollectSubframe CollectDsm

variable {S : Storage} {C : Crypto} {root0 : Option MerkleTreeNode} {pk0 : Option (PublicKey C)} {slow : Bool}
  {hist before after : List Call} {log log₁ log₂ : List (KeyEvent C)} {o o₁ : Osnma C}

/-- The two times are sent with the same bits: same time of week, and week numbers that differ by a multiple of 4096. -/
def Gst.SameOnAir (g g' : Gst) : Prop := g.tow = g'.tow ∧ g.wn % 4096 = g'.wn % 4096

theorem Gst.SameOnAir.stored {g g' : Gst} (h : g.SameOnAir g') : Key.storeGst g = Key.storeGst g' := by
  unfold Key.storeGst
  rw [h.1, ← storeBe_mod 12 g.wn, ← storeBe_mod 12 g'.wn, show 2 ^ 12 = 4096 from rfl, h.2]

/-- **C88.**  A tag or a MACSEQ is checked in the same way for all times that are sent with the same bits. -/
theorem C88_tags_modulo_4096 {g g' : Gst} (h : g.SameOnAir g') (k : Key) (tag : List Bool) (prnd : Byte) (prna : Svn) (ctr : Byte)
    (st : NmaStatus) (data : List Bool) (len : Nat) (m : Mack) :
    k.validateTag C tag g prnd prna ctr st data = k.validateTag C tag g' prnd prna ctr st data ∧
      k.validateTag0 C tag g prna st data = k.validateTag0 C tag g' prna st data ∧
      k.validateTagDummy C tag g prnd prna ctr st len = k.validateTagDummy C tag g' prnd prna ctr st len ∧
      k.validateTag0Dummy C tag g prna st len = k.validateTag0Dummy C tag g' prna st len ∧
      k.validateMacseq C m prna g = k.validateMacseq C m prna g' := by
  have hh : Chain.halfMinute g = Chain.halfMinute g' := by unfold Chain.halfMinute; rw [h.1]
  refine ⟨?_, ?_, ?_, ?_, ?_⟩
  · unfold Key.validateTag Key.navdataMessage Key.bufferHeader; rw [h.stored]
  · unfold Key.validateTag0 Key.navdataMessage Key.bufferHeader; rw [h.stored]
  · unfold Key.validateTagDummy Key.dummyMessage Key.bufferHeader; rw [h.stored]
  · unfold Key.validateTag0Dummy Key.dummyMessage Key.bufferHeader; rw [h.stored]
  · unfold Key.validateMacseq; rw [hh, h.stored]

theorem Gst.SameOnAir.previous {g g' p p' : Gst} (h : g.SameOnAir g') (hp : g.addSeconds (-30) = .ok p) (hp' : g'.addSeconds (-30) = .ok p') :
    p.SameOnAir p' := by
  have a := ((Gst.addSeconds_eq_ok (by decide)).1 hp).2
  have b := ((Gst.addSeconds_eq_ok (by decide)).1 hp').2
  obtain ⟨h1, h2⟩ := h
  unfold Gst.abs at a b
  have := g.htow; have := g'.htow; have := p.htow; have := p'.htow
  constructor <;> omega

/-- **C88.**  The one-way function gives the same bytes for all times that are sent with the same bits. -/
theorem C88_one_way_modulo_4096 {k k' r r' : Key} (h : k.gst.SameOnAir k'.gst) (hd : k.data = k'.data) (hc : k.chain = k'.chain)
    (hr : k.oneWayFunction C = .ok r) (hr' : k'.oneWayFunction C = .ok r') : r.data = r'.data ∧ r.gst.SameOnAir r'.gst := by
  unfold Key.oneWayFunction at hr hr'
  obtain ⟨p, hp, hr⟩ := Res.bind_eq_ok.1 hr
  obtain ⟨p', hp', hr'⟩ := Res.bind_eq_ok.1 hr'
  cases hr
  cases hr'
  have hs := h.previous hp hp'
  refine ⟨?_, hs⟩
  dsimp only
  unfold Key.bytes
  rw [hd, hc, hs.stored]

/-- The root key of a DSM-KROOT is of the weeks 0 to 4096. -/
theorem AnnouncedKey.early {data : List Byte} {k : Key} (h : AnnouncedKey data k) : k.gst.abs ≤ 4095 * 604800 + 255 * 3600 - 30 := by
  have h1 := h.time
  have h2 : bitField data 36 12 < 4096 := bitField_lt data 36 12
  have h3 : bitField data 48 8 < 256 := bitField_lt data 48 8
  omega

theorem no_tesla_late {rs : List Received} (h : KeyMachine root0 pk0 rs log) (hr : ∀ r ∈ rs, 4097 ≤ r.gst.wn) :
    (∀ k, KeyEvent.tesla k ∉ log) ∧ ∀ hd data pk key g, KeyEvent.kroot hd data pk key g ∈ log → AnnouncedKey data key := by
  induction h with
  | nil => exact ⟨fun k hk => (by cases hk), fun _ _ _ _ _ hk => (by cases hk)⟩
  | @step rs log l₁ l₂ r h h₁ h₂ ih =>
    obtain ⟨i1, i2⟩ := ih (fun r hr' => hr r (by simp [hr']))
    have j1 : ∀ k, KeyEvent.tesla k ∉ log ++ l₁ := by
      intro k hk
      rcases List.mem_append.1 hk with hk | hk
      · exact i1 k hk
      · rcases h₁ with ⟨e, ⟨data, _, he⟩, rfl⟩ | ⟨rfl, _⟩
        · rw [List.mem_singleton] at hk
          subst hk
          cases he
        · cases hk
    have j2 : ∀ hd data pk key g, KeyEvent.kroot hd data pk key g ∈ log ++ l₁ → AnnouncedKey data key := by
      intro hd data pk key g hk
      rcases List.mem_append.1 hk with hk | hk
      · exact i2 _ _ _ _ _ hk
      · rcases h₁ with ⟨e, ⟨data', _, he⟩, rfl⟩ | ⟨rfl, _⟩
        · rw [List.mem_singleton] at hk
          subst hk
          cases he with
          | kroot pk key hid hpk hname hsig hkey hpad => exact hkey
        · cases hk
    have j3 : l₂ = [] := by
      rcases h₂ with ⟨e, ⟨k, _, hk⟩, _⟩ | ⟨h, _⟩
      · exfalso
        obtain ⟨cur, n, hcur, _, _, hn, hder⟩ := hk.derives
        have ht := hder.time
        have hg := hk.gst
        have hw := hr r (by simp)
        rcases teslaHeld_mem _ (show HoldsTesla _ cur from hcur.1) with hm | ⟨hd, data, pk, g, hm⟩
        · exact j1 _ hm
        · have hb := (j2 _ _ _ _ _ hm).early
          dsimp only at ht
          rw [hg] at ht
          unfold Gst.abs at ht hb
          omega
      · exact h
    subst j3
    rw [List.append_nil]
    exact ⟨j1, j2⟩

/-- **C88.**  A new receiver to which all pages are given in weeks from 4097 on never accepts a TESLA key, and never returns authenticated
data, whatever is received: a root key has a week below 4096 in its DSM-KROOT, and at most 3000 subframes (25 hours) lead from it to an
accepted key. -/
theorem C88_nothing_from_week_4097 (hS : S.Consistent) (h0 : (Osnma.new S root0 pk0 slow : Osnma C).Fresh S)
    (h : Logs S (Osnma.new S root0 pk0 slow) hist log o) (hw : ∀ p ∈ pagesOf hist, 4097 ≤ p.gst.wn) :
    (∀ k, KeyEvent.tesla k ∉ log) ∧ ∀ kd v d, o.get S kd v ≠ .ok (some d) := by
  have key : ∀ k, KeyEvent.tesla k ∉ log := by
    obtain ⟨rs, h1, h2⟩ := C62_reference_machine h
    refine (no_tesla_late h2 ?_).1
    clear h2 h
    generalize pagesOf hist = ps at h1 hw
    induction h1 with
    | nil => intro r hr; cases hr
    | skip p h hn ih => exact ih (fun q hq => hw q (by simp [hq]))
    | got p r h hr ih =>
      intro s hs
      rcases List.mem_append.1 hs with hs | hs
      · exact ih (fun q hq => hw q (by simp [hq])) s hs
      · rw [List.mem_singleton] at hs
        subst hs
        rw [hr.gst]
        exact hw p (by simp)
  refine ⟨key, fun kd v d hd => ?_⟩
  obtain ⟨us, ha⟩ := get_authentic hS h0 h kd hd
  cases us with
  | nil => exact C31_some_tag ha rfl
  | cons u us =>
    have h1 := ha.once u
    rw [List.count_cons_self] at h1
    have h2 : 0 < timesAccepted log u.key := by omega
    unfold timesAccepted at h2
    obtain ⟨e, h3, h4⟩ := List.countP_pos_iff.1 h2
    cases e with
    | tesla k => exact key k h3
    | _ => cases h4

/-- **C88.**  A receiver that has accepted a TESLA key of a chain, and is then given pages with earlier times (the week number started from
0 again), accepts no key of this chain from them, however genuine they are, until a verified DSM-KROOT revokes the chain or is of
another one. -/
theorem C88_nothing_after_going_back (h₁ : Logs S (Osnma.new S root0 pk0 slow) before log₁ o₁) (h₂ : Logs S o₁ after log₂ o) {k : Key}
    {l₁ l₂ : List (KeyEvent C)} (hk : log₁ = l₁ ++ .tesla k :: l₂) (hd : ∀ e ∈ l₂ ++ log₂, ¬ e.Drops k.chain.id)
    (hback : ∀ p ∈ pagesOf after, p.sub.abs ≤ k.gst.abs) (k' : Key) (hc : k'.chain.id = k.chain.id) : KeyEvent.tesla k' ∉ log₂ := by
  intro hm
  obtain ⟨p, q, x, r, e1, e2, e3, _⟩ := tesla_received h₁ h₂ hm
  obtain ⟨a, b, rfl⟩ := List.append_of_mem hm
  have hx := hback x (by rw [e1]; simp)
  have := C30_accepted_keys_increase (h₁.trans h₂) (l1 := l₁) (l2 := l₂ ++ a) (l3 := b) (k := k) (k' := k')
    (by rw [hk]; simp) hc (fun e he => hd e (by
      rcases List.mem_append.1 he with he | he
      · exact List.mem_append_left _ he
      · exact List.mem_append_right _ (by simp [he])))
  rw [e3, e2.gst] at this
  omega

end Verif
