import Verif.Lemmas.NavMachine
import Verif.Props.KeyMachine
import Verif.Props.NavExamples

/-! # C63: the authenticated navigation data is that of the reference machine

`Spec/NavMachine.lean` says what a receiver must report as authenticated, from the words and pages received, the trust anchors and the
storage sizes. -/

namespace Verif
open CollectNavMessage CollectSubframe CollectDsm

variable {S : Storage} {C : Crypto} {root0 : Option MerkleTreeNode} {pk0 : Option (PublicKey C)} {slow : Bool}
  {hist : List Call} {log : List (KeyEvent C)} {o : Osnma C}

/-- **C63.**  In every run that does not panic, with words and pages in chronological order and not more satellites than the storage
has places for, the messages are those of the reference machine, and each getter returns exactly what the machine says is
authenticated: the data, the number of authentication bits, and the time. -/
theorem C63_reference_machine (hS : S.Consistent) (ho : (Osnma.new S root0 pk0 slow : Osnma C).Fresh S)
    (h : Logs S (Osnma.new S root0 pk0 slow) hist log o) (hpages : (pagesOf hist).Pairwise (fun a b => a.sub.abs ≤ b.sub.abs))
    (hwords : Chronological (inavsOf hist)) (hfits : Fits S (inavsOf hist)) :
    ∃ rs fs, NavMachine root0 pk0 S slow hist rs log fs ∧ ∀ kd v res, o.get S kd v = .ok res →
      res.map (fun m => (m.data, m.authbits, m.gst.abs)) = authenticated fs kd v := by
  obtain ⟨rs, fs, p⟩ := navPace_run hS ho h hpages hwords hfits
  refine ⟨rs, fs, p.machine, ?_⟩
  intro kd v res hres
  have hinv := navInv_run hS ho h.run
  rw [← p.frames.authenticated kd v]
  cases res with
  | some m =>
    obtain ⟨g, x, h1, h2, h3, h4⟩ := get_some hinv hres
    rw [h1, Option.map_some, Option.map_some, h2, h3, h4]
  | none =>
    rw [get_eq hinv] at hres
    cases hb : bestEntry (o.stored S) kd v with
    | none => rfl
    | some gx =>
      obtain ⟨g, x⟩ := gx
      rw [hb] at hres
      unfold resultOf at hres
      dsimp only at hres
      split at hres <;> cases hres

/-- **C63.**  If moreover no word is from the first 7650 s of GST, the getters return. -/
theorem C63_getters (hS : S.Consistent) (ho : (Osnma.new S root0 pk0 slow : Osnma C).Fresh S)
    (h : Logs S (Osnma.new S root0 pk0 slow) hist log o) (hpages : (pagesOf hist).Pairwise (fun a b => a.sub.abs ≤ b.sub.abs))
    (hwords : Chronological (inavsOf hist)) (hfits : Fits S (inavsOf hist)) (hweek : ∀ c ∈ inavsOf hist, 7650 ≤ c.gst.abs) :
    ∃ rs fs, NavMachine root0 pk0 S slow hist rs log fs ∧ ∀ kd v, ∃ res, o.get S kd v = .ok res ∧
      res.map (fun m => (m.data, m.authbits, m.gst.abs)) = authenticated fs kd v := by
  obtain ⟨rs, fs, h1, h2⟩ := C63_reference_machine hS ho h hpages hwords hfits
  refine ⟨rs, fs, h1, fun kd v => ?_⟩
  obtain ⟨res, hr⟩ := C38_get_returns hS ho h.run hweek kd v
  exact ⟨res, hr, h2 kd v res hr⟩

/-- **C63.**  The machine contains that of C62. -/
theorem C63_contains_key_machine {rs : List Received} {fs : List NavFrame} (h : NavMachine root0 pk0 S slow hist rs log fs) :
    ReceivedIn (pagesOf hist) rs ∧ KeyMachine root0 pk0 rs log := by
  induction h with
  | nil => exact ⟨.nil, .nil⟩
  | word c h ih => rw [pagesOf_inav]; exact ih
  | zero p h hz ih => rw [pagesOf_zero _ _ _ hz]; exact ih
  | page p h hz hn ih => rw [pagesOf_page _ _ _ hz]; exact ⟨.skip _ ih.1 hn, ih.2⟩
  | subframe p r h hz hr h₁ h₂ h₃ ih => rw [pagesOf_page _ _ _ hz]; exact ⟨.got _ r ih.1 hr, .step r ih.2 h₁ h₂⟩

theorem KeyUsed.unique {macks : List MackCall} {fs a b : List NavFrame} {l : List (KeyEvent C)} (ha : KeyUsed S slow macks log fs l a)
    (hb : KeyUsed S slow macks log fs l b) : a = b := by
  cases ha with
  | none => cases hb; rfl
  | key k t1 t10 t11 h1 h10 h11 =>
    cases hb with
    | key k s1 s10 s11 k1 k10 k11 =>
      rw [Gst.abs_inj (h1.trans k1.symm), Gst.abs_inj (h10.trans k10.symm), Gst.abs_inj (h11.trans k11.symm)]

/-- **C63.**  The machine is deterministic: the calls, the trust anchors and the settings determine what is authenticated. -/
theorem C63_machine_deterministic {rs rs' : List Received} {log log' : List (KeyEvent C)} {fs fs' : List NavFrame}
    (h : NavMachine root0 pk0 S slow hist rs log fs) (h' : NavMachine root0 pk0 S slow hist rs' log' fs') :
    rs = rs' ∧ log = log' ∧ fs = fs' := by
  induction h generalizing rs' log' fs' with
  | nil =>
    generalize hh : ([] : List Call) = hist at h'
    cases h' <;> first | exact ⟨rfl, rfl, rfl⟩ | simp at hh
  | @word hist rs log fs c h ih =>
    generalize hh : hist ++ [Call.inav c.word c.svn c.gst c.band] = hist' at h'
    cases h' with
    | nil => simp at hh
    | word c' h' =>
      obtain ⟨rfl, he⟩ := append_singleton_cancel hh
      obtain ⟨rfl, rfl, rfl⟩ := ih h'
      rcases c with ⟨a, b, c, d⟩
      rcases c' with ⟨a', b', c', d'⟩
      cases he
      exact ⟨rfl, rfl, rfl⟩
    | zero p h' hz => obtain ⟨_, he⟩ := append_singleton_cancel hh; cases he
    | page p h' hz hn => obtain ⟨_, he⟩ := append_singleton_cancel hh; cases he
    | subframe p r h' hz hr h₁ h₂ h₃ => obtain ⟨_, he⟩ := append_singleton_cancel hh; cases he
  | @zero hist rs log fs p h hz ih =>
    generalize hh : hist ++ [Call.osnma p.data p.svn p.gst] = hist' at h'
    rcases p with ⟨pd, ps, pg⟩
    cases h' with
    | nil => simp at hh
    | word c' h' => obtain ⟨_, he⟩ := append_singleton_cancel hh; cases he
    | zero p h' hz =>
      obtain ⟨rfl, he⟩ := append_singleton_cancel hh
      exact ih h'
    | page p h' hz' hn =>
      obtain ⟨_, he⟩ := append_singleton_cancel hh
      rcases p with ⟨qd, qs, qg⟩
      cases he
      rw [hz] at hz'; cases hz'
    | subframe p r h' hz' hr h₁ h₂ h₃ =>
      obtain ⟨_, he⟩ := append_singleton_cancel hh
      rcases p with ⟨qd, qs, qg⟩
      cases he
      rw [hz] at hz'; cases hz'
  | @page hist rs log fs p h hz hn ih =>
    generalize hh : hist ++ [Call.osnma p.data p.svn p.gst] = hist' at h'
    rcases p with ⟨pd, ps, pg⟩
    cases h' with
    | nil => simp at hh
    | word c' h' => obtain ⟨_, he⟩ := append_singleton_cancel hh; cases he
    | zero p h' hz' =>
      obtain ⟨_, he⟩ := append_singleton_cancel hh
      rcases p with ⟨qd, qs, qg⟩
      cases he
      rw [hz] at hz'; cases hz'
    | page p h' hz' hn' =>
      obtain ⟨rfl, he⟩ := append_singleton_cancel hh
      exact ih h'
    | subframe p r h' hz' hr h₁ h₂ h₃ =>
      obtain ⟨rfl, he⟩ := append_singleton_cancel hh
      rcases p with ⟨qd, qs, qg⟩
      cases he
      exact absurd hr (hn r)
  | @subframe hist rs log l₁ l₂ fs fs2 p r h hz hr h₁ h₂ h₃ ih =>
    generalize hh : hist ++ [Call.osnma p.data p.svn p.gst] = hist' at h'
    rcases p with ⟨pd, ps, pg⟩
    cases h' with
    | nil => simp at hh
    | word c' h' => obtain ⟨_, he⟩ := append_singleton_cancel hh; cases he
    | zero p h' hz' =>
      obtain ⟨_, he⟩ := append_singleton_cancel hh
      rcases p with ⟨qd, qs, qg⟩
      cases he
      rw [hz] at hz'; cases hz'
    | page p h' hz' hn' =>
      obtain ⟨rfl, he⟩ := append_singleton_cancel hh
      rcases p with ⟨qd, qs, qg⟩
      cases he
      exact absurd hr (hn' r)
    | @subframe _ _ _ m₁ m₂ _ _ p r2 h' hz' hr' k₁ k₂ k₃ =>
      obtain ⟨rfl, he⟩ := append_singleton_cancel hh
      rcases p with ⟨qd, qs, qg⟩
      cases he
      obtain ⟨rfl, rfl, rfl⟩ := ih h'
      obtain rfl := hr.unique hr'
      obtain rfl := h₁.unique (fun a b ⟨da, ha, ha'⟩ ⟨db, hb, hb'⟩ => by
        rw [ha.unique hb] at ha'; exact ha'.unique hb') k₁
      obtain rfl := h₂.unique (fun a b ⟨ka, ea, ha⟩ ⟨kb, eb, hb⟩ => by rw [ea, eb, ha.unique hb]) k₂
      obtain rfl := h₃.unique k₃
      exact ⟨rfl, rfl, rfl⟩

/-- Thirteen subframes: the machine has 280 authentication bits for the CED of satellite 1 (some of them from Slow MAC) and 120 for
its timing parameters. -/
example : ∃ (rs : List Received) (log : List (KeyEvent Sim.toy)) (fs : List NavFrame) (x y : List Bool × Int),
    NavMachine none (some (Sim.pub 1)) Sim.S false (Sim.nominal 13) rs log fs ∧
      authenticated fs .ced (Sim.sv 1) = some (x.1, 280, x.2) ∧ authenticated fs .timing (Sim.sv 1) = some (y.1, 120, y.2) := by
  obtain ⟨log, o, h, _, h1, h2⟩ := Sim.outcome_some Sim.nominal13
  have hc : ((inavsOf (Sim.nominal 13)).map (fun c => c.gst.subframe.abs)).Pairwise (· ≤ ·) := by decide +kernel
  have hp : ((pagesOf (Sim.nominal 13)).map (fun c => c.sub.abs)).Pairwise (· ≤ ·) := by decide +kernel
  have hw : Chronological (inavsOf (Sim.nominal 13)) := by
    intro i a b ha hb
    obtain ⟨hi, rfl⟩ := List.getElem?_eq_some_iff.1 ha
    obtain ⟨hj, rfl⟩ := List.getElem?_eq_some_iff.1 hb
    exact List.pairwise_iff_getElem.1 (List.pairwise_map.1 hc) i (i + 1) hi hj (Nat.lt_succ_self i)
  obtain ⟨rs, fs, k1, k2⟩ := C63_reference_machine (S := Sim.S) (root0 := none) (pk0 := some (Sim.pub 1)) (slow := false)
    Sim.S_consistent (.inr ⟨Sim.pub 1, false, rfl⟩) h (List.pairwise_map.1 hp) hw ⟨[Sim.sv 1], by decide, by decide +kernel⟩
  obtain ⟨d, g1, g2, _⟩ := Sim.got_some h1
  obtain ⟨e, e1, e2, _⟩ := Sim.got_some h2
  refine ⟨rs, log, fs, (d.data, d.gst.abs), (e.data, e.gst.abs), k1, ?_, ?_⟩
  · rw [← k2 _ _ _ g1, Option.map_some, g2]
  · rw [← k2 _ _ _ e1, Option.map_some, e2]

end Verif
