import Verif.Props.Link
import Verif.Spec.Transcript
import Verif.Props.Subframe
import Verif.Props.NavData

/-! # C98: what the client shows -/

namespace Verif
open Link

variable {C : Crypto} {S : Storage}

namespace Link

/-- What the client has shown and what is on its way to it is what the firmware has said. -/
structure Out (S : Storage) (o : Osnma C) (cs : List Call) (s : Link C) : Prop where
  tx : ∃ text extra, Transcript S o s.fw.calls text ∧ s.fw.tx = text ++ extra ∧ (extra = [] ∨ s.fwCtl = .halted)
  all : s.shown ++ s.down = s.fw.tx
  last : s.todo = [] → cs ≠ [] → Transcript S o cs.dropLast s.shown

theorem out_init (o : Osnma C) {cs : List Call} {lines : List (List Byte)} (h : LinesFor cs lines) : Out S o cs (init o lines) := by
  refine ⟨⟨_, [], .start, (List.append_nil _).symm, .inl rfl⟩, rfl, fun h1 h2 => ?_⟩
  have h1 : lines = [] := h1
  subst h1
  cases h
  exact absurd rfl h2

theorem run_snoc {o o₁ o₂ : Osnma C} {cs : List Call} {c : Call} (h : run S o cs = .ok o₁) (hc : c.run S o₁ = .ok o₂) :
    run S o (cs ++ [c]) = .ok o₂ := by
  unfold run at h ⊢
  rw [loopM_append, h]
  show loopM _ [c] _ = _
  rw [loopM_cons, hc]
  rfl

theorem out_step {o : Osnma C} {cs : List Call} {s t : Link C} (hi : Inv S o cs s) (ho : Out S o cs s) (h : Step S s t) : Out S o cs t := by
  obtain ⟨htx, hall, hlast⟩ := ho
  have hlive : s.fwCtl ≠ .halted → Transcript S o s.fw.calls s.fw.tx := by
    intro hh
    obtain ⟨text, echo, h1, h2, h3 | h3⟩ := htx
    · rw [h2, h3, List.append_nil]; exact h1
    · exact absurd h3 hh
  have keep : s.fwCtl ≠ .halted → ∃ text extra, Transcript S o s.fw.calls text ∧ s.fw.tx = text ++ extra ∧ (extra = [] ∨ t.fwCtl = .halted) :=
    fun hh => ⟨_, [], hlive hh, (List.append_nil _).symm, .inl rfl⟩
  have hi' := inv_step hi h
  obtain ⟨hbuf, hrun, hpart, hsend, pending, hcs, hph⟩ := hi
  cases h with
  | @fwEmit b out hw =>
    refine ⟨keep (by rw [hw]; simp), ?_, hlast⟩
    have : s.down = s.clientCtl.part ++ (s.toClient ++ [b]) ++ (if out = [] then FwCtl.reading 0 else .writing out).out := by
      unfold down; rw [hw]
      by_cases ho : out = [] <;> simp [ho, FwCtl.out]
    rw [this] at hall
    exact hall
  | @fwRead j c rest hr hc =>
    refine ⟨keep (by rw [hr]; simp), ?_, hlast⟩
    have ho : (rxByte s.fw.rxBuffer j c).2.out = [] := by
      unfold rxByte
      split
      · rfl
      · split
        · rfl
        · split <;> rfl
    have hd : s.down = s.clientCtl.part ++ s.toClient ++ [] := by unfold down; rw [hr]; rfl
    rw [hd] at hall
    show s.shown ++ (s.clientCtl.part ++ s.toClient ++ (rxByte s.fw.rxBuffer j c).2.out) = _
    rw [ho]
    exact hall
  | @fwProcess len f1 f2 hp h1 h2 =>
    cases hph with
    | talking k1 => rcases k1 with k1 | k1 <;> rw [hp] at k1 <;> first | cases k1.1 | cases k1
    | line k1 => rw [hp] at k1; cases k1
    | dead k1 => rw [hp] at k1; cases k1
    | @busy c cs' len' k1 k2 k3 k4 k5 k6 =>
      rw [hp] at k1
      cases k1
      obtain ⟨text, ht, hd⟩ := k4.2 s.fw rfl
      rw [hd] at h1
      simp only [Firmware.call, Firmware.write, Res.bind_eq_ok, Res.pure_eq, Res.ok.injEq] at h1
      obtain ⟨o', ho, rfl⟩ := h1
      obtain ⟨_, l4, l0, hl4, hl0, rfl⟩ := printAuthStatus_ok h2
      have hdown : s.clientCtl.part ++ s.toClient = [] := by
        unfold down at k2; rw [hp] at k2; simpa [FwCtl.out] using k2
      have hshown : s.shown = s.fw.tx := by rw [k2] at hall; simpa using hall
      refine ⟨?_, ?_, hlast⟩
      · have := Transcript.call (hlive (by rw [hp]; simp)) (run_snoc hrun ho) ht hl4 hl0
        have e : (Firmware.write (Firmware.write { s.fw with osnma := o', tx := s.fw.tx ++ text, calls := s.fw.calls ++ [c] } (l4 ++ l0)) READY).tx =
            s.fw.tx ++ text ++ l4 ++ l0 ++ ascii "READY\r\n" := by
          simp [Firmware.write, List.append_assoc, READY]
        exact ⟨_, [], this, by rw [List.append_nil]; exact e, .inl rfl⟩
      · have e : (Firmware.write (Firmware.write { s.fw with osnma := o', tx := s.fw.tx ++ text, calls := s.fw.calls ++ [c] } (l4 ++ l0)) READY).tx =
            s.fw.tx ++ (text ++ (l4 ++ (l0 ++ READY))) := by
          simp [Firmware.write, List.append_assoc]
        show s.shown ++ (s.clientCtl.part ++ s.toClient ++ List.drop s.fw.tx.length _) = _
        rw [hdown, hshown, e]
        simp
  | @fwPanic len said hp h1 =>
    cases hph with
    | talking k1 => rcases k1 with k1 | k1 <;> rw [hp] at k1 <;> first | cases k1.1 | cases k1
    | line k1 => rw [hp] at k1; cases k1
    | dead k1 => rw [hp] at k1; cases k1
    | @busy c cs' len' k1 k2 k3 k4 k5 k6 =>
      rw [hp] at k1
      cases k1
      refine ⟨⟨s.fw.tx, said, hlive (by rw [hp]; simp), rfl, .inr rfl⟩, ?_, hlast⟩
      · have hd : s.down = s.clientCtl.part ++ s.toClient ++ [] := by unfold down; rw [hp]; rfl
        rw [hd] at hall
        show s.shown ++ (s.clientCtl.part ++ (s.toClient ++ said) ++ []) = s.fw.tx ++ said
        rw [← hall]
        simp
  | @clientRead part line todo b rest hw htodo hc =>
    have hdn : s.down = part ++ b :: (rest ++ s.fwCtl.out) := by unfold down; rw [hw, hc]; simp [ClientCtl.part]
    rw [hdn] at hall
    by_cases hb : b = 0x0a#8
    · rw [if_pos hb] at hi' ⊢
      by_cases hr : part ++ [b] = READY
      · rw [if_pos hr] at hi' ⊢
        have hall' : (s.shown ++ (part ++ [b])) ++ ([] ++ rest ++ s.fwCtl.out) = s.fw.tx := by rw [← hall]; simp
        refine ⟨htx, hall', fun h0 hne => ?_⟩
        have h0 : todo = [] := h0
        subst h0
        have hseven : (part ++ [b]).length = 7 := by rw [hr]; decide
        obtain ⟨_, _, _, hs', pending', hcs', hph'⟩ := hi'
        cases hph with
        | line _ _ k3 => rw [hdn] at k3; simp at k3
        | busy _ k3 => rw [hdn] at k3; simp at k3
        | dead _ _ k3 =>
          exfalso
          rw [hdn] at k3
          rw [hw] at hpart
          rw [hb] at k3 hr
          exact (k3.line hpart).1 hr
        | talking g1 g2 g3 g4 =>
          rw [hdn, hb] at g3
          rw [hw] at hpart
          rcases g3.line hpart with ⟨_, e2⟩ | ⟨e1, _⟩
          · rw [htodo] at g4
            cases g4 with
            | cons _ hrest =>
            cases hrest
            rw [hcs]
            have : s.shown ++ (part ++ [b]) = s.fw.tx := by rw [← hall, e2]
            show Transcript S o _ (s.shown ++ (part ++ [b]))
            rw [this]
            simpa using hlive (by rcases g1 with g1 | g1
                                  · rw [g1]; simp
                                  · rw [g1.1]; simp)
          · rw [hb] at hr
            exact absurd hr e1
      · rw [if_neg hr] at hi' ⊢
        refine ⟨htx, ?_, fun h0 => ?_⟩
        · show (s.shown ++ (part ++ [b])) ++ ([] ++ rest ++ s.fwCtl.out) = s.fw.tx
          rw [← hall]; simp
        · exact absurd (show s.todo = [] from h0) (by rw [htodo]; simp)
    · rw [if_neg hb]
      refine ⟨htx, ?_, hlast⟩
      show s.shown ++ ((part ++ [b]) ++ rest ++ s.fwCtl.out) = s.fw.tx
      rw [← hall]; simp
  | @clientSend b rest hw =>
    refine ⟨htx, ?_, hlast⟩
    have hpt : (if rest = [] then ClientCtl.waiting [] else .sending rest).part = [] := by
      by_cases hr : rest = [] <;> simp [hr, ClientCtl.part]
    have hpt0 : s.clientCtl.part = [] := by rw [hw]; rfl
    unfold down at hall
    rw [hpt0] at hall
    show s.shown ++ ((if rest = [] then ClientCtl.waiting [] else .sending rest).part ++ s.toClient ++ s.fwCtl.out) = _
    rw [hpt]
    exact hall

theorem out_reaches {o : Osnma C} {cs : List Call} {lines : List (List Byte)} (hl : LinesFor cs lines) {s : Link C} (h : Reaches S (init o lines) s) :
    Out S o cs s := by
  induction h with
  | refl => exact out_init o hl
  | step hr h ih => exact out_step (inv_reaches (inv_init o hl) hr) ih h

theorem Out.live {o : Osnma C} {cs : List Call} {s : Link C} (h : Out S o cs s) (hh : s.fwCtl ≠ .halted) : Transcript S o s.fw.calls s.fw.tx := by
  obtain ⟨text, echo, h1, h2, h3 | h3⟩ := h.tx
  · rw [h2, h3, List.append_nil]; exact h1
  · exact absurd h3 hh

end Link

/-- **C98, in order and complete.**  In every interleaving, unless the firmware has panicked, what the client has printed is a beginning of what the firmware has said, which
is the transcript of the calls made so far: nothing is lost, repeated or out of order. -/
theorem C98_shown_in_order {o : Osnma C} {cs : List Call} {lines : List (List Byte)} (hl : LinesFor cs lines) {s : Link C}
    (h : Reaches S (init o lines) s) (hh : s.fwCtl ≠ .halted) : ∃ text, Transcript S o s.fw.calls text ∧ s.shown <+: text :=
  have ho := out_reaches hl h
  ⟨s.fw.tx, ho.live hh, ⟨s.down, ho.all⟩⟩

/-- **C98, up to date.**  While the client sends a line (up to the CR that makes the firmware process it) it has printed everything about the lines before: the whole transcript of
the calls made for them, which are all the calls before the one of this line. -/
theorem C98_shown_before_sending {o : Osnma C} {cs : List Call} {lines : List (List Byte)} (hl : LinesFor cs lines) {s : Link C}
    (h : Reaches S (init o lines) s) {rest : List Byte} (hc : s.clientCtl = .sending rest) (hcr : 0x0d#8 ∈ rest) :
    ∃ c cs', cs = s.fw.calls ++ c :: cs' ∧ LinesFor cs' s.todo ∧ Transcript S o s.fw.calls s.shown := by
  have ho := out_reaches hl h
  have hall := ho.all
  obtain ⟨hbuf, hrun, hpart, hsend, pending, hcs, hph⟩ := inv_reaches (inv_init (S := S) o hl) h
  have hdown : s.fwCtl ≠ .halted → s.down = [] → Transcript S o s.fw.calls s.shown := by
    intro hh hd
    rw [hd, List.append_nil] at hall
    rw [hall]
    exact ho.live hh
  have hup : 0x0d#8 ∈ s.up := by
    unfold up
    rw [hc]
    exact List.mem_append_right _ hcr
  have no1 : s.up ≠ [0x0a#8] := fun h => by rw [h] at hup; revert hup; decide
  have no0 : s.up ≠ [] := fun h => by rw [h] at hup; cases hup
  cases hph with
  | talking h1 h2 h3 h4 => exact absurd h2 (not_or.2 ⟨no0, no1⟩)
  | line h1 h2 h3 h4 h5 h6 h7 h8 => exact ⟨_, _, by rw [hcs, h7], h8, hdown (by rw [h1]; simp) h3⟩
  | busy h1 h2 h3 h4 h5 h6 => exact absurd h3 no1
  | dead h1 h2 => exact absurd h2 (not_or.2 ⟨no1, no0⟩)

/-- **C98, at the end.**  When nothing more happens and the firmware has not panicked, all calls have been made and the client has printed the transcript of all calls but the last one: it
does not wait for the answer to its last line, so that the user never sees the status after the last message. -/
theorem C98_shown_at_the_end {o : Osnma C} {cs : List Call} {lines : List (List Byte)} (hl : LinesFor cs lines) {s : Link C}
    (h : Reaches S (init o lines) s) (hend : ¬ ∃ t, Link.Step S s t) (hh : s.fwCtl ≠ .halted) :
    s.fw.calls = cs ∧ (cs = [] → s.shown = []) ∧ (cs ≠ [] → Transcript S o cs.dropLast s.shown) := by
  have hcalls : s.fw.calls = cs := by
    rcases C58_delivered hl h hend with h | h
    · exact h
    · exact absurd h.1 hh
  have ho := out_reaches hl h
  refine ⟨hcalls, ?_, fun hne => ?_⟩
  · rintro rfl
    cases hl
    have key : ∀ s : Link C, Reaches S (init o []) s → s.todo = [] ∧ s.shown = [] := by
      intro s h
      induction h with
      | refl => exact ⟨rfl, rfl⟩
      | step _ h ih =>
        cases h with
        | fwEmit => exact ih
        | fwRead => exact ih
        | fwProcess => exact ih
        | fwPanic => exact ih
        | clientRead _ h => rw [ih.1] at h; cases h
        | clientSend => exact ih
    exact (key s h).2
  · refine ho.last ?_ hne
    obtain ⟨_, _, _, _, pending, hcs, hph⟩ := inv_reaches (inv_init (S := S) o hl) h
    have hp : pending = [] := by rw [hcalls] at hcs; simpa using hcs
    subst hp
    cases hph with
    | talking _ _ _ h4 => cases h : s.todo with
      | nil => rfl
      | cons l ls => rw [h] at h4; cases h4
    | line _ _ _ _ _ _ h7 => cases h7
    | busy _ _ _ _ h5 => cases h5
    | dead _ _ _ h4 => cases h4

theorem dec_ascii (n : Nat) : ∀ b ∈ dec n, b.toNat < 128 := by
  intro b hb
  rw [dec_eq] at hb
  have := decimal_digits n b hb
  omega

theorem dec2_ascii (n : Nat) : ∀ b ∈ dec2 n, b.toNat < 128 := by
  intro b hb
  rw [dec2_eq] at hb
  unfold decimal02 at hb
  have hd := decimal_digits n b
  split at hb
  · rcases List.mem_cons.1 hb with rfl | hb
    · decide
    · have := hd hb; omega
  · have := hd hb; omega

theorem append_ascii {a b : List Byte} (ha : ∀ x ∈ a, x.toNat < 128) (hb : ∀ x ∈ b, x.toNat < 128) : ∀ x ∈ a ++ b, x.toNat < 128 := by
  intro x hx
  rcases List.mem_append.1 hx with h | h
  · exact ha x h
  · exact hb x h

theorem EchoOf.ascii {c : Call} {t : List Byte} (h : EchoOf c t) : ∀ b ∈ t, b.toNat < 128 := by
  have key : ∀ (svn : Svn) (gst : Gst) (l : List Byte), (∀ b ∈ l, b.toNat < 128) →
      ∀ b ∈ Verif.ascii "E" ++ dec2 svn.val ++ Verif.ascii " WN " ++ dec gst.wn ++ Verif.ascii " TOW " ++ dec gst.tow ++ l, b.toNat < 128 := by
    intro svn gst l hl
    exact append_ascii (append_ascii (append_ascii (append_ascii (append_ascii (append_ascii (by decide) (dec2_ascii _)) (by decide)) (dec_ascii _)) (by decide))
      (dec_ascii _)) hl
  cases c with
  | inav w svn gst band =>
    have h : t = _ := h
    rw [h]
    cases band
    · exact key _ _ _ (by decide)
    · exact key _ _ _ (by decide)
  | osnma w svn gst =>
    obtain ⟨band, h⟩ := h
    rw [h]
    cases band
    · exact key _ _ _ (by decide)
    · exact key _ _ _ (by decide)

theorem StatusLine.ascii {o : Osnma C} {kd : NavKind} {t : List Byte} (h : StatusLine S o kd t) : ∀ b ∈ t, b.toNat < 128 := by
  obtain ⟨l, _, _, rfl⟩ := h
  refine append_ascii (append_ascii ?_ ?_) (by decide)
  · cases kd <;> decide
  · split
    · decide
    · intro b hb
      obtain ⟨x, _, hx⟩ := List.mem_flatMap.1 hb
      exact append_ascii (append_ascii (append_ascii (by decide) (dec2_ascii _)) (by decide)) (dec_ascii _) b hx

/-- **C98, text.**  Everything the firmware says is ASCII, so that `read_line` of the client does not fail on it. -/
theorem C98_ascii {o : Osnma C} {cs : List Call} {text : List Byte} (h : Transcript S o cs text) : ∀ b ∈ text, b.toNat < 128 := by
  induction h with
  | start => decide
  | call _ _ he h4 h0 ih => exact append_ascii (append_ascii (append_ascii (append_ascii ih he.ascii) h4.ascii) h0.ascii) (by decide)

/-- **C98, the last answer is not shown.**  At the end what is printed is not the transcript of all the calls, whatever that transcript is. -/
theorem C98_last_answer_missing {o : Osnma C} {cs : List Call} {lines : List (List Byte)} (hl : LinesFor cs lines) {s : Link C}
    (h : Reaches S (init o lines) s) (hend : ¬ ∃ t, Link.Step S s t) (hh : s.fwCtl ≠ .halted) (_hne : cs ≠ []) :
    ∃ answer, answer ≠ [] ∧ Transcript S o cs (s.shown ++ answer) := by
  have ho := out_reaches hl h
  have hcalls := (C98_shown_at_the_end hl h hend hh).1
  refine ⟨s.down, ?_, ?_⟩
  · obtain ⟨_, _, _, _, pending, hcs, hph⟩ := inv_reaches (inv_init (S := S) o hl) h
    have hp : pending = [] := by rw [hcalls] at hcs; simpa using hcs
    subst hp
    cases hph with
    | talking _ _ h3 => exact h3.ne_nil
    | line _ _ _ _ _ _ h7 => cases h7
    | busy _ _ _ _ h5 => cases h5
    | dead _ _ _ h4 => cases h4
  · rw [ho.all, ← hcalls]
    exact ho.live hh

/-- Once all calls have been made the firmware has not panicked. -/
theorem C98_not_halted {o : Osnma C} {cs : List Call} {lines : List (List Byte)} (hl : LinesFor cs lines) {s : Link C}
    (h : Reaches S (init o lines) s) (hall : s.fw.calls = cs) : s.fwCtl ≠ .halted := by
  intro hh
  obtain ⟨_, _, _, _, pending, hcs, hph⟩ := inv_reaches (inv_init (S := S) o hl) h
  have hp : pending = [] := by rw [hall] at hcs; simpa using hcs
  subst hp
  cases hph with
  | talking h1 => rcases h1 with h1 | ⟨h1, _⟩ <;> rw [hh] at h1 <;> cases h1
  | line h1 => rw [hh] at h1; cases h1
  | busy h1 => rw [hh] at h1; cases h1
  | dead _ _ _ h4 => cases h4

theorem authStatus_said {get : Svn → Res (Option NavMessageData)} {t : List Byte} {b : Bool} (h : authStatus get = .ok (t, b)) : t = authStatusSaid get Svn.iter := by
  have key : ∀ (l : List Svn) (t0 t1 : List Byte) (b0 b1 : Bool), loopM (fun (s : List Byte × Bool) svn => do
      match ← get svn with
      | some data => pure (s.1 ++ Verif.ascii " " ++ svn.text ++ Verif.ascii " TOW " ++ decimal data.gst.tow, true)
      | none => pure s) l (t0, b0) = .ok (t1, b1) → t1 = t0 ++ authStatusSaid get l := by
    intro l
    induction l with
    | nil =>
      intro t0 t1 b0 b1 h
      simp only [loopM, Res.ok.injEq, Prod.mk.injEq] at h
      simp [authStatusSaid, h.1]
    | cons v l ih =>
      intro t0 t1 b0 b1 h
      rw [loopM_cons] at h
      unfold authStatusSaid
      cases hg : get v with
      | panic w => rw [hg] at h; cases h
      | ok r =>
        cases r with
        | none =>
          rw [hg] at h
          exact ih _ _ _ _ h
        | some d =>
          rw [hg] at h
          rw [ih _ _ _ _ h]
          simp
  have := key _ _ _ _ _ h
  simpa using this

/-- What `statusSaid` says is what is written: if the getters return, it is what `print_auth_status` writes. -/
theorem statusSaid_ok {f f' : Firmware C} (h : f.printAuthStatus S = .ok f') : f'.tx = f.tx ++ f.statusSaid S := by
  unfold Firmware.printAuthStatus at h
  simp only [Res.bind_eq_ok, Res.pure_eq, Res.ok.injEq] at h
  obtain ⟨⟨t4, b4⟩, h4, ⟨t0, b0⟩, h0, rfl⟩ := h
  simp only [Firmware.write] at h4 h0 ⊢
  unfold Firmware.statusSaid
  rw [← authStatus_said h4, ← authStatus_said h0, h4, h0]
  simp

/-! ### After a panic -/

theorem fresh_call_returns (hS : S.Consistent) (c : Call) : ∃ o' o'' : Osnma C, c.run S o' = .ok o'' := by
  have h0 : (Osnma.fromMerkleTree S ⟨List.replicate 32 0#8, by simp⟩ none false : Osnma C).Fresh S := .inl ⟨_, _, _, rfl⟩
  refine ⟨Osnma.fromMerkleTree S ⟨List.replicate 32 0#8, by simp⟩ none false, ?_⟩
  cases c with
  | inav w svn gst band => exact C38_feed_inav_returns hS h0 (hist := []) rfl w svn gst band
  | osnma data svn gst =>
    show ∃ o'', Osnma.feedOsnma S _ data svn gst = .ok o''
    unfold Osnma.feedOsnma
    by_cases hz : data.val.all (fun x => x == 0#8) = true
    · rw [if_pos hz]; exact ⟨_, rfl⟩
    · rw [if_neg hz]
      have hsub : (Osnma.fromMerkleTree S ⟨List.replicate 32 0#8, by simp⟩ none false : Osnma C).subframe = .new := rfl
      rw [hsub]
      obtain ⟨⟨sf, outs⟩, hf⟩ := C04_feed_pages_returns [⟨data, svn, gst⟩]
      have hf1 : ∃ out, CollectSubframe.new.feed data svn gst = .ok (sf, out) := by
        simp only [feedPages] at hf
        grind
      obtain ⟨out, hf1⟩ := hf1
      cases out with
      | none => rw [hf1]; exact ⟨_, rfl⟩
      | some x =>
        obtain ⟨hk, mk, g⟩ := x
        obtain ⟨_, ps, h1, _, h2, _⟩ := C04_collected_subframe [] ⟨data, svn, gst⟩ .new sf [] hk mk g rfl hf1
        have h3 := h1.length_le
        have h4 : ps.length = 15 := by rw [← List.length_map (f := Page.word), h2]; rfl
        simp [sinceSubframe] at h3
        omega

/-- What the firmware has written about the message `c` at which it panicked: the echo, if the black box panicked; the echo and the beginning of the status, if it did not but
a getter panicked. -/
def SaidAbout {C : Crypto} (S : Storage) (o : Osnma C) (calls : List Call) (c : Call) (said : List Byte) : Prop :=
  ∃ echo rest, EchoOf c echo ∧ said = echo ++ rest ∧
    (rest = [] ∨ ∃ o', run S o (calls ++ [c]) = .ok o' ∧ StatusCutOff S o' rest)

/-- After a panic: what was said before the line is printed, and what the firmware says about the line has been written. -/
def Link.Halted (S : Storage) (o : Osnma C) (cs : List Call) (s : Link C) : Prop :=
  ∃ text said c, Transcript S o s.fw.calls text ∧ s.fw.tx = text ++ said ∧ s.fw.calls ++ [c] <+: cs ∧ SaidAbout S o s.fw.calls c said ∧ text <+: s.shown

theorem Link.halted_reaches (hS : S.Consistent) {o : Osnma C} {cs : List Call} {lines : List (List Byte)} (hl : LinesFor cs lines) {s : Link C}
    (h : Reaches S (init o lines) s) (hh : s.fwCtl = .halted) : Link.Halted S o cs s := by
  induction h with
  | refl => cases hh
  | @step s t hr h ih =>
    cases h with
    | @fwEmit b out hw =>
      exfalso
      revert hh
      simp only
      split <;> simp
    | @fwRead j c rest hr hc =>
      exfalso
      revert hh
      simp only
      unfold rxByte
      split
      · simp
      · split
        · simp
        · split <;> simp
    | fwProcess => cases hh
    | @fwPanic len said hp h1 =>
      have ho := out_reaches hl hr
      have hall := ho.all
      obtain ⟨hbuf, hrun, hpart, hsend, pending, hcs, hph⟩ := inv_reaches (inv_init (S := S) o hl) hr
      cases hph with
      | talking k1 => rcases k1 with k1 | k1 <;> rw [hp] at k1 <;> first | cases k1.1 | cases k1
      | line k1 => rw [hp] at k1; cases k1
      | dead k1 => rw [hp] at k1; cases k1
      | @busy c cs' len' k1 k2 k3 k4 k5 k6 =>
        rw [hp] at k1
        cases k1
        rw [k2, List.append_nil] at hall
        refine ⟨s.fw.tx, said, c, ho.live (by rw [hp]; simp), rfl, ⟨cs', by rw [hcs, k5]; simp [Firmware.write]⟩, ?_, by rw [← hall]; exact List.prefix_rfl⟩
        obtain ⟨text, ht, hd⟩ := k4.2 s.fw rfl
        rcases h1.parts k4 with ⟨hw, hecho⟩ | ⟨text, o', rest, ht, ho', _, ⟨_, hq⟩, rfl⟩
        · rcases h1 with ⟨_, hsaid⟩ | ⟨f1, h1, _⟩
          · rcases hsaid with hx | ⟨_, hno⟩
            · obtain ⟨o', f', hx, htx⟩ := hx
              obtain ⟨text, ht, he⟩ := k4.2 { s.fw with osnma := o' } rfl
              rw [he] at hx
              simp only [Firmware.call, Firmware.write, Res.bind_eq_ok, Res.pure_eq, Res.ok.injEq] at hx
              obtain ⟨o2, _, rfl⟩ := hx
              simp only [List.append_cancel_left_eq] at htx
              rw [← htx]
              exact ⟨text, [], ht, (List.append_nil _).symm, .inl rfl⟩
            · exfalso
              obtain ⟨o1, o2, h12⟩ := fresh_call_returns (C := C) hS c
              obtain ⟨text, ht, he⟩ := k4.2 { s.fw with osnma := o1 } rfl
              refine hno ⟨o1, ({ s.fw with osnma := o2, tx := s.fw.tx ++ text, calls := s.fw.calls ++ [c] } : Firmware C), ?_⟩
              rw [he]
              simp only [Firmware.call, Firmware.write, h12, Res.ok_bind, Res.pure_eq]
          · exfalso
            rw [hd] at h1
            simp only [Firmware.call, Firmware.write, Res.bind_eq_ok, Res.pure_eq, Res.ok.injEq] at h1
            obtain ⟨o', ho, _⟩ := h1
            obtain ⟨w, hw⟩ := hw
            rw [ho] at hw
            cases hw
        · exact ⟨text, rest, ht, rfl, .inr ⟨o', run_snoc hrun ho', hq⟩⟩
    | @clientRead part line todo b rest hw htodo hc =>
      have hh' : s.fwCtl = .halted := by
        revert hh
        split
        · split <;> exact id
        · exact id
      obtain ⟨text, echo, c, h1, h2, h3, h4, h5⟩ := ih hh'
      have : ∀ x : Link C, x.fw = s.fw → s.shown <+: x.shown → Link.Halted S o cs x := by
        intro x e1 e2
        exact ⟨text, echo, c, by rw [e1]; exact h1, by rw [e1]; exact h2, by rw [e1]; exact h3, by rw [e1]; exact h4, h5.trans e2⟩
      split
      · split
        · exact this _ rfl ⟨_, rfl⟩
        · exact this _ rfl ⟨_, rfl⟩
      · exact this _ rfl List.prefix_rfl
    | clientSend => exact ih hh

/-- **C98, after a panic.**  When the firmware has panicked, the client has printed the transcript of all the calls that were made before, and possibly some more: the echo of the
message at which the firmware panicked and, if it was not the black box that panicked at this message but a getter after it, the beginning of the status. -/
theorem C98_shown_after_panic (hS : S.Consistent) {o : Osnma C} {cs : List Call} {lines : List (List Byte)} (hl : LinesFor cs lines) {s : Link C}
    (h : Reaches S (init o lines) s) (hh : s.fwCtl = .halted) :
    ∃ text echo rest c, Transcript S o s.fw.calls text ∧ EchoOf c echo ∧ s.fw.calls ++ [c] <+: cs ∧ text <+: s.shown ∧ s.shown <+: text ++ echo ++ rest ∧
      (rest = [] ∨ ∃ o', run S o (s.fw.calls ++ [c]) = .ok o' ∧ StatusCutOff S o' rest) := by
  obtain ⟨text, said, c, h1, h2, h3, ⟨echo, rest, h4, rfl, h6⟩, h7⟩ := Link.halted_reaches hS hl h hh
  exact ⟨text, echo, rest, c, h1, h4, h3, h7, by rw [List.append_assoc, ← h2, ← (out_reaches hl h).all]; exact ⟨_, rfl⟩, h6⟩

/-- **C98, after a panic, at the end.**  If the client then still has lines to send, the last line that it prints, before it waits for ever, is the echo of the message at which the black box
panicked; or, if a getter panicked, what it prints ends with or after this echo. -/
theorem C98_last_line_after_panic (hS : S.Consistent) {o : Osnma C} {cs : List Call} {lines : List (List Byte)} (hl : LinesFor cs lines) {s : Link C}
    (h : Reaches S (init o lines) s) (hend : ¬ ∃ t, Link.Step S s t) (hh : s.fwCtl = .halted) (htodo : s.todo ≠ []) :
    ∃ text echo rest c, Transcript S o s.fw.calls text ∧ EchoOf c echo ∧ s.fw.calls ++ [c] <+: cs ∧ s.shown = text ++ echo ++ rest ∧
      (rest = [] ∨ ∃ o' status, run S o (s.fw.calls ++ [c]) = .ok o' ∧ StatusCutOff S o' status ∧ rest <+: status) := by
  obtain ⟨text, said, c, h1, h2, h3, ⟨echo, rest, h4, rfl, h6⟩, h7⟩ := Link.halted_reaches hS hl h hh
  have hall := (out_reaches hl h).all
  obtain ⟨_, _, hpart, hsend, pending, hcs, hph⟩ := inv_reaches (inv_init (S := S) o hl) h
  have hdn : 0x0a#8 ∉ s.down := by
    have hout : s.fwCtl.out = [] := by rw [hh]; rfl
    cases hc : s.clientCtl with
    | sending r =>
      cases r with
      | nil => exact absurd hc hsend
      | cons b r => exact absurd ⟨_, .clientSend hc⟩ hend
    | waiting p =>
      cases ht : s.toClient with
      | nil =>
        have : s.down = p := by unfold down; rw [hc, ht, hout]; simp [ClientCtl.part]
        rw [hc] at hpart
        rw [this]
        exact hpart
      | cons b rest =>
        cases hq : s.todo with
        | nil => exact absurd hq htodo
        | cons l ls => exact absurd ⟨_, .clientRead hc hq ht⟩ hend
  rw [h2, ← List.append_assoc] at hall
  -- what is left to read has no end of line, and the echo ends with one
  have hpre : text ++ echo <+: s.shown := by
    rcases List.prefix_or_prefix_of_prefix (⟨rest, rfl⟩ : text ++ echo <+: text ++ echo ++ rest) (⟨s.down, hall⟩ : s.shown <+: text ++ echo ++ rest) with hp | ⟨q, hq⟩
    · exact hp
    · have hq0 : q = [] := by
        obtain ⟨body, hb, _⟩ := h4.talk
        apply Classical.byContradiction
        intro hne
        apply hdn
        have hdown : s.down = q ++ rest := by
          rw [← hq, List.append_assoc, List.append_cancel_left_eq] at hall
          exact hall
        rw [hdown]
        refine List.mem_append_left _ ?_
        have h8 : (s.shown ++ q).getLast? = (text ++ (body ++ [0x0a#8])).getLast? := by rw [hq, hb]
        rw [List.getLast?_append, ← List.append_assoc, List.getLast?_concat, List.getLast?_eq_some_getLast hne] at h8
        simp only [Option.some_or, Option.some.injEq] at h8
        rw [← h8]
        exact List.getLast_mem hne
      rw [hq0, List.append_nil] at hq
      rw [hq]
      exact List.prefix_rfl
  obtain ⟨r, hr⟩ := hpre
  refine ⟨text, echo, r, c, h1, h4, h3, hr.symm, ?_⟩
  rcases h6 with h6 | h6
  · left
    rw [h6, ← hr] at hall
    have : r ++ s.down = [] := by simpa using hall
    exact (List.append_eq_nil_iff.1 this).1
  · obtain ⟨o', h6, h8⟩ := h6
    refine .inr ⟨o', rest, h6, h8, s.down, ?_⟩
    rw [← hr] at hall
    simpa using hall

end Verif
