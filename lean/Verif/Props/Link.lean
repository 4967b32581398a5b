import Verif.Lemmas.Link

/-! # C58: the client and the firmware never get out of step -/

namespace Verif
open Link

variable {C : Crypto} {S : Storage}

/-- **C58, no overrun.**  In every interleaving, whenever the firmware is not reading from its serial port (it is processing a line, writing, or
halted), at most the LF of the last line has arrived and is waiting to be read: nothing is lost although
the port has no buffer. -/
theorem C58_no_overrun {o : Osnma C} {cs : List Call} {lines : List (List Byte)} (hl : LinesFor cs lines) {s : Link C}
    (h : Reaches S (init o lines) s) (hr : ∀ j, s.fwCtl ≠ .reading j) : s.toFw = [] ∨ s.toFw = [0x0a#8] := by
  obtain ⟨_, _, _, _, pending, _, hph⟩ := inv_reaches (inv_init (S := S) o hl) h
  have key : s.up = [0x0a#8] ∨ s.up = [] → s.toFw = [] ∨ s.toFw = [0x0a#8] := by
    unfold up
    rintro (h | h)
    · rcases hs : s.toFw with _ | ⟨a, l⟩
      · exact .inl rfl
      · rw [hs] at h
        simp only [List.cons_append, List.cons.injEq, List.append_eq_nil_iff] at h
        exact .inr (by rw [h.1, h.2.1])
    · exact .inl (List.append_eq_nil_iff.1 h).1
  cases hph with
  | talking _ h => exact key h.symm
  | line h => exact absurd h (hr _)
  | busy _ _ h => exact key (.inl h)
  | dead _ h => exact key h

/-- **C58, order.**  In every interleaving the calls that the firmware has made are a prefix of those that the client asks for. -/
theorem C58_calls_in_order {o : Osnma C} {cs : List Call} {lines : List (List Byte)} (hl : LinesFor cs lines) {s : Link C}
    (h : Reaches S (init o lines) s) : s.fw.calls <+: cs ∧ run S o s.fw.calls = .ok s.fw.osnma := by
  obtain ⟨_, hrun, _, _, pending, hcs, _⟩ := inv_reaches (inv_init (S := S) o hl) h
  exact ⟨⟨pending, hcs.symm⟩, hrun⟩

/-- **C58, no deadlock.**  As long as calls are missing and the firmware has not panicked, some step can be made. -/
theorem C58_no_deadlock {o : Osnma C} {cs : List Call} {lines : List (List Byte)} (hl : LinesFor cs lines) {s : Link C}
    (h : Reaches S (init o lines) s) (hne : s.fw.calls ≠ cs) (hh : s.fwCtl ≠ .halted) : ∃ t, Link.Step S s t := by
  obtain ⟨_, hrun, hpart, hsend, pending, hcs, hph⟩ := inv_reaches (inv_init (S := S) o hl) h
  have hsending : s.clientCtl.unsent ≠ [] → ∃ t, Link.Step S s t := by
    intro hu
    cases hc : s.clientCtl with
    | waiting p => rw [hc] at hu; exact absurd rfl hu
    | sending r =>
      cases r with
      | nil => exact absurd hc hsend
      | cons b r => exact ⟨_, .clientSend hc⟩
  cases hph with
  | talking h1 h2 h3 h4 =>
    by_cases hu : s.clientCtl.unsent = []
    · have hw : ∃ p, s.clientCtl = .waiting p := by
        cases hc : s.clientCtl with
        | waiting p => exact ⟨p, rfl⟩
        | sending r => rw [hc] at hu; exact absurd (by rw [hc]; exact congrArg _ hu) hsend
      obtain ⟨p, hw⟩ := hw
      cases hcl : s.toClient with
      | cons b rest =>
        cases htodo : s.todo with
        | nil =>
          rw [htodo] at h4
          cases h4
          exact absurd (by rw [hcs]; simp) hne
        | cons line todo => exact ⟨_, .clientRead hw htodo hcl⟩
      | nil =>
        rcases h1 with h1 | ⟨h1, h1'⟩
        · exfalso
          have hd : s.down = p := by
            unfold down; rw [hw, hcl, h1]; simp [ClientCtl.part, FwCtl.out]
          rw [hd] at h3
          rw [hw] at hpart
          obtain ⟨ls, _, h3⟩ := h3
          apply hpart
          show 0x0a#8 ∈ p
          rw [h3]
          exact List.mem_append_right _ (by decide)
        · cases ho : s.fwCtl.out with
          | nil => exact absurd ho h1'
          | cons b out => rw [ho] at h1; exact ⟨_, .fwEmit h1⟩
    · exact hsending hu
  | line h1 h2 h3 h4 h5 h6 h7 h8 =>
    by_cases hu : s.clientCtl.unsent = []
    · cases hf : s.toFw with
      | nil => rw [up, hf, hu] at h4; exact absurd h4 (by decide)
      | cons c rest => exact ⟨_, .fwRead h1 hf⟩
    · exact hsending hu
  | busy h1 h2 h3 h4 h5 h6 =>
    rename_i len
    have hsaid : ∃ said, s.fw.Echoed S len said := by
      by_cases hx : ∃ (o' : Osnma C) (f' : Firmware C), Firmware.processLine S { s.fw with osnma := o' } len = .ok f'
      · obtain ⟨o', f', hx⟩ := hx
        obtain ⟨text, _, he⟩ := h4.2 { s.fw with osnma := o' } rfl
        refine ⟨text, .inl ⟨o', f', hx, ?_⟩⟩
        rw [he] at hx
        simp only [Firmware.call, Firmware.write, Res.bind_eq_ok, Res.pure_eq, Res.ok.injEq] at hx
        obtain ⟨o2, _, rfl⟩ := hx
        rfl
      · exact ⟨[], .inr ⟨rfl, hx⟩⟩
    obtain ⟨said, hsaid⟩ := hsaid
    cases hp : s.fw.processLine S len with
    | panic w => exact ⟨_, .fwPanic h1 (.inl ⟨⟨w, hp⟩, hsaid⟩)⟩
    | ok f1 =>
      cases hq : f1.printAuthStatus S with
      | panic w => exact ⟨_, .fwPanic h1 (.inr ⟨f1, hp, ⟨w, hq⟩, rfl⟩)⟩
      | ok f2 => exact ⟨_, .fwProcess h1 hp hq⟩
  | dead h1 => exact absurd h1 hh

/-- **C58, delivery.**  When nothing more can happen, all the calls have been made; or the firmware has panicked in the black box, at the
first call that has not been made. -/
theorem C58_delivered {o : Osnma C} {cs : List Call} {lines : List (List Byte)} (hl : LinesFor cs lines) {s : Link C}
    (h : Reaches S (init o lines) s) (hend : ¬ ∃ t, Link.Step S s t) :
    s.fw.calls = cs ∨ s.fwCtl = .halted ∧ ∃ c, s.fw.calls ++ [c] <+: cs ∧ ¬ ∃ o', run S o (s.fw.calls ++ [c]) = .ok o' ∧ GettersReturn S o' := by
  by_cases hne : s.fw.calls = cs
  · exact .inl hne
  · by_cases hh : s.fwCtl = .halted
    · refine .inr ⟨hh, ?_⟩
      obtain ⟨_, hrun, hpart, hsend, pending, hcs, hph⟩ := inv_reaches (inv_init (S := S) o hl) h
      cases hph with
      | talking h1 => rcases h1 with h1 | ⟨h1, _⟩ <;> rw [hh] at h1 <;> cases h1
      | line h1 => rw [hh] at h1; cases h1
      | busy h1 => rw [hh] at h1; cases h1
      | @dead c cs' h1 h2 h3 h4 h5 h6 =>
        refine ⟨c, ⟨cs', by rw [hcs, h4]; simp⟩, ?_⟩
        rintro ⟨o', h7, h8⟩
        refine h5 ⟨o', ?_, h8⟩
        unfold Verif.run at h7 hrun
        rw [loopM_append, hrun] at h7
        have h7 : loopM _ [c] s.fw.osnma = .ok o' := h7
        rw [loopM_cons] at h7
        obtain ⟨o2, h8, h9⟩ := Res.bind_eq_ok.1 h7
        cases h9
        exact h8
    · exact absurd (C58_no_deadlock hl h hne hh) hend

/-! ### Termination -/

namespace Link

/-- Whether a line is being processed. -/
def isProcessing : FwCtl → Nat
  | .processing _ => 1
  | _ => 0

/-- Lines that can still be processed. -/
def crs (s : Link C) : Nat := s.up.count 0x0d#8 + isProcessing s.fwCtl

/-- Bytes still to be moved. -/
def moves (s : Link C) : Nat :=
  2 * s.clientCtl.unsent.length + s.toFw.length + 2 * s.fwCtl.out.length + s.toClient.length

/-- The order used for termination. -/
def Less (t s : Link C) : Prop :=
  t.todo.length < s.todo.length ∨ t.todo.length = s.todo.length ∧ (t.crs < s.crs ∨ t.crs = s.crs ∧ t.moves < s.moves)

theorem wf_less : WellFounded (Less (C := C)) := by
  have : ∀ a b c, ∀ s : Link C, s.todo.length = a → s.crs = b → s.moves = c → Acc Less s := by
    intro a
    induction a using Nat.strongRecOn with
    | ind a iha =>
      intro b
      induction b using Nat.strongRecOn with
      | ind b ihb =>
        intro c
        induction c using Nat.strongRecOn with
        | ind c ihc =>
          intro s ha hb hc
          constructor
          intro t ht
          rcases ht with h | ⟨h1, h | ⟨h2, h3⟩⟩
          · exact iha _ (by omega) _ _ t rfl rfl rfl
          · exact ihb _ (by omega) _ t (by omega) rfl rfl
          · exact ihc _ (by omega) t (by omega) (by omega) rfl
  exact ⟨fun s => this _ _ _ s rfl rfl rfl⟩

theorem step_less {o : Osnma C} {cs : List Call} {s t : Link C} (hi : Inv S o cs s) (h : Link.Step S s t) : Less t s := by
  obtain ⟨hbuf, hrun, hpart, hsend, pending, hcs, hph⟩ := hi
  cases h with
  | @fwEmit b out hw =>
    have ho : (if out = [] then FwCtl.reading 0 else .writing out).out = out := by by_cases h : out = [] <;> simp [h, FwCtl.out]
    have hp : isProcessing (if out = [] then FwCtl.reading 0 else .writing out) = 0 := by by_cases h : out = [] <;> simp [h, isProcessing]
    refine .inr ⟨rfl, .inr ⟨?_, ?_⟩⟩
    · unfold crs; rw [hp, hw]; rfl
    · have h1 : s.fwCtl.out = b :: out := by rw [hw]; rfl
      unfold moves; simp only [ho, h1, List.length_append, List.length_cons, List.length_nil]; omega
  | @fwRead j c rest hr hc =>
    refine .inr ⟨rfl, .inr ⟨?_, ?_⟩⟩
    · have hup : s.up.count 0x0d#8 = (rest ++ s.clientCtl.unsent).count 0x0d#8 + if c = 0x0d#8 then 1 else 0 := by
        unfold up; rw [hc, List.cons_append, List.count_cons]
        congr 1
        by_cases h : c = 0x0d#8 <;> simp [h]
      have hnot : ¬ (j + 1 = 256 ∧ c ≠ 0x0a#8 ∧ c ≠ 0x0d#8) := by
        rintro ⟨e3, e1, e2⟩
        cases hph with
        | talking h1 => rcases h1 with h1 | ⟨h1, _⟩ <;> rw [hr] at h1 <;> cases h1; omega
        | busy h1 => rw [hr] at h1; cases h1
        | dead h1 => rw [hr] at h1; cases h1
        | @line j' c' cs' len buffer h1 h2 h3 h4 h5 h6 h7 h8 =>
          rw [hr] at h1; cases h1
          have hup' : s.up = c :: (rest ++ s.clientCtl.unsent) := by unfold up; rw [hc]; rfl
          rw [hup'] at h4 h5
          rw [rxLineFrom_cons h2] at h5
          have hx : rxByte s.fw.rxBuffer j c = (s.fw.rxBuffer.set j c, .processing 256) := by
            unfold rxByte; rw [if_neg e1, if_neg e2, if_pos e3]
          rw [hx] at h5
          simp only [Option.some.injEq, Prod.mk.injEq] at h5
          rw [h5.2.2, List.count_cons, if_neg (by simpa using e2)] at h4
          exact absurd h4 (by decide)
      unfold crs
      rw [hup, hr]
      show (rest ++ s.clientCtl.unsent).count 0x0d#8 + isProcessing (rxByte s.fw.rxBuffer j c).2 = _
      unfold rxByte
      by_cases e1 : c = 0x0a#8
      · subst e1; simp [isProcessing]
      · by_cases e2 : c = 0x0d#8
        · subst e2; simp [isProcessing]
        · rw [if_neg e1, if_neg e2, if_neg e2, if_neg (fun h => hnot ⟨h, e1, e2⟩)]
          simp [isProcessing]
    · have ho : (rxByte s.fw.rxBuffer j c).2.out = [] := by
        unfold rxByte
        split
        · rfl
        · split
          · rfl
          · split <;> rfl
      have h1 : s.fwCtl.out = [] := by rw [hr]; rfl
      unfold moves
      simp only [ho, h1, hc, List.length_cons]
      omega
  | @fwProcess len f1 f2 hp h1 h2 =>
    refine .inr ⟨rfl, .inl ?_⟩
    unfold crs
    rw [hp]
    show s.up.count _ + 0 < s.up.count _ + 1
    omega
  | @fwPanic len said hp h1 =>
    refine .inr ⟨rfl, .inl ?_⟩
    unfold crs
    rw [hp]
    show s.up.count _ + 0 < s.up.count _ + 1
    omega
  | @clientRead part line todo b rest hw htodo hc =>
    by_cases hb : b = 0x0a#8
    · rw [if_pos hb]
      by_cases hr : part ++ [b] = READY
      · rw [if_pos hr]
        exact .inl (by simp [htodo])
      · rw [if_neg hr]
        refine .inr ⟨rfl, .inr ⟨?_, ?_⟩⟩
        · unfold crs up; rw [hw]; rfl
        · unfold moves; rw [hw, hc]; simp [ClientCtl.unsent]
    · rw [if_neg hb]
      refine .inr ⟨rfl, .inr ⟨?_, ?_⟩⟩
      · unfold crs up; rw [hw]; rfl
      · unfold moves; rw [hw, hc]; simp [ClientCtl.unsent]
  | @clientSend b rest hw =>
    have h1 : s.clientCtl.unsent = b :: rest := by rw [hw]; rfl
    have hu : (if rest = [] then ClientCtl.waiting [] else .sending rest).unsent = rest := by by_cases h : rest = [] <;> simp [h, ClientCtl.unsent]
    refine .inr ⟨rfl, .inr ⟨?_, ?_⟩⟩
    · unfold crs up; simp only [hu, h1]; simp
    · unfold moves; simp only [hu, h1, List.length_append, List.length_cons, List.length_nil]; omega

end Link

/-- **C58, termination.**  No interleaving goes on for ever, so (with `C58_delivered`) under every schedule all the calls are made
unless the black box panics. -/
theorem C58_terminates {o : Osnma C} {cs : List Call} {lines : List (List Byte)} (hl : LinesFor cs lines) (σ : Nat → Link C)
    (h0 : σ 0 = init o lines) : ¬ ∀ n, Link.Step S (σ n) (σ (n + 1)) := by
  intro h
  have hr : ∀ n, Reaches S (init o lines) (σ n) := by
    intro n
    induction n with
    | zero => rw [h0]; exact .refl _
    | succ n ih => exact .step ih (h n)
  have key : ∀ s : Link C, ∀ n, σ n ≠ s := by
    intro s
    induction s using wf_less.induction with
    | _ s ih =>
      intro n hn
      refine ih (σ (n + 1)) ?_ (n + 1) rfl
      rw [← hn]
      exact step_less (inv_reaches (inv_init (S := S) o hl) (hr n)) (h n)
  exact key _ 0 rfl

end Verif
