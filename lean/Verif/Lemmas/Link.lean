import Verif.Model.Link
import Verif.Lemmas.Serial
import Verif.Spec.Transcript

namespace Verif
open Link

variable {C : Crypto} {S : Storage}

/-! ## What the firmware prints -/

/-- A line that is not `READY`. -/
def TalkLine (l : List Byte) : Prop := ∃ body, l = body ++ [0x0a#8] ∧ 0x0a#8 ∉ body ∧ l ≠ READY

/-- Lines, and then `READY`. -/
def Talk (t : List Byte) : Prop := ∃ ls : List (List Byte), (∀ l ∈ ls, TalkLine l) ∧ t = ls.flatten ++ READY

/-- Lines that are not `READY`, and then perhaps a line that is not finished. -/
def Quiet (t : List Byte) : Prop := ∃ (ls : List (List Byte)) (tail : List Byte), (∀ l ∈ ls, TalkLine l) ∧ 0x0a#8 ∉ tail ∧ t = ls.flatten ++ tail

theorem Quiet.nil : Quiet [] := ⟨[], [], by simp, by simp, rfl⟩

theorem Quiet.cons {l t : List Byte} (hl : TalkLine l) (ht : Quiet t) : Quiet (l ++ t) := by
  obtain ⟨ls, tail, h1, h2, rfl⟩ := ht
  refine ⟨l :: ls, tail, fun x hx => ?_, h2, by simp⟩
  rcases List.mem_cons.1 hx with rfl | hx
  · exact hl
  · exact h1 x hx

theorem Quiet.tail {t : List Byte} (h : 0x0a#8 ∉ t) : Quiet t := ⟨[], t, by simp, h, rfl⟩

theorem TalkLine.quiet {l : List Byte} (h : TalkLine l) : Quiet l := by simpa using Quiet.cons h .nil

theorem decimal_no_lf (n : Nat) : 0x0a#8 ∉ decimal n := fun h => by
  have := decimal_digits n _ h; revert this; decide

theorem decimal02_no_lf (n : Nat) : 0x0a#8 ∉ decimal02 n := by
  unfold decimal02
  split
  · intro h
    rcases List.mem_cons.1 h with h | h
    · revert h; decide
    · exact decimal_no_lf n h
  · exact decimal_no_lf n

theorem dec_no_lf (n : Nat) : 0x0a#8 ∉ dec n := by rw [dec_eq]; exact decimal_no_lf n

theorem dec2_no_lf (n : Nat) : 0x0a#8 ∉ dec2 n := by rw [dec2_eq]; exact decimal02_no_lf n

theorem talkLine_of_head {b : Byte} {body : List Byte} (hb : b ≠ 82#8) (h : 0x0a#8 ∉ b :: body) : TalkLine (b :: body ++ [0x0a#8]) := by
  refine ⟨b :: body, rfl, h, fun he => hb ?_⟩
  have : (b :: body ++ [0x0a#8]).head? = READY.head? := by rw [he]
  have hr : READY.head? = some 82#8 := by decide
  rw [hr] at this
  simpa using this

theorem EchoOf.talk {c : Call} {t : List Byte} (h : EchoOf c t) : TalkLine t := by
  have hh : ascii "E" = [69#8] := by decide
  have key : ∀ (svn : Svn) (gst : Gst) (last : List Byte), 0x0a#8 ∉ last →
      TalkLine (ascii "E" ++ dec2 svn.val ++ ascii " WN " ++ dec gst.wn ++ ascii " TOW " ++ dec gst.tow ++ (last ++ [0x0a#8])) := by
    intro svn gst last hl
    rw [hh]
    have : [69#8] ++ dec2 svn.val ++ ascii " WN " ++ dec gst.wn ++ ascii " TOW " ++ dec gst.tow ++ (last ++ [0x0a#8]) =
        69#8 :: (dec2 svn.val ++ ascii " WN " ++ dec gst.wn ++ ascii " TOW " ++ dec gst.tow ++ last) ++ [0x0a#8] := by simp
    rw [this]
    refine talkLine_of_head (by decide) ?_
    simp only [List.mem_cons, List.mem_append, not_or]
    exact ⟨by decide, ⟨⟨⟨⟨dec2_no_lf _, by decide⟩, dec_no_lf _⟩, by decide⟩, dec_no_lf _⟩, hl⟩
  have e1 : ascii " E1B INAV\r\n" = ascii " E1B INAV\r" ++ [0x0a#8] := by decide
  have e2 : ascii " E5B INAV\r\n" = ascii " E5B INAV\r" ++ [0x0a#8] := by decide
  have e3 : ascii " E1B OSNMA\r\n" = ascii " E1B OSNMA\r" ++ [0x0a#8] := by decide
  have e4 : ascii " E5B OSNMA\r\n" = ascii " E5B OSNMA\r" ++ [0x0a#8] := by decide
  cases c with
  | inav w svn gst band =>
    have h : t = _ := h
    rw [h]
    cases band
    · simp only [e1]; exact key _ _ _ (by decide)
    · simp only [e2]; exact key _ _ _ (by decide)
  | osnma w svn gst =>
    obtain ⟨band, h⟩ := h
    rw [h]
    cases band
    · simp only [e3]; exact key _ _ _ (by decide)
    · simp only [e4]; exact key _ _ _ (by decide)

theorem StatusLine.talk {o : Osnma C} {kd : NavKind} {t : List Byte} (h : StatusLine S o kd t) : TalkLine t := by
  obtain ⟨l, _, _, rfl⟩ := h
  have hcr : ascii "\r\n" = [0x0d#8] ++ [0x0a#8] := by decide
  have hbody : 0x0a#8 ∉ (if l = [] then ascii " NONE" else l.flatMap fun x => ascii " E" ++ dec2 x.1.val ++ ascii " TOW " ++ dec x.2.gst.tow) := by
    split
    · decide
    · intro h
      obtain ⟨x, _, hx⟩ := List.mem_flatMap.1 h
      simp only [List.mem_append] at hx
      rcases hx with ((hx | hx) | hx) | hx
      · revert hx; decide
      · exact dec2_no_lf _ hx
      · revert hx; decide
      · exact dec_no_lf _ hx
  generalize (if l = [] then ascii " NONE" else l.flatMap fun x => ascii " E" ++ dec2 x.1.val ++ ascii " TOW " ++ dec x.2.gst.tow) = body at hbody
  have key : ∀ hd : List Byte, 0x0a#8 ∉ hd → TalkLine (65#8 :: hd ++ body ++ ascii "\r\n") := by
    intro hd hn
    have : 65#8 :: hd ++ body ++ ascii "\r\n" = 65#8 :: (hd ++ body ++ [0x0d#8]) ++ [0x0a#8] := by rw [hcr]; simp
    rw [this]
    refine talkLine_of_head (by decide) ?_
    simp only [List.mem_cons, List.mem_append, not_or]
    exact ⟨by decide, ⟨hn, hbody⟩, by decide, by simp⟩
  cases kd
  · exact key (ascii "UTH ADKD=0") (by decide)
  · exact key (ascii "UTH ADKD=4") (by decide)

theorem Talk.ready : Talk READY := ⟨[], by simp, rfl⟩

theorem Talk.ne_nil {t : List Byte} (h : Talk t) : t ≠ [] := by
  obtain ⟨ls, _, rfl⟩ := h
  intro h
  have := (List.append_eq_nil_iff.1 h).2
  revert this; decide

/-- Splitting off the first line. -/
theorem split_line {a b body rest : List Byte} (ha : 0x0a#8 ∉ a) (hb : 0x0a#8 ∉ body) (h : a ++ 0x0a#8 :: b = body ++ 0x0a#8 :: rest) :
    a = body ∧ b = rest := by
  induction a generalizing body with
  | nil =>
    cases body with
    | nil => simpa using h
    | cons x body => simp at h; exact absurd h.1 (fun h => hb (by simp [h]))
  | cons x a ih =>
    cases body with
    | nil => simp at h; exact absurd h.1 (fun h => ha (by simp [h]))
    | cons y body =>
      simp only [List.cons_append, List.cons.injEq] at h
      obtain ⟨h1, h2⟩ := ih (fun h => ha (by simp [h])) (fun h => hb (by simp [h])) h.2
      exact ⟨by rw [h.1, h1], h2⟩

/-- The first line of what the firmware prints: `READY` and it is the last one, or another one. -/
theorem Talk.line {part rest : List Byte} (hp : 0x0a#8 ∉ part) (h : Talk (part ++ 0x0a#8 :: rest)) :
    (part ++ [0x0a#8] = READY ∧ rest = []) ∨ (part ++ [0x0a#8] ≠ READY ∧ Talk rest) := by
  obtain ⟨ls, hls, h⟩ := h
  cases ls with
  | nil =>
    have hr : READY = ascii "READY\r" ++ 0x0a#8 :: [] := by decide
    rw [List.flatten_nil, List.nil_append, hr] at h
    obtain ⟨h1, h2⟩ := split_line hp (by decide) h
    exact .inl ⟨by rw [h1]; decide, h2⟩
  | cons l ls =>
    obtain ⟨body, rfl, hb, hne⟩ := hls l (by simp)
    have : part ++ 0x0a#8 :: rest = body ++ 0x0a#8 :: (ls.flatten ++ READY) := by simpa using h
    obtain ⟨rfl, h2⟩ := split_line hp hb this
    exact .inr ⟨hne, ls, fun l hl => hls l (by simp [hl]), h2⟩

/-- The first line of what is quiet. -/
theorem Quiet.line {part rest : List Byte} (hp : 0x0a#8 ∉ part) (h : Quiet (part ++ 0x0a#8 :: rest)) : part ++ [0x0a#8] ≠ READY ∧ Quiet rest := by
  obtain ⟨ls, tail, hls, ht, h⟩ := h
  cases ls with
  | nil =>
    exfalso
    apply ht
    rw [List.flatten_nil, List.nil_append] at h
    rw [← h]
    simp
  | cons l ls =>
    obtain ⟨body, rfl, hb, hne⟩ := hls l (by simp)
    have : part ++ 0x0a#8 :: rest = body ++ 0x0a#8 :: (ls.flatten ++ tail) := by simpa using h
    obtain ⟨rfl, h2⟩ := split_line hp hb this
    exact ⟨hne, ls, tail, fun l hl => hls l (by simp [hl]), ht, h2⟩

theorem authStatusSaid_no_lf (get : Svn → Res (Option NavMessageData)) (l : List Svn) : 0x0a#8 ∉ authStatusSaid get l := by
  induction l with
  | nil => exact List.not_mem_nil
  | cons v l ih =>
    unfold authStatusSaid
    split
    · exact List.not_mem_nil
    · exact ih
    · intro h
      simp only [List.mem_append, Svn.text] at h
      rcases h with (((h | h | h) | h) | h) | h
      · revert h; decide
      · revert h; decide
      · exact decimal02_no_lf _ h
      · revert h; decide
      · exact decimal_no_lf _ h
      · exact ih h

theorem statusSaid_quiet (f : Firmware C) : Quiet (f.statusSaid S) := by
  have hcr : ascii "\r\n" = [0x0d#8] ++ [0x0a#8] := by decide
  have key : ∀ (hd body : List Byte) (b : Bool), 0x0a#8 ∉ hd → 0x0a#8 ∉ body →
      TalkLine (65#8 :: hd ++ body ++ ((if b then [] else ascii " NONE") ++ ascii "\r\n")) := by
    intro hd body b hn hb
    have : 65#8 :: hd ++ body ++ ((if b then [] else ascii " NONE") ++ ascii "\r\n") = 65#8 :: (hd ++ body ++ (if b then [] else ascii " NONE") ++ [0x0d#8]) ++ [0x0a#8] := by
      rw [hcr]; simp
    rw [this]
    refine talkLine_of_head (by decide) ?_
    simp only [List.mem_cons, List.mem_append, not_or]
    exact ⟨by decide, ⟨⟨hn, hb⟩, by cases b <;> decide⟩, by decide, by simp⟩
  have tl : ∀ (hd body : List Byte), 0x0a#8 ∉ hd → 0x0a#8 ∉ body → Quiet (hd ++ body ++ []) := by
    intro hd body h1 h2
    refine .tail ?_
    simp only [List.mem_append, not_or]
    exact ⟨⟨h1, h2⟩, by simp⟩
  unfold Firmware.statusSaid
  split
  · exact tl _ _ (by decide) (authStatusSaid_no_lf _ _)
  · rw [← List.append_assoc]
    refine Quiet.cons (key (ascii "UTH ADKD=4") _ _ (by decide) (authStatusSaid_no_lf _ _)) ?_
    split
    · exact tl _ _ (by decide) (authStatusSaid_no_lf _ _)
    · exact (key (ascii "UTH ADKD=0") _ _ (by decide) (authStatusSaid_no_lf _ _)).quiet

theorem authStatus_line {get : Svn → Res (Option NavMessageData)} {text : List Byte} {b : Bool} (h : authStatus get = .ok (text, b)) :
    text ++ (if b then [] else ascii " NONE") = if withData get = [] then ascii " NONE" else
      (withData get).flatMap fun x => ascii " E" ++ dec2 x.1.val ++ ascii " TOW " ++ dec x.2.gst.tow := by
  obtain ⟨_, rfl, hb⟩ := authStatus_ok.1 h
  rw [status_text]
  simp only [dec_eq, dec2_eq]
  by_cases hw : withData get = []
  · rw [if_pos hw, hw, if_neg]
    · simp
    · intro h
      obtain ⟨s, d, h⟩ := hb.1 h
      have := mem_withData.2 h
      rw [hw] at this; cases this
  · rw [if_neg hw, if_pos]
    · simp
    · obtain ⟨⟨s, d⟩, hx⟩ := List.exists_mem_of_ne_nil _ hw
      exact hb.2 ⟨s, d, mem_withData.1 hx⟩

theorem authStatusSaid_ok {get : Svn → Res (Option NavMessageData)} {l : List Svn} (h : ∀ u ∈ l, ∃ r, get u = .ok r) (k : List Svn) :
    authStatusSaid get (l ++ k) = l.flatMap (fun s => statusOf (get s) s) ++ authStatusSaid get k := by
  induction l with
  | nil => rfl
  | cons v l ih =>
    obtain ⟨r, hr⟩ := h v (by simp)
    have ih := ih (fun u hu => h u (by simp [hu]))
    rw [List.cons_append, List.flatMap_cons, authStatusSaid, hr]
    cases r with
    | none => simpa [statusOf] using ih
    | some d => simp [statusOf, ih]

theorem first_panic {get : Svn → Res (Option NavMessageData)} {l : List Svn} (h : ¬ ∀ u ∈ l, ∃ r, get u = .ok r) :
    ∃ pre v post, l = pre ++ v :: post ∧ (get v).Panics ∧ ∀ u ∈ pre, ∃ r, get u = .ok r := by
  induction l with
  | nil => exact absurd (by simp) h
  | cons v l ih =>
    cases hv : get v with
    | panic w => exact ⟨[], v, l, rfl, ⟨w, hv⟩, by simp⟩
    | ok r =>
      obtain ⟨pre, v', post, rfl, h1, h2⟩ := ih (fun h' => h fun u hu => by
        rcases List.mem_cons.1 hu with rfl | hu
        · exact ⟨r, hv⟩
        · exact h' u hu)
      refine ⟨v :: pre, v', post, rfl, h1, fun u hu => ?_⟩
      rcases List.mem_cons.1 hu with rfl | hu
      · exact ⟨r, hv⟩
      · exact h2 u hu

open Classical in
theorem statusCut_of {o : Osnma C} {kd : NavKind} (h : (authStatus (o.get S kd)).Panics) :
    StatusCut S o kd ((match (generalizing := false) kd with | .timing => ascii "AUTH ADKD=4" | .ced => ascii "AUTH ADKD=0") ++ authStatusSaid (o.get S kd) Svn.iter) := by
  have hn : ¬ ∀ u ∈ Svn.iter, ∃ r, o.get S kd u = .ok r := by
    intro hg
    have : authStatus (o.get S kd) = .ok (_, decide (∃ svn d, o.get S kd svn = .ok (some d))) :=
      authStatus_ok.2 ⟨fun u => hg u (Svn.mem_iter u), rfl, by simp⟩
    rw [this] at h
    obtain ⟨w, hw⟩ := h
    cases hw
  obtain ⟨pre, v, post, h1, ⟨w, hw⟩, h3⟩ := first_panic hn
  have hsort := Svn.iter_sorted
  rw [h1, List.pairwise_append, List.pairwise_cons] at hsort
  obtain ⟨s1, ⟨s2, _⟩, s3⟩ := hsort
  have hmem : ∀ u : Svn, u ∈ pre ↔ u.val < v.val := by
    intro u
    constructor
    · exact fun hu => s3 u hu v (by simp)
    · intro hu
      have := Svn.mem_iter u
      rw [h1, List.mem_append, List.mem_cons] at this
      rcases this with h | rfl | h
      · exact h
      · omega
      · have := s2 u h; omega
  refine ⟨v, pre.filterMap fun s => match o.get S kd s with
    | .ok (some d) => some (s, d)
    | _ => none, ⟨w, hw⟩, fun u hu => h3 u ((hmem u).2 hu), ?_, ?_, ?_⟩
  · rw [List.pairwise_filterMap]
    refine s1.imp ?_
    intro a b h x hx y hy
    split at hx <;> cases hx
    split at hy <;> cases hy
    exact h
  · intro u d
    rw [List.mem_filterMap]
    constructor
    · rintro ⟨s, hs, h⟩
      split at h
      · rename_i hg
        simp only [Option.some.injEq, Prod.mk.injEq] at h
        obtain ⟨rfl, rfl⟩ := h
        exact ⟨(hmem s).1 hs, hg⟩
      · cases h
    · rintro ⟨hu, hd⟩
      exact ⟨u, (hmem u).2 hu, by rw [hd]⟩
  · rw [h1, authStatusSaid_ok h3]
    have : authStatusSaid (o.get S kd) (v :: post) = [] := by rw [authStatusSaid, hw]
    rw [this, List.append_nil]
    congr 1
    clear h1 h3 s1 s3 hmem
    induction pre with
    | nil => rfl
    | cons s l ih =>
      have hs : ascii " " ++ s.text = ascii " E" ++ decimal02 s.val := by
        unfold Svn.text; rw [← List.append_assoc]; rfl
      rw [List.flatMap_cons, ih, List.filterMap_cons]
      cases hg : o.get S kd s with
      | panic w => simp [statusOf]
      | ok r =>
        cases r with
        | none => simp [statusOf]
        | some d =>
          simp only [statusOf, List.flatMap_cons, dec_eq, dec2_eq]
          rw [hs]

theorem statusCutOff_of {f : Firmware C} (h : (f.printAuthStatus S).Panics) : StatusCutOff S f.osnma (f.statusSaid S) := by
  obtain ⟨w, h⟩ := h
  unfold Firmware.printAuthStatus at h
  simp only [Firmware.write] at h
  unfold Firmware.statusSaid
  cases h4 : authStatus (f.osnma.getTimingParameters S) with
  | panic w =>
    left
    rw [List.append_nil]
    exact statusCut_of (S := S) (o := f.osnma) (kd := .timing) ⟨w, h4⟩
  | ok p =>
    obtain ⟨t4, b4⟩ := p
    rw [h4] at h
    simp only [Res.ok_bind] at h
    cases h0 : authStatus (f.osnma.getCedAndStatus S) with
    | ok p => rw [h0] at h; cases h
    | panic w =>
      right
      refine ⟨_, _, ⟨withData (f.osnma.getTimingParameters S), withData_sorted _, fun _ _ => mem_withData, rfl⟩,
        statusCut_of (S := S) (o := f.osnma) (kd := .ced) ⟨w, h0⟩, ?_⟩
      have ht : t4 = authStatusSaid (f.osnma.getTimingParameters S) Svn.iter := by
        obtain ⟨hg, h, _⟩ := authStatus_ok.1 h4
        have := authStatusSaid_ok (l := Svn.iter) (fun u _ => hg u) []
        rw [List.append_nil] at this
        rw [h, this]
        simp [authStatusSaid]
      rw [← authStatus_line h4, ht]
      simp only [List.append_assoc, List.append_nil]
      rfl

/-! ## The invariant -/

/-- What the client has still to write of the current line. -/
def ClientCtl.unsent : ClientCtl → List Byte
  | .waiting _ => []
  | .sending rest => rest

/-- What the client has read of the current line. -/
def ClientCtl.part : ClientCtl → List Byte
  | .waiting part => part
  | .sending _ => []

/-- What the firmware has still to write. -/
def FwCtl.out : FwCtl → List Byte
  | .writing out => out
  | _ => []

namespace Link

/-- The bytes on their way to the firmware. -/
def up (s : Link C) : List Byte := s.toFw ++ s.clientCtl.unsent

/-- The bytes on their way to the client, with those of the current line already read. -/
def down (s : Link C) : List Byte := s.clientCtl.part ++ s.toClient ++ s.fwCtl.out

/-- `process_line` will make this call. -/
def Does (S : Storage) (buffer : List Byte) (len : Nat) (c : Call) : Prop :=
  buffer.length = 256 ∧ ∀ f : Firmware C, f.rxBuffer = buffer → ∃ text, EchoOf c text ∧ f.processLine S len = (f.write text).call S c

/-- The phases. -/
inductive Phase (S : Storage) (s : Link C) (pending : List Call) : Prop
  /-- The firmware is telling the client that it is ready. -/
  | talking : (s.fwCtl = .reading 0 ∨ s.fwCtl = .writing s.fwCtl.out ∧ s.fwCtl.out ≠ []) → (s.up = [] ∨ s.up = [0x0a#8]) → Talk s.down →
    LinesFor pending s.todo → Phase S s pending
  /-- A line is being sent. -/
  | line {j : Nat} {c : Call} {cs : List Call} {len : Nat} {buffer : List Byte} : s.fwCtl = .reading j → j < 256 → s.down = [] →
    s.up.count 0x0d#8 = 1 → rxLineFrom s.fw.rxBuffer j s.up = some (len, buffer, [0x0a#8]) → Does (C := C) S buffer len c → pending = c :: cs → LinesFor cs s.todo →
    Phase S s pending
  /-- A line has been read. -/
  | busy {c : Call} {cs : List Call} {len : Nat} : s.fwCtl = .processing len → s.down = [] → s.up = [0x0a#8] → Does (C := C) S s.fw.rxBuffer len c →
    pending = c :: cs → LinesFor cs s.todo → Phase S s pending
  /-- After a panic. -/
  | dead {c : Call} {cs : List Call} : s.fwCtl = .halted → s.up = [0x0a#8] ∨ s.up = [] → Quiet s.down → pending = c :: cs →
    ¬ (∃ o, c.run S s.fw.osnma = .ok o ∧ GettersReturn S o) → LinesFor cs s.todo → Phase S s pending

/-- The invariant. -/
structure Inv (S : Storage) (o : Osnma C) (cs : List Call) (s : Link C) : Prop where
  buffer : s.fw.rxBuffer.length = 256
  run : run S o s.fw.calls = .ok s.fw.osnma
  part : 0x0a#8 ∉ s.clientCtl.part
  sending : s.clientCtl ≠ .sending []
  phase : ∃ pending, cs = s.fw.calls ++ pending ∧ Phase S s pending

theorem inv_init (o : Osnma C) {cs : List Call} {lines : List (List Byte)} (h : LinesFor cs lines) : Inv S o cs (init o lines) := by
  refine ⟨List.length_replicate, rfl, by simp [init, ClientCtl.part], by simp [init], cs, rfl, ?_⟩
  exact .talking (.inr ⟨rfl, by show READY ≠ []; decide⟩) (.inl rfl) (by show Talk ([] ++ [] ++ READY); simpa using Talk.ready) h

theorem rxLineFrom_cons {buffer : List Byte} {j : Nat} (h : j < 256) (c : Byte) (rest : List Byte) :
    rxLineFrom buffer j (c :: rest) =
      match (rxByte buffer j c).2 with
      | .reading j' => rxLineFrom (rxByte buffer j c).1 j' rest
      | .processing len => some (len, (rxByte buffer j c).1, rest)
      | _ => none := by
  conv => lhs; unfold rxLineFrom
  rw [if_neg (by omega)]
  unfold rxByte
  by_cases h1 : c = 0x0a#8
  · simp [h1]
  · by_cases h2 : c = 0x0d#8
    · simp [h2]
    · by_cases h3 : j + 1 = 256
      · simp only [if_neg h1, if_neg h2, if_pos h3]
        rw [rxLineFrom.eq_def, if_pos h3]
      · simp only [if_neg h1, if_neg h2, if_neg h3]

theorem lineFor_count {c : Call} {line : List Byte} (h : LineFor c line) : line.count 0x0d#8 = 1 := by
  obtain ⟨svn, gst, band, data, _, rfl, _⟩ := h.parts
  rw [List.count_append]
  have : (content svn.val gst band data).count 0x0d#8 = 0 := List.count_eq_zero.2 fun h =>
    (plain_not_cr (content_plain svn.val gst band data) _ h).2 rfl
  rw [this]; decide

theorem lineFor_ne_nil {c : Call} {line : List Byte} (h : LineFor c line) : line ≠ [] := by
  obtain ⟨svn, gst, band, data, _, rfl, _⟩ := h.parts
  simp

theorem _root_.Verif.Firmware.Echoed.echo {f : Firmware C} {len : Nat} {said : List Byte} (h : f.Echoed S len said) {c : Call}
    (hd : Does (C := C) S f.rxBuffer len c) : EchoOf c said ∨ said = [] := by
  rcases h with ⟨o', f', h, htx⟩ | ⟨h, _⟩
  · obtain ⟨text, ht, he⟩ := hd.2 { f with osnma := o' } rfl
    rw [he] at h
    simp only [Firmware.call, Firmware.write, Res.bind_eq_ok, Res.pure_eq, Res.ok.injEq] at h
    obtain ⟨o2, _, rfl⟩ := h
    simp only [List.append_cancel_left_eq] at htx
    subst htx
    exact .inl ht
  · exact .inr h

/-- What is said at a panic: the call panics, and there is (at most) the echo; or a getter panics, and there are the echo and a part of the status. -/
theorem _root_.Verif.Firmware.SaidAtPanic.parts {f : Firmware C} {len : Nat} {said : List Byte} (h : f.SaidAtPanic S len said) {c : Call}
    (hd : Does (C := C) S f.rxBuffer len c) :
    ((c.run S f.osnma).Panics ∧ (EchoOf c said ∨ said = [])) ∨
      ∃ text o' rest, EchoOf c text ∧ c.run S f.osnma = .ok o' ∧ ¬ GettersReturn S o' ∧ (Quiet rest ∧ StatusCutOff S o' rest) ∧ said = text ++ rest := by
  obtain ⟨text, ht, he⟩ := hd.2 f rfl
  rcases h with ⟨⟨w, hw⟩, h⟩ | ⟨f1, h1, ⟨w, hw⟩, rfl⟩
  · left
    refine ⟨?_, h.echo hd⟩
    rw [he] at hw
    cases hr : c.run S f.osnma with
    | panic w => exact ⟨w, rfl⟩
    | ok o' =>
      simp only [Firmware.call, Firmware.write, hr, Res.ok_bind, Res.pure_eq] at hw
      cases hw
  · right
    rw [he] at h1
    simp only [Firmware.call, Firmware.write, Res.bind_eq_ok, Res.pure_eq, Res.ok.injEq] at h1
    obtain ⟨o', ho, rfl⟩ := h1
    refine ⟨text, o', _, ht, ho, fun hg => ?_, ⟨statusSaid_quiet _, statusCutOff_of (f := { f with osnma := o', tx := f.tx ++ text, calls := f.calls ++ [c] }) ⟨w, hw⟩⟩, by rw [List.drop_left]⟩
    obtain ⟨f', hf'⟩ := printAuthStatus_returns (S := S)
      (f := { f with osnma := o', tx := f.tx ++ text, calls := f.calls ++ [c] }) hg
    rw [hf'] at hw
    cases hw

theorem inv_step {o : Osnma C} {cs : List Call} {s t : Link C} (hi : Inv S o cs s) (h : Step S s t) : Inv S o cs t := by
  obtain ⟨hbuf, hrun, hpart, hsend, pending, hcs, hph⟩ := hi
  cases h with
  | @fwEmit b out hw =>
    refine ⟨hbuf, hrun, hpart, hsend, pending, hcs, ?_⟩
    cases hph with
    | talking h1 h2 h3 h4 =>
      refine .talking ?_ h2 ?_ h4
      · by_cases ho : out = []
        · left; simp [ho]
        · right; simp [ho, FwCtl.out]
      · have : s.down = s.clientCtl.part ++ (s.toClient ++ [b]) ++ (if out = [] then FwCtl.reading 0 else .writing out).out := by
          unfold down; rw [hw]
          by_cases ho : out = [] <;> simp [ho, FwCtl.out]
        rw [this] at h3
        exact h3
    | line h1 => rw [h1] at hw; cases hw
    | busy h1 => rw [h1] at hw; cases hw
    | dead h1 => rw [h1] at hw; cases hw
  | @fwRead j c rest hr hc =>
    have hbuf' : (rxByte s.fw.rxBuffer j c).1.length = 256 := by
      unfold rxByte
      split
      · exact hbuf
      · split
        · exact hbuf
        · split <;> simpa using hbuf
    refine ⟨hbuf', hrun, hpart, hsend, pending, hcs, ?_⟩
    cases hph with
    | talking h1 h2 h3 h4 =>
      have hj : j = 0 := by
        rcases h1 with h1 | h1
        · rw [hr] at h1; exact FwCtl.reading.inj h1
        · rw [hr] at h1; cases h1.1
      subst hj
      have hup : c = 0x0a#8 ∧ rest ++ s.clientCtl.unsent = [] := by
        unfold up at h2
        rw [hc] at h2
        rcases h2 with h2 | h2
        · simp at h2
        · simpa using h2
      obtain ⟨rfl, hup⟩ := hup
      refine .talking (.inl rfl) (.inl hup) ?_ h4
      have : s.down = s.clientCtl.part ++ s.toClient ++ [] := by unfold down; rw [hr]; rfl
      rw [this] at h3
      exact h3
    | @line j' c' cs' len buffer h1 h2 h3 h4 h5 h6 h7 h8 =>
      rw [hr] at h1
      cases h1
      have hup : s.up = c :: (rest ++ s.clientCtl.unsent) := by unfold up; rw [hc]; rfl
      rw [hup] at h4 h5
      rw [rxLineFrom_cons h2] at h5
      have hdown : s.clientCtl.part ++ s.toClient = [] := by
        unfold down at h3; rw [hr] at h3; simpa [FwCtl.out] using h3
      by_cases e1 : c = 0x0a#8
      · subst e1
        refine .line (j := j) rfl h2 ?_ ?_ h5 h6 h7 h8
        · show _ ++ _ ++ [] = []; simpa using hdown
        · show (rest ++ s.clientCtl.unsent).count 0x0d#8 = 1
          rw [List.count_cons] at h4; simpa using h4
      · by_cases e2 : c = 0x0d#8
        · subst e2
          have hx : rxByte s.fw.rxBuffer j 0x0d#8 = (s.fw.rxBuffer, .processing j) := rfl
          rw [hx] at h5
          simp only [Option.some.injEq, Prod.mk.injEq] at h5
          obtain ⟨rfl, rfl, h5⟩ := h5
          exact .busy rfl (by show _ ++ _ ++ [] = []; simpa using hdown) h5 h6 h7 h8
        · by_cases e3 : j + 1 = 256
          · have hx : rxByte s.fw.rxBuffer j c = (s.fw.rxBuffer.set j c, .processing 256) := by
              unfold rxByte; rw [if_neg e1, if_neg e2, if_pos e3]
            rw [hx] at h5
            simp only [Option.some.injEq, Prod.mk.injEq] at h5
            rw [h5.2.2, List.count_cons] at h4
            rw [if_neg (by simpa using e2)] at h4
            exact absurd h4 (by decide)
          · have hx : rxByte s.fw.rxBuffer j c = (s.fw.rxBuffer.set j c, .reading (j + 1)) := by
              unfold rxByte; rw [if_neg e1, if_neg e2, if_neg e3]
            rw [hx] at h5 ⊢
            refine .line (j := j + 1) rfl (by omega) ?_ ?_ h5 h6 h7 h8
            · show _ ++ _ ++ [] = []; simpa using hdown
            · show (rest ++ s.clientCtl.unsent).count 0x0d#8 = 1
              rw [List.count_cons, if_neg (by simpa using e2)] at h4; simpa using h4
    | busy h1 => rw [h1] at hr; cases hr
    | dead h1 => rw [h1] at hr; cases hr
  | @fwProcess len f1 f2 hp h1 h2 =>
    cases hph with
    | talking k1 => rcases k1 with k1 | k1 <;> rw [hp] at k1 <;> first | cases k1.1 | cases k1
    | line k1 => rw [hp] at k1; cases k1
    | dead k1 => rw [hp] at k1; cases k1
    | @busy c cs' len' k1 k2 k3 k4 k5 k6 =>
      rw [hp] at k1
      cases k1
      obtain ⟨text, ht, hd⟩ := k4.2 s.fw rfl
      rw [hd] at h1
      simp only [Firmware.call, Firmware.write, Res.bind_eq_ok, Res.pure_eq, Res.ok.injEq] at h1
      obtain ⟨o', ho, rfl⟩ := h1
      obtain ⟨_, l4, l0, hl4, hl0, rfl⟩ := printAuthStatus_ok h2
      refine ⟨hbuf, ?_, hpart, hsend, cs', by rw [hcs, k5]; simp [Firmware.write], ?_⟩
      · show run S o (s.fw.calls ++ [c]) = .ok o'
        unfold Verif.run at hrun ⊢
        rw [loopM_append, hrun]
        show loopM _ [c] _ = _
        rw [loopM_cons, ho]; rfl
      · have hout : (Firmware.write (Firmware.write { s.fw with osnma := o', tx := s.fw.tx ++ text, calls := s.fw.calls ++ [c] } (l4 ++ l0)) READY).tx.drop
            s.fw.tx.length = [text, l4, l0].flatten ++ READY := by
          simp [Firmware.write, List.append_assoc]
        rw [hout]
        have htalk : Talk ([text, l4, l0].flatten ++ READY) := by
          refine ⟨[text, l4, l0], fun l hl => ?_, rfl⟩
          simp only [List.mem_cons, List.not_mem_nil, or_false] at hl
          rcases hl with rfl | rfl | rfl
          · exact ht.talk
          · exact hl4.talk
          · exact hl0.talk
        refine .talking (.inr ⟨rfl, htalk.ne_nil⟩) (.inr k3) ?_ k6
        have hdown : s.clientCtl.part ++ s.toClient = [] := by
          unfold down at k2; rw [hp] at k2; simpa [FwCtl.out] using k2
        show Talk (s.clientCtl.part ++ s.toClient ++ _)
        rw [hdown]; exact htalk
  | @fwPanic len said hp h1 =>
    cases hph with
    | talking k1 => rcases k1 with k1 | k1 <;> rw [hp] at k1 <;> first | cases k1.1 | cases k1
    | line k1 => rw [hp] at k1; cases k1
    | dead k1 => rw [hp] at k1; cases k1
    | @busy c cs' len' k1 k2 k3 k4 k5 k6 =>
      rw [hp] at k1
      cases k1
      refine ⟨hbuf, hrun, hpart, hsend, pending, hcs, ?_⟩
      refine .dead rfl (.inl k3) ?_ k5 ?_ k6
      · have hdown : s.clientCtl.part ++ s.toClient = [] := by
          unfold down at k2; rw [hp] at k2; simpa [FwCtl.out] using k2
        show Quiet (s.clientCtl.part ++ (s.toClient ++ said) ++ [])
        rw [List.append_nil, ← List.append_assoc, hdown, List.nil_append]
        rcases h1.parts k4 with ⟨_, h | h⟩ | ⟨text, o', rest, ht, _, _, ⟨hq, _⟩, rfl⟩
        · exact h.talk.quiet
        · rw [h]; exact .nil
        · exact .cons ht.talk hq
      · rintro ⟨o', ho, hg⟩
        have ho : c.run S s.fw.osnma = .ok o' := ho
        rcases h1.parts k4 with ⟨⟨w, hw⟩, _⟩ | ⟨text, o2, rest, ht, ho2, hng, _⟩
        · rw [ho] at hw; cases hw
        · rw [ho] at ho2
          cases ho2
          exact hng hg
  | @clientRead part line todo b rest hw htodo hc =>
    have hdn : s.down = part ++ b :: (rest ++ s.fwCtl.out) := by unfold down; rw [hw, hc]; simp [ClientCtl.part]
    have hup : s.up = s.toFw := by unfold up; rw [hw]; simp [ClientCtl.unsent]
    cases hph with
    | line _ _ k3 => rw [hdn] at k3; simp at k3
    | busy _ k3 => rw [hdn] at k3; simp at k3
    | dead k1 k2 k3 k4 k5 k6 =>
      rw [hw] at hpart
      have hpart : 0x0a#8 ∉ part := hpart
      rw [hdn] at k3
      by_cases hb : b = 0x0a#8
      · subst hb
        obtain ⟨e3, e4⟩ := k3.line hpart
        rw [if_pos rfl, if_neg e3]
        refine ⟨hbuf, hrun, by simp [ClientCtl.part], by simp, pending, hcs, .dead k1 ?_ ?_ k4 k5 k6⟩
        · rw [hup] at k2; show s.toFw ++ [] = _ ∨ s.toFw ++ [] = []; simpa using k2
        · show Quiet ([] ++ rest ++ s.fwCtl.out)
          simpa using e4
      · rw [if_neg hb]
        refine ⟨hbuf, hrun, ?_, by simp, pending, hcs, .dead k1 ?_ ?_ k4 k5 k6⟩
        · show 0x0a#8 ∉ part ++ [b]
          simp [hpart, Ne.symm hb]
        · rw [hup] at k2; show s.toFw ++ [] = _ ∨ s.toFw ++ [] = []; simpa using k2
        · show Quiet (part ++ [b] ++ rest ++ s.fwCtl.out)
          simpa using k3
    | talking h1 h2 h3 h4 =>
      rw [hdn] at h3
      rw [hw] at hpart
      have hpart : 0x0a#8 ∉ part := hpart
      by_cases hb : b = 0x0a#8
      · subst hb
        rw [if_pos rfl]
        rcases h3.line hpart with ⟨e1, e2⟩ | ⟨e1, e2⟩
        · rw [if_pos e1]
          rw [htodo] at h4
          cases h4 with
          | @cons c _ cs' _ hline hrest =>
          obtain ⟨hr0, ho⟩ := List.append_eq_nil_iff.1 e2
          have hctl : s.fwCtl = .reading 0 := by
            rcases h1 with h1 | h1
            · exact h1
            · exact absurd ho h1.2
          refine ⟨hbuf, hrun, by simp [ClientCtl.part], by simpa using lineFor_ne_nil hline, c :: cs', hcs, ?_⟩
          rw [hup] at h2
          have hn : ∃ n, s.toFw = List.replicate n 0x0a#8 := by
            rcases h2 with h2 | h2
            · exact ⟨0, h2⟩
            · exact ⟨1, h2⟩
          obtain ⟨n, hn⟩ := hn
          obtain ⟨len, buffer', r1, r2, r3⟩ := rx_line (C := C) (S := S) hbuf hline n []
          refine .line (j := 0) (c := c) (cs := cs') (len := len) (buffer := buffer') hctl (by omega) ?_ ?_ ?_ ⟨r2, r3⟩ rfl hrest
          · show [] ++ rest ++ s.fwCtl.out = []
            rw [hr0, ho]; rfl
          · show (s.toFw ++ line).count 0x0d#8 = 1
            rw [hn, List.count_append, lineFor_count hline, List.count_replicate]; rfl
          · show rxLineFrom s.fw.rxBuffer 0 (s.toFw ++ line) = _
            rw [hn]
            simpa using r1
        · rw [if_neg e1]
          refine ⟨hbuf, hrun, by simp [ClientCtl.part], by simp, pending, hcs, .talking h1 (by rw [hup] at h2; show s.toFw ++ [] = [] ∨ s.toFw ++ [] = _; simpa using h2) ?_ h4⟩
          show Talk ([] ++ rest ++ s.fwCtl.out)
          simpa using e2
      · rw [if_neg hb]
        refine ⟨hbuf, hrun, ?_, by simp, pending, hcs, .talking h1 (by rw [hup] at h2; show s.toFw ++ [] = [] ∨ s.toFw ++ [] = _; simpa using h2) ?_ h4⟩
        · show 0x0a#8 ∉ part ++ [b]
          simp [hpart, Ne.symm hb]
        · show Talk (part ++ [b] ++ rest ++ s.fwCtl.out)
          simpa using h3
  | @clientSend b rest hw =>
    have hup : (s.toFw ++ [b]) ++ (if rest = [] then ClientCtl.waiting [] else .sending rest).unsent = s.up := by
      unfold up; rw [hw]
      by_cases hr : rest = [] <;> simp [hr, ClientCtl.unsent]
    have hpt : (if rest = [] then ClientCtl.waiting [] else .sending rest).part = [] := by
      by_cases hr : rest = [] <;> simp [hr, ClientCtl.part]
    have hpt0 : s.clientCtl.part = [] := by rw [hw]; rfl
    have hdn : ([] : List Byte) ++ s.toClient ++ s.fwCtl.out = s.down := by unfold down; rw [hpt0]
    refine ⟨hbuf, hrun, by rw [hpt]; simp, ?_, pending, hcs, ?_⟩
    · by_cases hr : rest = [] <;> simp [hr]
    · cases hph with
      | talking h1 h2 h3 h4 =>
        refine .talking h1 ?_ ?_ h4
        · show (s.toFw ++ [b]) ++ _ = [] ∨ (s.toFw ++ [b]) ++ _ = _
          rw [hup]; exact h2
        · show Talk (_ ++ s.toClient ++ s.fwCtl.out)
          rw [hpt, hdn]; exact h3
      | line h1 h2 h3 h4 h5 h6 h7 h8 =>
        refine .line h1 h2 ?_ ?_ ?_ h6 h7 h8
        · show _ ++ s.toClient ++ s.fwCtl.out = []
          rw [hpt, hdn]; exact h3
        · show ((s.toFw ++ [b]) ++ _).count _ = 1
          rw [hup]; exact h4
        · show rxLineFrom _ _ ((s.toFw ++ [b]) ++ _) = _
          rw [hup]; exact h5
      | busy h1 h2 h3 h4 h5 h6 =>
        refine .busy h1 ?_ ?_ h4 h5 h6
        · show _ ++ s.toClient ++ s.fwCtl.out = []
          rw [hpt, hdn]; exact h2
        · show (s.toFw ++ [b]) ++ _ = _
          rw [hup]; exact h3
      | dead h1 h2 h3 h4 h5 h6 =>
        refine .dead h1 ?_ ?_ h4 h5 h6
        · show (s.toFw ++ [b]) ++ _ = _ ∨ (s.toFw ++ [b]) ++ _ = _
          rw [hup]; exact h2
        · show Quiet (_ ++ s.toClient ++ s.fwCtl.out)
          rw [hpt, hdn]; exact h3

theorem inv_reaches {o : Osnma C} {cs : List Call} {s t : Link C} (hi : Inv S o cs s) (h : Reaches S s t) : Inv S o cs t := by
  induction h with
  | refl => exact hi
  | step _ h ih => exact inv_step ih h

end Link
end Verif
