import Verif.Lemmas.WireMsg
import Verif.Props.Prost

/-! # Galmon messages on the wire (C67) -/

namespace Verif.Wire
open Pb (req opt)

/-! ## The messages of `navmon.proto` -/

def su32 (f : Nat → Pb.Codec → Pb.Field) (n : Nat) : Sem := ⟨f n Pb.uint32, uint32, numR (· % 2 ^ 32)⟩
def su64 (f : Nat → Pb.Codec → Pb.Field) (n : Nat) : Sem := ⟨f n Pb.uint64, uint64, numR id⟩
def si32 (f : Nat → Pb.Codec → Pb.Field) (n : Nat) (k : Nat := 0) : Sem := ⟨f n (Pb.int32 k), int32, numR (· % 2 ^ 32)⟩
def sbool (f : Nat → Pb.Codec → Pb.Field) (n : Nat) : Sem := ⟨f n Pb.bool, bool, numR fun n => if n = 0 then 0 else 1⟩
def sdbl (f : Nat → Pb.Codec → Pb.Field) (n : Nat) : Sem := ⟨f n Pb.double, double, doubleR⟩
def sbytes (f : Nat → Pb.Codec → Pb.Field) (n : Nat) : Sem := ⟨f n Pb.bytes, bytes, bytesR⟩
def sstr (f : Nat → Pb.Codec → Pb.Field) (n : Nat) : Sem := ⟨f n Pb.string, string, stringR⟩
def smsg (f : Nat → Pb.Codec → Pb.Field) (n : Nat) (fs : List Pb.Field) (t : List (Nat × Ty)) (ss : List Sem) : Sem :=
  ⟨f n (Pb.message fs), message t, msgR ss⟩

theorem FieldsOk.mono {fs : List Pb.Field} {m n : Nat} (h : Pb.FieldsOk fs m) (hmn : m ≤ n) : Pb.FieldsOk fs n :=
  ⟨h.nums, h.range, fun f hf => (h.lawful f hf).mono hmn⟩

macro "wire_leaf" : tactic =>
  `(tactic| first
    | exact reads_uint32.mono (by decide) | exact reads_uint64.mono (by decide) | exact reads_int32.mono (by decide) | exact reads_bool.mono (by decide)
    | exact reads_double.mono (by decide) | exact reads_bytes.mono (by decide) | exact reads_string.mono (by decide))

macro "wire_leaves" : tactic =>
  `(tactic| repeat' (first
    | (exact fun s hs => absurd hs List.not_mem_nil)
    | (refine List.forall_mem_cons.2 ⟨by wire_leaf, ?_⟩)))

def galileoInavS : List Sem :=
  [su32 req 1, su32 req 2, su32 req 3, su32 req 4, sbytes req 5, su32 opt 6, sbytes opt 7, sbytes opt 8, sbytes opt 9, sbytes opt 10, sbytes opt 11,
    su32 opt 12]

theorem galileoInav_describes : Describes galileoInavS Pb.galileoInav galileoInav 1 :=
  ⟨rfl, rfl, FieldsOk.mono Pb.galileoInav_ok (by decide), by unfold galileoInavS; wire_leaves, by decide⟩

def fnavS : List Sem := [su32 req 1, su32 req 2, su32 req 3, su32 req 4, sbytes req 5, su32 req 6]

theorem galileoFnav_describes : Describes fnavS Pb.galileoFnav galileoFnav 1 :=
  ⟨rfl, rfl, FieldsOk.mono Pb.galileoFnav_ok (by decide), by unfold fnavS; wire_leaves, by decide⟩

theorem galileoCnav_describes : Describes fnavS Pb.galileoFnav galileoCnav 1 := galileoFnav_describes
theorem gpsCnav_describes : Describes fnavS Pb.galileoFnav gPSCnav 1 := galileoFnav_describes

def gpsInavS : List Sem := [su32 req 1, su32 req 2, su32 req 3, su32 req 4, sbytes req 5, su32 opt 6]

theorem gpsInav_describes : Describes gpsInavS Pb.gpsInav gPSInav 1 :=
  ⟨rfl, rfl, FieldsOk.mono Pb.gpsInav_ok (by decide), by unfold gpsInavS; wire_leaves, by decide⟩

theorem beidouInavD1_describes : Describes gpsInavS Pb.gpsInav beidouInavD1 1 := gpsInav_describes
theorem beidouInavD2_describes : Describes gpsInavS Pb.gpsInav beidouInavD2 1 := gpsInav_describes

def glonassInavS : List Sem := [su32 req 1, su32 req 2, su32 req 3, sbytes req 4, su32 opt 5]

theorem glonassInav_describes : Describes glonassInavS Pb.glonassInav glonassInav 1 :=
  ⟨rfl, rfl, FieldsOk.mono Pb.glonassInav_ok (by decide), by unfold glonassInavS; wire_leaves, by decide⟩

def receptionDataS : List Sem :=
  [su32 req 1, su32 req 2, su32 req 3, su32 req 4, su32 req 5, sdbl req 6, su32 opt 7, su32 opt 8, sbool opt 9]

theorem receptionData_describes : Describes receptionDataS Pb.receptionData receptionData 1 :=
  ⟨rfl, rfl, FieldsOk.mono Pb.receptionData_ok (by decide), by unfold receptionDataS; wire_leaves, by decide⟩

def rfDataS : List Sem :=
  [sdbl req 1, su32 req 2, su32 req 3, su32 req 4, sdbl req 5, sdbl req 6, sdbl req 7, sdbl req 8, sdbl req 9, sdbl req 10, sdbl req 11, su32 opt 12,
    su32 opt 13, sbool opt 14, sbool opt 15, sbool opt 16, sbool opt 17, sbool opt 18]

theorem rfData_describes : Describes rfDataS Pb.rfData rFData 1 :=
  ⟨rfl, rfl, FieldsOk.mono Pb.rfData_ok (by decide), by unfold rfDataS; wire_leaves, by decide⟩

def observerPositionS : List Sem := [sdbl req 1, sdbl req 2, sdbl req 3, sdbl req 4, sdbl opt 5]

theorem observerPosition_describes : Describes observerPositionS Pb.observerPosition observerPosition 1 :=
  ⟨rfl, rfl, FieldsOk.mono Pb.observerPosition_ok (by decide), by unfold observerPositionS; wire_leaves, by decide⟩

def sarResponseS : List Sem := [su32 req 1, su32 req 2, su32 req 3, su32 req 4, sbytes req 5, su32 req 6, sbytes req 7]

theorem sarResponse_describes : Describes sarResponseS Pb.sarResponse sARResponse 1 :=
  ⟨rfl, rfl, FieldsOk.mono Pb.sarResponse_ok (by decide), by unfold sarResponseS; wire_leaves, by decide⟩

def debuggingMessageS : List Sem := [su32 req 1, sbytes req 2]

theorem debuggingMessage_describes : Describes debuggingMessageS Pb.debuggingMessage debuggingMessage 1 :=
  ⟨rfl, rfl, FieldsOk.mono Pb.debuggingMessage_ok (by decide), by unfold debuggingMessageS; wire_leaves, by decide⟩

def observerDetailsS : List Sem :=
  [sstr req 1, sstr req 2, sstr req 3, sstr req 4, sstr req 5, sdbl opt 6, sdbl opt 7, sdbl opt 8, sdbl opt 9, sstr opt 10, sstr opt 11, sstr opt 12,
    su32 opt 13]

theorem observerDetails_describes : Describes observerDetailsS Pb.observerDetails observerDetails 1 :=
  ⟨rfl, rfl, FieldsOk.mono Pb.observerDetails_ok (by decide), by unfold observerDetailsS; wire_leaves, by decide⟩

def ubloxJammingStatsS : List Sem := [su32 req 1, su32 req 2, su32 req 3, su32 req 4]

theorem ubloxJammingStats_describes : Describes ubloxJammingStatsS Pb.ubloxJammingStats ubloxJammingStats 1 :=
  ⟨rfl, rfl, FieldsOk.mono Pb.ubloxJammingStats_ok (by decide), by unfold ubloxJammingStatsS; wire_leaves, by decide⟩

def sbasMessageS : List Sem := [su32 req 1, su32 req 2, sbytes req 3]

theorem sbasMessage_describes : Describes sbasMessageS Pb.sbasMessage sBASMessage 1 :=
  ⟨rfl, rfl, FieldsOk.mono Pb.sbasMessage_ok (by decide), by unfold sbasMessageS; wire_leaves, by decide⟩

def rtcmMessageS : List Sem := [sbytes req 5]

theorem rtcmMessage_describes : Describes rtcmMessageS Pb.rtcmMessage rTCMMessage 1 :=
  ⟨rfl, rfl, FieldsOk.mono Pb.rtcmMessage_ok (by decide), by unfold rtcmMessageS; wire_leaves, by decide⟩

def gnssOffsetS : List Sem :=
  [su32 req 1, si32 req 2, su32 req 3, sbool req 4, si32 opt 5, su32 req 6, su32 opt 7, su32 opt 8, su32 opt 9]

theorem gnssOffset_describes : Describes gnssOffsetS Pb.gnssOffset gNSSOffset 1 :=
  ⟨rfl, rfl, FieldsOk.mono Pb.gnssOffset_ok (by decide), by unfold gnssOffsetS; wire_leaves, by decide⟩

def timeOffsetMessageS : List Sem := [su32 req 1, smsg (fun n c => ⟨.repeated, n, c⟩) 2 Pb.gnssOffset gNSSOffset gnssOffsetS]

theorem timeOffsetMessage_describes : Describes timeOffsetMessageS Pb.timeOffsetMessage timeOffsetMessage 2 := by
  refine ⟨rfl, rfl, FieldsOk.mono Pb.timeOffsetMessage_ok (by decide), ?_, by decide⟩
  unfold timeOffsetMessageS
  refine List.forall_mem_cons.2 ⟨by wire_leaf, List.forall_mem_cons.2 ⟨reads_message gnssOffset_describes, fun s hs => absurd hs List.not_mem_nil⟩⟩

def navMonMessageS : List Sem :=
  [su64 req 1, si32 req 2 1, su64 req 3, su64 req 4, smsg opt 5 Pb.galileoInav galileoInav galileoInavS,
    smsg opt 6 Pb.receptionData receptionData receptionDataS, smsg opt 7 Pb.rfData rFData rfDataS,
    smsg opt 8 Pb.observerPosition observerPosition observerPositionS, smsg opt 9 Pb.gpsInav gPSInav gpsInavS,
    smsg opt 10 Pb.gpsInav beidouInavD1 gpsInavS, smsg opt 11 Pb.gpsInav beidouInavD2 gpsInavS, smsg opt 12 Pb.glonassInav glonassInav glonassInavS,
    smsg opt 13 Pb.sarResponse sARResponse sarResponseS, smsg opt 14 Pb.debuggingMessage debuggingMessage debuggingMessageS,
    smsg opt 15 Pb.observerDetails observerDetails observerDetailsS, smsg opt 16 Pb.ubloxJammingStats ubloxJammingStats ubloxJammingStatsS,
    smsg opt 17 Pb.sbasMessage sBASMessage sbasMessageS, smsg opt 18 Pb.galileoFnav gPSCnav fnavS, smsg opt 19 Pb.rtcmMessage rTCMMessage rtcmMessageS,
    smsg opt 20 Pb.timeOffsetMessage timeOffsetMessage timeOffsetMessageS, smsg opt 21 Pb.galileoFnav galileoFnav fnavS,
    smsg opt 22 Pb.galileoFnav galileoCnav fnavS]

theorem reads_message3 {ss : List Sem} {fs : List Pb.Field} {t : List (Nat × Ty)} (h : Describes ss fs t 1) :
    Reads (Pb.message fs) (message t) (msgR ss) 3 := (reads_message h).mono (by decide)

theorem navMonMessage_describes : Describes navMonMessageS Pb.navMonMessage navMonMessage 3 := by
  refine ⟨rfl, rfl, FieldsOk.mono Pb.navMonMessage_ok (by decide), ?_, by decide⟩
  unfold navMonMessageS
  refine List.forall_mem_cons.2 ⟨by wire_leaf, ?_⟩
  refine List.forall_mem_cons.2 ⟨by wire_leaf, ?_⟩
  refine List.forall_mem_cons.2 ⟨by wire_leaf, ?_⟩
  refine List.forall_mem_cons.2 ⟨by wire_leaf, ?_⟩
  refine List.forall_mem_cons.2 ⟨reads_message3 galileoInav_describes, ?_⟩
  refine List.forall_mem_cons.2 ⟨reads_message3 receptionData_describes, ?_⟩
  refine List.forall_mem_cons.2 ⟨reads_message3 rfData_describes, ?_⟩
  refine List.forall_mem_cons.2 ⟨reads_message3 observerPosition_describes, ?_⟩
  refine List.forall_mem_cons.2 ⟨reads_message3 gpsInav_describes, ?_⟩
  refine List.forall_mem_cons.2 ⟨reads_message3 beidouInavD1_describes, ?_⟩
  refine List.forall_mem_cons.2 ⟨reads_message3 beidouInavD2_describes, ?_⟩
  refine List.forall_mem_cons.2 ⟨reads_message3 glonassInav_describes, ?_⟩
  refine List.forall_mem_cons.2 ⟨reads_message3 sarResponse_describes, ?_⟩
  refine List.forall_mem_cons.2 ⟨reads_message3 debuggingMessage_describes, ?_⟩
  refine List.forall_mem_cons.2 ⟨reads_message3 observerDetails_describes, ?_⟩
  refine List.forall_mem_cons.2 ⟨reads_message3 ubloxJammingStats_describes, ?_⟩
  refine List.forall_mem_cons.2 ⟨reads_message3 sbasMessage_describes, ?_⟩
  refine List.forall_mem_cons.2 ⟨reads_message3 gpsCnav_describes, ?_⟩
  refine List.forall_mem_cons.2 ⟨reads_message3 rtcmMessage_describes, ?_⟩
  refine List.forall_mem_cons.2 ⟨reads_message timeOffsetMessage_describes, ?_⟩
  refine List.forall_mem_cons.2 ⟨reads_message3 galileoFnav_describes, ?_⟩
  refine List.forall_mem_cons.2 ⟨reads_message3 galileoCnav_describes, ?_⟩
  exact fun s hs => absurd hs List.not_mem_nil

/-! ## Uniqueness -/

theorem Base128.unique {p p' r r' : List Byte} {n n' : Nat} (h : Base128 p n) : Base128 p' n' → p ++ r = p' ++ r' → p = p' ∧ n = n' ∧ r = r' := by
  induction h generalizing p' n' with
  | @last b hb =>
    intro h' he
    cases h' with
    | last hb' =>
      simp only [List.cons_append, List.nil_append, List.cons.injEq] at he
      obtain ⟨rfl, rfl⟩ := he
      exact ⟨rfl, rfl, rfl⟩
    | more hb' _ =>
      simp only [List.cons_append, List.nil_append, List.cons.injEq] at he
      obtain ⟨rfl, _⟩ := he
      omega
  | @more b l n hb _ ih =>
    intro h' he
    cases h' with
    | last hb' =>
      simp only [List.cons_append, List.nil_append, List.cons.injEq] at he
      obtain ⟨rfl, _⟩ := he
      omega
    | more hb' h2 =>
      simp only [List.cons_append, List.cons.injEq] at he
      obtain ⟨rfl, he⟩ := he
      obtain ⟨rfl, rfl, rfl⟩ := ih h2 he
      exact ⟨rfl, rfl, rfl⟩

theorem Key.unique {k k' r r' : List Byte} {n n' t t' : Nat} (h : Key k n t) (h' : Key k' n' t') (he : k ++ r = k' ++ r') :
    k = k' ∧ n = n' ∧ t = t' ∧ r = r' := by
  obtain ⟨h1, h2, h3⟩ := h.1.1.unique h'.1.1 he
  have := h.2.1
  have := h'.2.1
  exact ⟨h1, by omega, by omega, h3⟩

theorem FieldsOf.unique {P : Nat → List Byte → Data → Prop}
    (hP : ∀ {num p p' x x' r r'}, P num p x → P num p' x' → x.type = x'.type → p ++ r = p' ++ r' → p = p' ∧ x = x' ∧ r = r')
    {l l' : List Byte} {es es' : List Elem} (h : FieldsOf P l es) : ∀ {r r' : List Byte}, FieldsOf P l' es' → l ++ r = l' ++ r' →
    (r = [] ∧ r' = [] ∨ ∃ k k' n n' s s', Key k n 4 ∧ Key k' n' 4 ∧ r = k ++ s ∧ r' = k' ++ s') → l = l' ∧ es = es' ∧ r = r' := by
  induction h generalizing l' es' with
  | nil =>
    intro r r' h' he hend
    cases h' with
    | nil => exact ⟨rfl, rfl, he⟩
    | @cons k p l num x es hk _ _ =>
      exfalso
      rcases hend with ⟨rfl, rfl⟩ | ⟨k1, k2, n1, n2, s, s', h1, _, rfl, rfl⟩
      · have h1 := congrArg List.length he
        have h2 := hk.pos
        simp only [List.length_append, List.length_nil] at h1
        omega
      · have := (h1.unique hk (r := s) (r' := p ++ l ++ (k2 ++ s')) (by simpa using he)).2.2.1
        cases x <;> simp [Data.type] at this
  | @cons k p l num x es hk hp hl ih =>
    intro r r' h' he hend
    cases h' with
    | nil =>
      exfalso
      rcases hend with ⟨rfl, rfl⟩ | ⟨k1, k2, n1, n2, s, s', _, h2, rfl, rfl⟩
      · have h1 := congrArg List.length he
        have h2 := hk.pos
        simp only [List.length_append, List.length_nil] at h1
        omega
      · have := (h2.unique hk (r := s') (r' := p ++ l ++ (k1 ++ s)) (by simpa using he.symm)).2.2.1
        cases x <;> simp [Data.type] at this
    | @cons k' p' l' num' x' es' hk' hp' hl' =>
      simp only [List.append_assoc] at he
      obtain ⟨rfl, rfl, ht, he⟩ := hk.unique hk' he
      obtain ⟨rfl, rfl, he⟩ := hP hp hp' ht he
      obtain ⟨rfl, rfl, rfl⟩ := ih hl' he hend
      exact ⟨rfl, rfl, rfl⟩

theorem Payload.unique : ∀ (d : Nat) {num : Nat} {p p' : List Byte} {x x' : Data} {r r' : List Byte}, Payload d num p x → Payload d num p' x' →
    x.type = x'.type → p ++ r = p' ++ r' → p = p' ∧ x = x' ∧ r = r' := by
  have fixed : ∀ {n : Nat} {b b' r r' : List Byte}, b.length = n → b'.length = n → b ++ r = b' ++ r' → b = b' ∧ r = r' := by
    intro n b b' r r' h1 h2 he
    exact List.append_inj he (by omega)
  intro d
  induction d with
  | zero =>
    intro num p p' x x' r r' h h' ht he
    cases x <;> cases x' <;> simp only [Data.type, Nat.reduceEqDiff, reduceCtorEq] at ht <;> unfold Payload at h h'
    · obtain ⟨rfl, rfl, rfl⟩ := h.1.unique h'.1 he; exact ⟨rfl, rfl, rfl⟩
    · obtain ⟨rfl, h1⟩ := h
      obtain ⟨rfl, h2⟩ := h'
      obtain ⟨rfl, rfl⟩ := fixed h1 h2 he; exact ⟨rfl, rfl, rfl⟩
    · obtain ⟨len, h1, rfl⟩ := h
      obtain ⟨len', h2, rfl⟩ := h'
      simp only [List.append_assoc] at he
      obtain ⟨rfl, h3, h4⟩ := h1.1.unique h2.1 he
      obtain ⟨rfl, rfl⟩ := fixed h3 rfl h4; exact ⟨rfl, rfl, rfl⟩
    · exact h.elim
    · obtain ⟨rfl, h1⟩ := h
      obtain ⟨rfl, h2⟩ := h'
      obtain ⟨rfl, rfl⟩ := fixed h1 h2 he; exact ⟨rfl, rfl, rfl⟩
  | succ d ih =>
    intro num p p' x x' r r' h h' ht he
    cases x <;> cases x' <;> simp only [Data.type, Nat.reduceEqDiff, reduceCtorEq] at ht <;> unfold Payload at h h'
    · obtain ⟨rfl, rfl, rfl⟩ := h.1.unique h'.1 he; exact ⟨rfl, rfl, rfl⟩
    · obtain ⟨rfl, h1⟩ := h
      obtain ⟨rfl, h2⟩ := h'
      obtain ⟨rfl, rfl⟩ := fixed h1 h2 he; exact ⟨rfl, rfl, rfl⟩
    · obtain ⟨len, h1, rfl⟩ := h
      obtain ⟨len', h2, rfl⟩ := h'
      simp only [List.append_assoc] at he
      obtain ⟨rfl, h3, h4⟩ := h1.1.unique h2.1 he
      obtain ⟨rfl, rfl⟩ := fixed h3 rfl h4; exact ⟨rfl, rfl, rfl⟩
    · obtain ⟨body, es, last, h1, h2, rfl⟩ := h
      obtain ⟨body', es', last', h1', h2', rfl⟩ := h'
      simp only [List.append_assoc] at he
      obtain ⟨rfl, _, h3⟩ := h1.unique (fun a b c e => ih a.2 b.2 c e) h1' he (.inr ⟨last, last', num, num, r, r', h2, h2', rfl, rfl⟩)
      obtain ⟨rfl, _, _, rfl⟩ := h2.unique h2' h3
      exact ⟨rfl, rfl, rfl⟩
    · obtain ⟨rfl, h1⟩ := h
      obtain ⟨rfl, h2⟩ := h'
      obtain ⟨rfl, rfl⟩ := fixed h1 h2 he; exact ⟨rfl, rfl, rfl⟩

/-- **C67.**  Bytes are read as fields in at most one way. -/
theorem fields_unique {d : Nat} {l : List Byte} {es es' : List Elem} (h : Fields d l es) (h' : Fields d l es') : es = es' :=
  (FieldsOf.unique (P := Payload d) (fun a b c e => Payload.unique d a b c e) h h' (r := []) (r' := []) rfl (.inl ⟨rfl, rfl⟩)).2.1

theorem GiParts.unique {es : List Elem} {ps : List (List Elem)} (h : GiParts es ps) : ∀ {ps'}, GiParts es ps' → ps = ps' := by
  induction h with
  | nil => intro ps' h'; cases h'; rfl
  | other hn _ ih =>
    intro ps' h'
    cases h' with
    | other _ h2 => exact ih h2
    | part _ _ => exact absurd rfl hn
  | part hf _ ih =>
    intro ps' h'
    cases h' with
    | other hn _ => exact absurd rfl hn
    | part hf' h2 => rw [ih h2, fields_unique hf hf']

theorem InavOf.unique {es : List Elem} {i j : GalileoInav} (h : InavOf es i) (h' : InavOf es j) : i = j := by
  cases i
  cases j
  have h1 := h.1; have h2 := h.2; have h3 := h.3; have h4 := h.4; have h5 := h.5; have h6 := h.6; have h7 := h.7; have h8 := h.8
  have h9 := h.9; have h10 := h.10; have h11 := h.11; have h12 := h.12
  have k1 := h'.1; have k2 := h'.2; have k3 := h'.3; have k4 := h'.4; have k5 := h'.5; have k6 := h'.6; have k7 := h'.7; have k8 := h'.8
  have k9 := h'.9; have k10 := h'.10; have k11 := h'.11; have k12 := h'.12
  dsimp only at *
  rw [h1, h2, h3, h4, h5, h6, h7, h8, h9, h10, h11, h12, k1, k2, k3, k4, k5, k6, k7, k8, k9, k10, k11, k12]

theorem NavData.unique {es : List Elem} {g g' : Option GalileoInav} (h : NavData es g) (h' : NavData es g') : g = g' := by
  obtain ⟨ps, h1, h2⟩ := h
  obtain ⟨ps', h1', h2'⟩ := h'
  obtain rfl := h1.unique h1'
  cases g with
  | none =>
    cases g' with
    | none => rfl
    | some j => exact absurd h2 h2'.1
  | some i =>
    cases g' with
    | none => exact absurd h2' h2.1
    | some j => rw [h2.2.unique h2'.2]

/-! ## The last field counts -/

theorem lastOf_cons (e : Elem) (es : List Elem) (n : Nat) :
    lastOf (e :: es) n = (lastOf es n).or (if e.num = n then some e.data else none) := by
  unfold lastOf
  by_cases h : e.num = n
  · rw [List.filter_cons_of_pos (by simp [h]), if_pos h, List.getLast?_cons]
    cases (es.filter fun e => e.num == n).getLast? <;> rfl
  · rw [List.filter_cons_of_neg (by simp [h]), if_neg h]
    cases (es.filter fun e => e.num == n).getLast? <;> rfl

theorem Step.length {ss : List Sem} {d : Nat} {vs vs' : List Pb.Val} {e : Elem} (h : Step ss d vs e vs') : vs'.length = vs.length := by
  cases h with
  | skip => rfl
  | field => simp

theorem Steps.length {ss : List Sem} {d : Nat} {vs vs' : List Pb.Val} {es : List Elem} (h : Steps ss d vs es vs') : vs'.length = vs.length := by
  induction h with
  | nil => rfl
  | cons h1 _ ih => rw [ih, h1.length]

theorem Step.at {ss : List Sem} {fs : List Pb.Field} {table : List (Nat × Ty)} {need : Nat} (hD : Describes ss fs table need) {i : Nat} {s : Sem}
    (hi : ss[i]? = some s) {d : Nat} {vs vs' : List Pb.Val} {e : Elem} (h : Step ss d vs e vs') :
    (e.num ≠ s.f.num ∧ vs'[i]? = vs[i]?) ∨ (e.num = s.f.num ∧ ∃ v v', vs[i]? = some v ∧ vs'[i]? = some v' ∧ s.Upd d v e.data v') := by
  cases h with
  | skip hno => exact .inl ⟨fun h => hno s (List.mem_of_getElem? hi) h.symm, rfl⟩
  | @field j t v v' hj hn hv hu =>
    by_cases hij : j = i
    · subst hij
      rw [hi] at hj
      obtain rfl := Option.some.inj hj
      refine .inr ⟨hn.symm, v, v', hv, ?_, hu⟩
      rw [List.getElem?_set_self (List.getElem?_eq_some_iff.1 hv).1]
    · refine .inl ⟨fun h => hij (hD.num_inj hj hi (by rw [hn, h])), ?_⟩
      rw [List.getElem?_set_ne hij]

theorem Steps.last {ss : List Sem} {fs : List Pb.Field} {table : List (Nat × Ty)} {need : Nat} (hD : Describes ss fs table need) {i : Nat} {s : Sem}
    (hi : ss[i]? = some s) {g : Data → Option Pb.Val} {d : Nat} (hov : ∀ v x v', s.Upd d v x v' → g x = some v') {vs vs' : List Pb.Val} {es : List Elem}
    (h : Steps ss d vs es vs') : vs'[i]? = (match lastOf es s.f.num with | some x => g x | none => vs[i]?) := by
  induction h with
  | nil => rfl
  | @cons vs vs1 vs2 e es h1 h2 ih =>
    rw [ih, lastOf_cons]
    rcases h1.at hD hi with ⟨hn, he⟩ | ⟨hn, v, v', _, hv', hu⟩
    · rw [if_neg hn]
      cases lastOf es s.f.num with
      | none => exact he
      | some x => rfl
    · rw [if_pos hn]
      cases lastOf es s.f.num with
      | none => show vs1[i]? = g e.data; rw [hov _ _ _ hu, hv']
      | some x => rfl

def numG (f : Nat → Nat) : Data → Option Pb.Val
  | .varint n => some (.num (f n))
  | _ => none

def bytesG : Data → Option Pb.Val
  | .bytes b => some (.bytes b)
  | _ => none

theorem upd_num {s : Sem} {f : Nat → Nat} (hR : s.R = numR f) (hc : s.f.card = .required ∨ s.f.card = .optional) {d : Nat} (v : Pb.Val) (x : Data) (v' : Pb.Val)
    (h : s.Upd d v x v') : numG f x = some v' := by
  have key : ∀ {w}, numR f d w x v' → numG f x = some v' := by
    rintro w ⟨n, rfl, rfl⟩; rfl
  unfold Sem.Upd at h
  rw [hR] at h
  rcases hc with hc | hc <;> rw [hc] at h
  · exact key h
  · cases v <;> exact key h

theorem upd_bytes {s : Sem} (hR : s.R = bytesR) (hc : s.f.card = .required ∨ s.f.card = .optional) {d : Nat} (v : Pb.Val) (x : Data) (v' : Pb.Val)
    (h : s.Upd d v x v') : bytesG x = some v' := by
  have key : ∀ {w}, bytesR d w x v' → bytesG x = some v' := by
    rintro w ⟨n, rfl, rfl⟩; rfl
  unfold Sem.Upd at h
  rw [hR] at h
  rcases hc with hc | hc <;> rw [hc] at h
  · exact key h
  · cases v <;> exact key h

theorem numG_un (x : Data) : (numG (· % 2 ^ 32) x).bind Pb.unNum = x.u32 := by
  cases x with
  | varint n =>
    show some (BitVec.ofNat 32 (n % 2 ^ 32)) = some (BitVec.ofNat 32 n)
    rw [show BitVec.ofNat 32 (n % 2 ^ 32) = BitVec.ofNat 32 n from BitVec.eq_of_toNat_eq (by simp [BitVec.toNat_ofNat])]
  | _ => rfl

theorem bytesG_un (x : Data) : (bytesG x).bind Pb.unBytes = x.str := by cases x <;> rfl

/-- The values of a navigation data packet. -/
theorem inav_of_steps {d : Nat} {es : List Elem} {vs : List Pb.Val} (h : Steps galileoInavS d (Pb.galileoInav.map Pb.Field.default) es vs) :
    ∃ i, Pb.toInav (.list vs) = some i ∧ InavOf es i := by
  have hlen : vs.length = 12 := h.length
  have hD := galileoInav_describes
  have num : ∀ {i : Nat} {s : Sem}, galileoInavS[i]? = some s → s.R = numR (· % 2 ^ 32) → s.f.card = .required ∨ s.f.card = .optional →
      vs[i]?.bind Pb.unNum = (match lastOf es s.f.num with | some x => x.u32 | none => (Pb.galileoInav.map Pb.Field.default)[i]?.bind Pb.unNum) := by
    intro i s hi hR hc
    rw [h.last hD hi (upd_num hR hc)]
    cases lastOf es s.f.num with
    | none => rfl
    | some x => exact numG_un x
  have str : ∀ {i : Nat} {s : Sem}, galileoInavS[i]? = some s → s.R = bytesR → s.f.card = .required ∨ s.f.card = .optional →
      vs[i]?.bind Pb.unBytes = (match lastOf es s.f.num with | some x => x.str | none => (Pb.galileoInav.map Pb.Field.default)[i]?.bind Pb.unBytes) := by
    intro i s hi hR hc
    rw [h.last hD hi (upd_bytes hR hc)]
    cases lastOf es s.f.num with
    | none => rfl
    | some x => exact bytesG_un x
  match vs, hlen with
  | [v1, v2, v3, v4, v5, v6, v7, v8, v9, v10, v11, v12], _ =>
    have reqN : ∀ {v : Option (BitVec 32)} {o : Option Data}, v = (match o with | some x => x.u32 | none => some 0) → v.getD 0 = (o.bind Data.u32).getD 0 := by
      rintro v o rfl; cases o <;> rfl
    have reqB : ∀ {v : Option (List Byte)} {o : Option Data}, v = (match o with | some x => x.str | none => some []) → v.getD [] = (o.bind Data.str).getD [] := by
      rintro v o rfl; cases o <;> rfl
    have optN : ∀ {v : Option (BitVec 32)} {o : Option Data}, v = (match o with | some x => x.u32 | none => none) → v = o.bind Data.u32 := by
      rintro v o rfl; cases o <;> rfl
    have optB : ∀ {v : Option (List Byte)} {o : Option Data}, v = (match o with | some x => x.str | none => none) → v = o.bind Data.str := by
      rintro v o rfl; cases o <;> rfl
    refine ⟨_, rfl, ?_⟩
    constructor
    · exact reqN (num (i := 0) (s := su32 req 1) rfl rfl (.inl rfl))
    · exact reqN (num (i := 1) (s := su32 req 2) rfl rfl (.inl rfl))
    · exact reqN (num (i := 2) (s := su32 req 3) rfl rfl (.inl rfl))
    · exact reqN (num (i := 3) (s := su32 req 4) rfl rfl (.inl rfl))
    · exact reqB (str (i := 4) (s := sbytes req 5) rfl rfl (.inl rfl))
    · exact optN (num (i := 5) (s := su32 opt 6) rfl rfl (.inr rfl))
    · exact optB (str (i := 6) (s := sbytes opt 7) rfl rfl (.inr rfl))
    · exact optB (str (i := 7) (s := sbytes opt 8) rfl rfl (.inr rfl))
    · exact optB (str (i := 8) (s := sbytes opt 9) rfl rfl (.inr rfl))
    · exact optB (str (i := 9) (s := sbytes opt 10) rfl rfl (.inr rfl))
    · exact optB (str (i := 10) (s := sbytes opt 11) rfl rfl (.inr rfl))
    · exact optN (num (i := 11) (s := su32 opt 12) rfl rfl (.inr rfl))

/-- The values behind the field `gi`. -/
def GiVal (v : Pb.Val) (ws : List Pb.Val) : Prop := v = .absent ∧ ws = Pb.galileoInav.map Pb.Field.default ∨ v = .list ws

theorem gi_of_steps {vs vs' : List Pb.Val} {es : List Elem} (h : Steps navMonMessageS 100 vs es vs') : ∀ {v : Pb.Val} {ws : List Pb.Val},
    vs[4]? = some v → GiVal v ws → ∃ parts v' ws', GiParts es parts ∧ vs'[4]? = some v' ∧ GiVal v' ws' ∧ Steps galileoInavS 99 ws parts.flatten ws' ∧
      (v' = .absent ↔ v = .absent ∧ parts = []) := by
  induction h with
  | nil =>
    intro v ws hv hg
    exact ⟨[], v, ws, .nil, hv, hg, .nil, by simp⟩
  | @cons vs vs1 vs2 e es h1 h2 ih =>
    intro v ws hv hg
    rcases h1.at navMonMessage_describes (i := 4) rfl with ⟨hn, he⟩ | ⟨hn, v0, v1, hv0, hv1, hu⟩
    · obtain ⟨parts, v', ws', q1, q2⟩ := ih (he.trans hv) hg
      exact ⟨parts, v', ws', .other hn q1, q2⟩
    · rw [hv] at hv0
      obtain rfl := Option.some.inj hv0
      obtain ⟨num, x⟩ := e
      obtain rfl : num = 5 := hn
      have hm : msgR galileoInavS 100 (.list ws) x v1 := by
        rcases hg with ⟨rfl, rfl⟩ | rfl <;> exact hu
      obtain ⟨b, part, ws0, ws1, _, hx, h3, rfl, h4, h5⟩ := hm
      subst hx
      cases h3
      obtain ⟨parts, v', ws', q1, q2, q3, q4, q5⟩ := ih hv1 (.inr rfl)
      refine ⟨part :: parts, v', ws', .part h4 q1, q2, q3, ?_, ?_⟩
      · rw [List.flatten_cons]; exact h5.trans q4
      · rw [q5]; simp

theorem decodeMsg_iff {l : List Byte} {m : Pb.Msg} :
    Pb.decodeMsg l = some m ↔ Pb.mergeLoop Pb.navMonMessage 100 l.length (Pb.navMonMessage.map Pb.Field.default) l = some m.1 := by
  unfold Pb.decodeMsg
  constructor
  · intro h
    split at h
    · rename_i vs hv
      cases h
      exact hv
    · cases h
  · intro h
    split
    · rename_i vs hv
      rw [h] at hv
      congr 1
      exact Subtype.ext (Option.some.inj hv).symm
    · rename_i hv
      rw [h] at hv
      cases hv

theorem decode_steps {l : List Byte} {m : Pb.Msg} :
    Pb.decodeMsg l = some m ↔ ∃ es, Fields 100 l es ∧ Steps navMonMessageS 100 (Pb.navMonMessage.map Pb.Field.default) es m.1 := by
  rw [decodeMsg_iff]
  exact mergeLoop_iff navMonMessage_describes (by decide) _ (Pb.RecOk.default Pb.navMonMessage_ok) (Nat.le_refl _)

theorem gi_navData {es : List Elem} {m : Pb.Msg} (h : Steps navMonMessageS 100 (Pb.navMonMessage.map Pb.Field.default) es m.1) :
    NavData es (prostNavmon.gi m) := by
  obtain ⟨parts, v', ws', q1, q2, q3, q4, q5⟩ := gi_of_steps h (v := .absent) rfl (.inl ⟨rfl, rfl⟩)
  refine ⟨parts, q1, ?_⟩
  have hgi : prostNavmon.gi m = Pb.toInav v' := by
    show m.1[4]?.bind Pb.toInav = _
    rw [q2]; rfl
  rw [hgi]
  rcases q3 with ⟨rfl, _⟩ | rfl
  · exact (q5.1 rfl).2
  · obtain ⟨i, h1, h2⟩ := inav_of_steps q4
    rw [h1]
    refine ⟨fun hp => ?_, h2⟩
    have := q5.2 ⟨rfl, hp⟩
    cases this

end Verif.Wire

namespace Verif
open Wire

/-- **C67.**  Bytes are a message of the wire format, with these navigation data, exactly if the program reads them as such.  In particular the fields may
come in any order, repeated and with others in between, a message may be split over several fields, and a varint may be longer than needed. -/
theorem C67_reads (l : List Byte) (gi : Option GalileoInav) :
    (∃ m, prostNavmon.decode l = some m ∧ prostNavmon.gi m = gi) ↔ ∃ es, NavMon l es ∧ NavData es gi := by
  constructor
  · rintro ⟨m, h, rfl⟩
    obtain ⟨es, h1, h2⟩ := decode_steps.1 h
    exact ⟨es, ⟨h1, (steps_typed navMonMessage_describes (by decide) h1 (Pb.RecOk.default Pb.navMonMessage_ok)).1 ⟨_, h2⟩⟩, gi_navData h2⟩
  · rintro ⟨es, ⟨h1, h2⟩, h3⟩
    obtain ⟨vs, h4⟩ := (steps_typed navMonMessage_describes (by decide) h1 (Pb.RecOk.default Pb.navMonMessage_ok)).2 h2
    have h5 := (mergeLoop_iff navMonMessage_describes (by decide) l.length (Pb.RecOk.default Pb.navMonMessage_ok) (Nat.le_refl _)).2 ⟨es, h1, h4⟩
    let m : Pb.Msg := ⟨vs, Pb.RecOk.mergeLoop Pb.navMonMessage_ok _ (Pb.RecOk.default Pb.navMonMessage_ok) h5⟩
    exact ⟨m, decodeMsg_iff.2 h5, (gi_navData (m := m) h4).unique h3⟩

/-- **C67.**  Bytes are read as fields in at most one way, and say one thing. -/
theorem C67_unambiguous {l : List Byte} {es es' : List Elem} {gi gi' : Option GalileoInav} (h : NavMon l es) (h' : NavMon l es') (hg : NavData es gi)
    (hg' : NavData es' gi') : es = es' ∧ gi = gi' := by
  obtain rfl := fields_unique h.1 h'.1
  exact ⟨rfl, hg.unique hg'⟩

/-- **C67.**  What the program writes is a message of the wire format, with the navigation data of the message. -/
theorem C67_writes (m : prostNavmon.Msg) (hm : Framable (prostNavmon.encode m)) :
    ∃ es, NavMon (prostNavmon.encode m) es ∧ NavData es (prostNavmon.gi m) :=
  (C67_reads _ _).1 ⟨m, prostNavmon_lawful.decode_encode m hm, rfl⟩

/-- **C67.**  A packet of the converter is a message of type 3 (`GalileoInavType` in `navmon.proto`) with the navigation data of the packet. -/
theorem C67_converter (i : GalileoInav) (hi : Framable (prostNavmon.encode (prostNavmon.ofInav i))) :
    ∃ es, NavMon (prostNavmon.encode (prostNavmon.ofInav i)) es ∧ NavData es (some i) ∧ ∃ n, lastOf es 2 = some (.varint n) ∧ n % 2 ^ 32 = 3 := by
  have hd := prostNavmon_lawful.decode_encode _ hi
  obtain ⟨es, h1, h2⟩ := decode_steps.1 hd
  refine ⟨es, ⟨h1, (steps_typed navMonMessage_describes (by decide) h1 (Pb.RecOk.default Pb.navMonMessage_ok)).1 ⟨_, h2⟩⟩, ?_, ?_⟩
  · have := gi_navData h2
    rwa [prostNavmon_lawful.gi_ofInav] at this
  · have h3 := h2.last navMonMessage_describes (i := 1) (s := si32 Pb.req 2 1) rfl (upd_num rfl (.inl rfl))
    have h4 : (prostNavmon.ofInav i).1[1]? = some (.num 3) := rfl
    rw [h4] at h3
    have h5 : (Pb.navMonMessage.map Pb.Field.default)[1]? = some (.num 1) := rfl
    rw [h5] at h3
    change _ = (match lastOf es 2 with | some x => _ | none => _) at h3
    cases hl : lastOf es 2 with
    | none => rw [hl] at h3; simp at h3
    | some x =>
      rw [hl] at h3
      dsimp only at h3
      cases x with
      | varint n =>
        simp only [numG, Option.some.injEq, Pb.Val.num.injEq] at h3
        exact ⟨n, rfl, h3.symm⟩
      | _ => cases h3

/-- **C67.**  All other bytes are rejected. -/
theorem C67_accepts (l : List Byte) : (prostNavmon.decode l).isSome = true ↔ ∃ es, NavMon l es := by
  constructor
  · intro h
    obtain ⟨m, hm⟩ := Option.isSome_iff_exists.1 h
    obtain ⟨es, h1, _⟩ := (C67_reads l _).1 ⟨m, hm, rfl⟩
    exact ⟨es, h1⟩
  · rintro ⟨es, h1, h2⟩
    obtain ⟨vs, h4⟩ := (steps_typed navMonMessage_describes (by decide) h1 (Pb.RecOk.default Pb.navMonMessage_ok)).2 h2
    have h5 := (mergeLoop_iff navMonMessage_describes (by decide) l.length (Pb.RecOk.default Pb.navMonMessage_ok) (Nat.le_refl _)).2 ⟨es, h1, h4⟩
    let m : Pb.Msg := ⟨vs, Pb.RecOk.mergeLoop Pb.navMonMessage_ok _ (Pb.RecOk.default Pb.navMonMessage_ok) h5⟩
    rw [show prostNavmon.decode l = some m from decodeMsg_iff.2 h5]
    rfl

/-- **C67.**  Messages one after another are a message, whose navigation data fields are those of both. -/
theorem C67_concat {l l' : List Byte} {es es' : List Elem} (h : NavMon l es) (h' : NavMon l' es') : NavMon (l ++ l') (es ++ es') := by
  have gen : ∀ {P : Nat → List Byte → Data → Prop} {l l' : List Byte} {es es' : List Elem}, FieldsOf P l es → FieldsOf P l' es' →
      FieldsOf P (l ++ l') (es ++ es') := by
    intro P l l' es es' h h'
    induction h with
    | nil => exact h'
    | cons hk hp _ ih => rw [List.append_assoc]; exact .cons hk hp ih
  refine ⟨gen h.1 h'.1, fun e he => ?_⟩
  rcases List.mem_append.1 he with he | he
  · exact h.2 e he
  · exact h'.2 e he

/-- **C67.**  A field of type `int32` (or an enumeration) is written as protobuf prescribes: the number, negative or not, modulo 2^64, so that it is extended with its sign. -/
theorem C67_writes_signed (k : Nat) (z : Int) (hz : -2 ^ 31 ≤ z ∧ z < 2 ^ 31) :
    Varint ((Pb.int32 k).enc (.num (z % 2 ^ 32).toNat)) (z % 2 ^ 64).toNat := by
  have hn : (if (z % 2 ^ 32).toNat < 2 ^ 31 then (z % 2 ^ 32).toNat else (z % 2 ^ 32).toNat + (2 ^ 64 - 2 ^ 32)) = (z % 2 ^ 64).toNat := by
    split <;> omega
  show Varint (Pb.varint (if (z % 2 ^ 32).toNat < 2 ^ 31 then (z % 2 ^ 32).toNat else (z % 2 ^ 32).toNat + (2 ^ 64 - 2 ^ 32))) _
  rw [hn]
  obtain ⟨pre, h1, h2⟩ := unvarint_iff.1 (Pb.unvarint_varint (n := (z % 2 ^ 64).toNat) (by omega) [])
  rw [List.append_nil, List.append_nil] at h1
  rw [h1]
  exact h2

/-- Minus one is ten bytes. -/
example : (Pb.int32).enc (.num ((-1 : Int) % 2 ^ 32).toNat) = List.replicate 9 0xff#8 ++ [1#8] := by decide +kernel

/-! ## Examples -/

/-- A message that the converter would not write: the navigation data come first and in two parts, the week number is given twice and the second time with
a superfluous byte, there is a group with an unknown number, and required fields are missing. -/
def oddMessage : List Byte := [42, 4, 16, 5, 8, 7, 155, 6, 156, 6, 42, 3, 8, 137, 0, 16, 3]

def oddFields : List Elem :=
  [⟨5, .bytes [16, 5, 8, 7]⟩, ⟨99, .group⟩, ⟨5, .bytes [8, 137, 0]⟩, ⟨2, .varint 3⟩]

private theorem byte_varint {b : Byte} (h : b.toNat < 128) : Varint [b] b.toNat := ⟨.last h, by simp, by omega⟩

private theorem byte_key {b : Byte} {num type : Nat} (h : b.toNat < 128) (he : b.toNat = 8 * num + type) (h1 : type ≤ 5) (h2 : 1 ≤ num) :
    Wire.Key [b] num type := ⟨by have := byte_varint h; rwa [he] at this, h1, h2, by omega⟩

private theorem odd1 (d : Nat) : Fields d [16, 5, 8, 7] [⟨2, .varint 5⟩, ⟨1, .varint 7⟩] :=
  .cons (k := [16]) (p := [5]) (l := [8, 7]) (byte_key (by decide) rfl (by decide) (by decide))
    (by unfold Payload; exact byte_varint (b := 5) (by decide))
    (.cons (k := [8]) (p := [7]) (l := []) (byte_key (by decide) rfl (by decide) (by decide))
      (by unfold Payload; exact byte_varint (b := 7) (by decide)) .nil)

private theorem odd2 (d : Nat) : Fields d [8, 137, 0] [⟨1, .varint 9⟩] :=
  .cons (k := [8]) (p := [137, 0]) (l := []) (byte_key (by decide) rfl (by decide) (by decide))
    (by unfold Payload; exact ⟨.more (b := 137) (l := [0]) (n := 0) (by decide) (.last (b := 0) (by decide)), by decide, by decide⟩) .nil

private theorem odd_fields : Fields 100 oddMessage oddFields := by
  have e : ∀ (b1 b2 : Byte) (t : Nat), 128 ≤ b1.toNat → b2.toNat < 128 → b1.toNat - 128 + 128 * b2.toNat = 8 * 99 + t → t ≤ 5 → Wire.Key [b1, b2] 99 t := by
    intro b1 b2 t h1 h2 h3 h4
    refine ⟨⟨?_, by simp, by omega⟩, h4, by decide, by omega⟩
    rw [← h3]
    exact .more h1 (.last h2)
  refine .cons (k := [42]) (p := [4, 16, 5, 8, 7]) (l := [155, 6, 156, 6, 42, 3, 8, 137, 0, 16, 3]) (byte_key (by decide) rfl (by decide) (by decide))
    (by unfold Payload; exact ⟨[4], byte_varint (b := 4) (by decide), rfl⟩) ?_
  refine .cons (k := [155, 6]) (p := [156, 6]) (l := [42, 3, 8, 137, 0, 16, 3]) (e _ _ _ (by decide) (by decide) rfl (by decide))
    (by unfold Payload; exact ⟨[], [], [156, 6], .nil, e _ _ _ (by decide) (by decide) rfl (by decide), rfl⟩) ?_
  refine .cons (k := [42]) (p := [3, 8, 137, 0]) (l := [16, 3]) (byte_key (by decide) rfl (by decide) (by decide))
    (by unfold Payload; exact ⟨[3], byte_varint (b := 3) (by decide), rfl⟩) ?_
  exact .cons (k := [16]) (p := [3]) (l := []) (byte_key (by decide) rfl (by decide) (by decide))
    (by unfold Payload; exact byte_varint (b := 3) (by decide)) .nil

private theorem inav_typed {es : List Elem} (h : ∀ e ∈ es, ∃ n, e.num ≤ 4 ∧ e.data = .varint n) : Typed galileoInav 99 es := by
  intro e he T hT
  obtain ⟨n, h1, h2⟩ := h e he
  rw [h2]
  unfold galileoInav at hT
  simp only [List.mem_cons, Prod.mk.injEq, List.not_mem_nil, or_false] at hT
  rcases hT with ⟨_, rfl⟩ | ⟨_, rfl⟩ | ⟨_, rfl⟩ | ⟨_, rfl⟩ | h | h | h | h | h | h | h | h
  · exact ⟨n, rfl⟩
  · exact ⟨n, rfl⟩
  · exact ⟨n, rfl⟩
  · exact ⟨n, rfl⟩
  all_goals omega

private theorem odd_typed : Typed navMonMessage 100 oddFields := by
  intro e he T hT
  unfold oddFields at he
  unfold navMonMessage at hT
  simp only [List.mem_cons, List.not_mem_nil, or_false] at he
  rcases he with rfl | rfl | rfl | rfl <;> simp only [List.mem_cons, Prod.mk.injEq, Nat.reduceEqDiff, false_and, true_and, false_or, or_false,
    List.not_mem_nil] at hT
  · subst hT
    exact ⟨_, _, rfl, odd1 99, inav_typed (by simp)⟩
  · subst hT
    exact ⟨_, _, rfl, odd2 99, inav_typed (by simp)⟩
  · subst hT
    exact ⟨3, rfl⟩

/-- The program reads week 9 and time of week 5. -/
example : ∃ m, prostNavmon.decode oddMessage = some m ∧ prostNavmon.gi m = some ⟨9, 5, 0, 0, [], none, none, none, none, none, none, none⟩ :=
  (C67_reads _ _).2 ⟨oddFields, ⟨odd_fields, odd_typed⟩, [[⟨2, .varint 5⟩, ⟨1, .varint 7⟩], [⟨1, .varint 9⟩]],
    .part (odd1 99) (.other (by decide) (.part (odd2 99) (.other (by decide) .nil))), by simp,
    by constructor <;> rfl⟩

/-- The same by evaluation. -/
example : ((prostNavmon.decode oddMessage).bind prostNavmon.gi).map (fun i => (i.gnssWn, i.gnssTow)) = some (9, 5) := by decide +kernel

/-- A packet of the converter. -/
example : ∃ es, NavMon (prostNavmon.encode (prostNavmon.ofInav samplePacket)) es ∧ NavData es (some samplePacket) := by
  obtain ⟨es, h1, h2, _⟩ := C67_converter samplePacket samplePacket_framable
  exact ⟨es, h1, h2⟩

/-- Not a message: the navigation data are a number. -/
example : ¬ ∃ es, NavMon [40, 1] es := by
  rw [← C67_accepts]
  decide +kernel

/-- Not a message: the bytes end too early. -/
example : ¬ ∃ es, NavMon [42, 4, 16, 5, 8] es := by
  rw [← C67_accepts]
  decide +kernel

end Verif
