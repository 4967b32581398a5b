import Verif.Lemmas.Protobuf
import Verif.Spec.GalmonSpec

/-! # The `Navmon` of `prost`

`prostNavmon` is the instance of `Navmon` (`Model/Galmon.lean`) given by `navmon.proto` (`Model/Protobuf.lean`). -/

namespace Verif.Pb

/-! ## The messages of `navmon.proto` -/

theorem FieldsOk.nil {need : Nat} : FieldsOk [] need := ⟨.nil, by simp, by simp⟩

theorem FieldsOk.cons {f : Field} {fs : List Field} {need : Nat} (hn : ∀ g ∈ fs, f.num ≠ g.num) (hr : 1 ≤ f.num ∧ f.num < 2 ^ 29)
    (hl : f.codec.Lawful need) (h : FieldsOk fs need) : FieldsOk (f :: fs) need where
  nums := .cons hn h.nums
  range := by
    intro g hg
    rcases List.mem_cons.1 hg with rfl | hg
    · exact hr
    · exact h.range g hg
  lawful := by
    intro g hg
    rcases List.mem_cons.1 hg with rfl | hg
    · exact hl
    · exact h.lawful g hg

macro "pb_lawful" : tactic =>
  `(tactic| first
    | exact uint32_lawful | exact uint64_lawful | exact bool_lawful | exact double_lawful | exact bytes_lawful | exact string_lawful
    | exact int32_lawful (by decide))

macro "pb_fields" : tactic =>
  `(tactic| repeat' (first
    | exact FieldsOk.nil
    | (refine FieldsOk.cons (by simp) (by decide) (by pb_lawful) ?_)))

theorem galileoInav_ok : FieldsOk galileoInav 0 := by unfold galileoInav; pb_fields
theorem galileoFnav_ok : FieldsOk galileoFnav 0 := by unfold galileoFnav; pb_fields
theorem gpsInav_ok : FieldsOk gpsInav 0 := by unfold gpsInav; pb_fields
theorem glonassInav_ok : FieldsOk glonassInav 0 := by unfold glonassInav; pb_fields
theorem receptionData_ok : FieldsOk receptionData 0 := by unfold receptionData; pb_fields
theorem rfData_ok : FieldsOk rfData 0 := by unfold rfData; pb_fields
theorem observerPosition_ok : FieldsOk observerPosition 0 := by unfold observerPosition; pb_fields
theorem sarResponse_ok : FieldsOk sarResponse 0 := by unfold sarResponse; pb_fields
theorem debuggingMessage_ok : FieldsOk debuggingMessage 0 := by unfold debuggingMessage; pb_fields
theorem observerDetails_ok : FieldsOk observerDetails 0 := by unfold observerDetails; pb_fields
theorem ubloxJammingStats_ok : FieldsOk ubloxJammingStats 0 := by unfold ubloxJammingStats; pb_fields
theorem sbasMessage_ok : FieldsOk sbasMessage 0 := by unfold sbasMessage; pb_fields
theorem rtcmMessage_ok : FieldsOk rtcmMessage 0 := by unfold rtcmMessage; pb_fields
theorem gnssOffset_ok : FieldsOk gnssOffset 0 := by unfold gnssOffset; pb_fields

theorem timeOffsetMessage_ok : FieldsOk timeOffsetMessage 1 := by
  unfold timeOffsetMessage
  refine .cons (by simp) (by decide) (uint32_lawful.mono (by decide)) ?_
  exact .cons (by simp) (by decide) (message_lawful gnssOffset_ok) .nil

theorem message_ok0 {fs : List Field} (h : FieldsOk fs 0) : (message fs).Lawful 2 := (message_lawful h).mono (by decide)

theorem navMonMessage_ok : FieldsOk navMonMessage 2 := by
  unfold navMonMessage
  refine .cons (by simp) (by decide) (uint64_lawful.mono (by decide)) ?_
  refine .cons (by simp) (by decide) ((int32_lawful (by decide)).mono (by decide)) ?_
  refine .cons (by simp) (by decide) (uint64_lawful.mono (by decide)) ?_
  refine .cons (by simp) (by decide) (uint64_lawful.mono (by decide)) ?_
  refine .cons (by simp) (by decide) (message_ok0 galileoInav_ok) ?_
  refine .cons (by simp) (by decide) (message_ok0 receptionData_ok) ?_
  refine .cons (by simp) (by decide) (message_ok0 rfData_ok) ?_
  refine .cons (by simp) (by decide) (message_ok0 observerPosition_ok) ?_
  refine .cons (by simp) (by decide) (message_ok0 gpsInav_ok) ?_
  refine .cons (by simp) (by decide) (message_ok0 gpsInav_ok) ?_
  refine .cons (by simp) (by decide) (message_ok0 gpsInav_ok) ?_
  refine .cons (by simp) (by decide) (message_ok0 glonassInav_ok) ?_
  refine .cons (by simp) (by decide) (message_ok0 sarResponse_ok) ?_
  refine .cons (by simp) (by decide) (message_ok0 debuggingMessage_ok) ?_
  refine .cons (by simp) (by decide) (message_ok0 observerDetails_ok) ?_
  refine .cons (by simp) (by decide) (message_ok0 ubloxJammingStats_ok) ?_
  refine .cons (by simp) (by decide) (message_ok0 sbasMessage_ok) ?_
  refine .cons (by simp) (by decide) (message_ok0 galileoFnav_ok) ?_
  refine .cons (by simp) (by decide) (message_ok0 rtcmMessage_ok) ?_
  refine .cons (by simp) (by decide) (message_lawful timeOffsetMessage_ok) ?_
  refine .cons (by simp) (by decide) (message_ok0 galileoFnav_ok) ?_
  exact .cons (by simp) (by decide) (message_ok0 galileoFnav_ok) .nil

/-! ## The instance -/

theorem optBytes_ok (n : Nat) (x : Option (List Byte)) : (⟨.optional, n, bytes⟩ : Field).Ok (optBytes x) := by
  cases x with
  | none => exact .inl rfl
  | some b => exact .inr ⟨by simp [optBytes], b, rfl⟩

theorem optNum_ok (n : Nat) (x : Option (BitVec 32)) : (⟨.optional, n, uint32⟩ : Field).Ok (optNum x) := by
  cases x with
  | none => exact .inl rfl
  | some b => exact .inr ⟨by simp [optNum], b.toNat, rfl, b.isLt⟩

theorem ofInavVals_ok (i : GalileoInav) : RecOk galileoInav (ofInavVals i) := by
  refine ⟨rfl, ?_⟩
  unfold galileoInav ofInavVals
  simp only [List.zip_cons_cons, List.zip_nil_right, List.mem_cons, List.not_mem_nil, or_false]
  rintro x (rfl | rfl | rfl | rfl | rfl | rfl | rfl | rfl | rfl | rfl | rfl | rfl)
  · exact ⟨_, rfl, i.gnssWn.isLt⟩
  · exact ⟨_, rfl, i.gnssTow.isLt⟩
  · exact ⟨_, rfl, i.gnssId.isLt⟩
  · exact ⟨_, rfl, i.gnssSv.isLt⟩
  · exact ⟨_, rfl⟩
  · exact optNum_ok _ _
  · exact optBytes_ok _ _
  · exact optBytes_ok _ _
  · exact optBytes_ok _ _
  · exact optBytes_ok _ _
  · exact optBytes_ok _ _
  · exact optNum_ok _ _

theorem ofInavMsg_ok (i : GalileoInav) : RecOk navMonMessage (ofInavMsg i) := by
  refine ⟨rfl, ?_⟩
  unfold navMonMessage ofInavMsg
  simp only [List.replicate, List.cons_append, List.nil_append, List.zip_cons_cons, List.zip_nil_right, List.mem_cons, List.not_mem_nil, or_false]
  rintro x (rfl | rfl | rfl | rfl | rfl | rfl | rfl | rfl | rfl | rfl | rfl | rfl | rfl | rfl | rfl | rfl | rfl | rfl | rfl | rfl | rfl | rfl)
  · exact ⟨_, rfl, by decide⟩
  · exact ⟨_, rfl, by decide⟩
  · exact ⟨_, rfl, by decide⟩
  · exact ⟨_, rfl, by decide⟩
  · exact .inr ⟨by simp, _, rfl, ofInavVals_ok i⟩
  all_goals exact .inl rfl

/-- `NavMonMessage::decode` (`galmon/mod.rs:77`): the fields are merged into the default message; `prost` allows 100 nested messages. -/
def decodeMsg (l : List Byte) : Option Msg :=
  match h : mergeLoop navMonMessage 100 l.length (navMonMessage.map Field.default) l with
  | some vs => some ⟨vs, RecOk.mergeLoop navMonMessage_ok _ (RecOk.default navMonMessage_ok) h⟩
  | none => none

end Verif.Pb

namespace Verif

/-- `NavMonMessage` as generated by `prost` from `galmon/navmon.proto` (`galmon/mod.rs:15-18`). -/
def prostNavmon : Navmon where
  Msg := Pb.Msg
  encode := fun m => Pb.encodeFields Pb.navMonMessage m.1
  decode := Pb.decodeMsg
  gi := fun m => m.1[4]?.bind Pb.toInav
  ofInav := fun i => ⟨Pb.ofInavMsg i, Pb.ofInavMsg_ok i⟩

end Verif
