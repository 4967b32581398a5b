import Verif.Lemmas.Prost
import Verif.Props.Galmon

/-! # C43, C55: with the messages of `navmon.proto` -/

namespace Verif

/-- **C43, round trip, for the messages of `navmon.proto`.** -/
theorem C43_navmon_round_trip (ms : List prostNavmon.Msg) (h : ∀ m ∈ ms, Framable (prostNavmon.encode m)) :
    ∃ w l, writePackets prostNavmon ⟨[], none⟩ ms = .ok (w, l) ∧ packetsOf prostNavmon w.data = .ok (ms, none) :=
  C43_round_trip prostNavmon_lawful ms h

/-- **C43.**  Different messages have different encodings (for messages that fit a frame). -/
theorem C43_navmon_injective (a b : prostNavmon.Msg) (h : Framable (prostNavmon.encode a))
    (hab : prostNavmon.encode a = prostNavmon.encode b) : a = b := by
  have h1 := prostNavmon_lawful.decode_encode a h
  have h2 := prostNavmon_lawful.decode_encode b (by rw [← hab]; exact h)
  rw [hab, h2] at h1
  exact (Option.some.inj h1).symm

/-- **C55, for the messages of `navmon.proto`.** -/
theorem C55_navmon (ms : List prostNavmon.Msg) (h : ∀ m ∈ ms, Framable (prostNavmon.encode m)) :
    filterInavMain prostNavmon ⟨frames prostNavmon ms, false⟩ ⟨[], none⟩ =
      .ok (⟨frames prostNavmon (ms.filter fun m => (prostNavmon.gi m).isSome), none⟩, none) :=
  C55_filter prostNavmon_lawful ms h

/-! ## Examples -/

/-- A packet of the converter. -/
def samplePacket : GalileoInav :=
  ⟨1176, 120930, 2, 11, List.replicate 16 0x5a#8, some 1, some [1#8, 2#8, 3#8, 4#8, 5#8], some [4#8], some [0#8, 1#8, 2#8], some [3#8],
    some [9#8, 8#8, 7#8], some 4⟩

theorem samplePacket_framable : Framable (prostNavmon.encode (prostNavmon.ofInav samplePacket)) := prostNavmon_small _ (by decide)

/-- The bytes of the packet. -/
example : (prostNavmon.encode (prostNavmon.ofInav samplePacket)).map BitVec.toNat =
    [8, 0, 16, 3, 24, 0, 32, 0, 42, 56, 8, 152, 9, 16, 226, 176, 7, 24, 2, 32, 11, 42, 16, 90, 90, 90, 90, 90, 90, 90, 90, 90, 90, 90, 90, 90,
      90, 90, 90, 48, 1, 58, 5, 1, 2, 3, 4, 5, 66, 1, 4, 74, 3, 0, 1, 2, 82, 1, 3, 90, 3, 9, 8, 7, 96, 4] := by
  simp [prostNavmon, Pb.ofInavMsg, Pb.ofInavVals, samplePacket, Pb.navMonMessage, Pb.galileoInav, Pb.encodeFields, Pb.Field.enc, Pb.uint64,
    Pb.int32, Pb.message, Pb.uint32, Pb.bytes, Pb.optBytes, Pb.optNum, Pb.key, Pb.varint, List.replicate]

example : ∃ m : prostNavmon.Msg, Framable (prostNavmon.encode m) ∧ prostNavmon.gi m = some samplePacket :=
  ⟨_, samplePacket_framable, prostNavmon_lawful.gi_ofInav _⟩

/-! ## A packet that makes the filter panic -/

/-- A packet with `n` bytes of contents and no other field. -/
def bigPacket (n : Nat) : GalileoInav := ⟨0, 0, 0, 0, List.replicate n 0#8, none, none, none, none, none, none, none⟩

/-- The body of a packet that has only the field `gi`; the required fields of `NavMonMessage` are missing. -/
def bareBody (i : GalileoInav) : List Byte :=
  Pb.encodeFields (Pb.navMonMessage.drop 4) (.list (Pb.ofInavVals i) :: List.replicate 17 .absent)

theorem bareBody_eq (i : GalileoInav) : bareBody i =
    Pb.key 5 2 ++ (Pb.varint (Pb.encodeFields Pb.galileoInav (Pb.ofInavVals i)).length ++ Pb.encodeFields Pb.galileoInav (Pb.ofInavVals i)) := by
  simp [bareBody, Pb.navMonMessage, Pb.encodeFields, Pb.Field.enc, Pb.message, List.replicate]

/-- `prost` decodes it: missing required fields are not an error. -/
theorem decode_bareBody (i : GalileoInav) (h : (bareBody i).length ≤ 65535) :
    ∃ m, prostNavmon.decode (bareBody i) = some m ∧ prostNavmon.gi m = some i ∧
      (prostNavmon.encode m).length = (bareBody i).length + 8 := by
  have hok := Pb.ofInavMsg_ok i
  have hr : Pb.RecOk (Pb.navMonMessage.drop 4) (.list (Pb.ofInavVals i) :: List.replicate 17 .absent) := by
    refine .of_get rfl fun k f v hf hv => ?_
    refine hok.get (i := k + 4) ?_ (v := v) ?_
    · rw [List.getElem?_drop, Nat.add_comm] at hf; exact hf
    · exact hv
  have hm := Pb.mergeLoop_encode Pb.navMonMessage_ok (d := 100) (by decide) (Pb.navMonMessage.drop 4) (Pb.navMonMessage.take 4)
    [.num 0, .num 1, .num 0, .num 0] (.list (Pb.ofInavVals i) :: List.replicate 17 .absent) (bareBody i).length rfl rfl hr
    (Nat.lt_of_le_of_lt h (by decide)) (Nat.le_refl _)
  have hm : Pb.mergeLoop Pb.navMonMessage 100 (bareBody i).length (Pb.navMonMessage.map Pb.Field.default) (bareBody i) =
      some ([.num 0, .num 1, .num 0, .num 0] ++ .list (Pb.ofInavVals i) :: List.replicate 17 .absent) := hm
  have hd : ∃ hok, prostNavmon.decode (bareBody i) =
      some ⟨[.num 0, .num 1, .num 0, .num 0] ++ .list (Pb.ofInavVals i) :: List.replicate 17 .absent, hok⟩ := by
    simp only [prostNavmon, Pb.decodeMsg]
    split
    · rename_i vs hv
      rw [hm] at hv
      cases hv
      exact ⟨Pb.RecOk.mergeLoop Pb.navMonMessage_ok _ (Pb.RecOk.default Pb.navMonMessage_ok) hm, rfl⟩
    · rename_i hv
      rw [hm] at hv
      cases hv
  obtain ⟨hok, hd⟩ := hd
  refine ⟨_, hd, prostNavmon_lawful.gi_ofInav i, ?_⟩
  have e : prostNavmon.encode ⟨[.num 0, .num 1, .num 0, .num 0] ++ .list (Pb.ofInavVals i) :: List.replicate 17 .absent, hok⟩ =
      (Pb.key 1 0 ++ Pb.varint 0) ++ ((Pb.key 2 0 ++ Pb.varint 1) ++ ((Pb.key 3 0 ++ Pb.varint 0) ++ ((Pb.key 4 0 ++ Pb.varint 0) ++ bareBody i))) := rfl
  rw [e]
  have hv : ∀ n < 128, (Pb.varint n).length = 1 := by intro n hn; unfold Pb.varint; rw [if_pos hn]; rfl
  simp only [List.length_append, Pb.key]
  rw [hv, hv, hv, hv, hv, hv] <;> omega

theorem varint_len1 {n : Nat} (h : n < 128) : (Pb.varint n).length = 1 := by
  unfold Pb.varint; rw [if_pos h]; rfl

theorem varint_len3 {n : Nat} (h1 : 16384 ≤ n) (h2 : n < 2097152) : (Pb.varint n).length = 3 := by
  unfold Pb.varint
  rw [if_neg (by omega), List.length_cons]
  unfold Pb.varint
  rw [if_neg (by omega), List.length_cons, varint_len1 (by omega)]

theorem bareBody_big (n : Nat) (h1 : 16384 ≤ n) (h2 : n < 2000000) : (bareBody (bigPacket n)).length = n + 16 := by
  have e : Pb.encodeFields Pb.galileoInav (Pb.ofInavVals (bigPacket n)) =
      (Pb.key 1 0 ++ Pb.varint 0) ++ ((Pb.key 2 0 ++ Pb.varint 0) ++ ((Pb.key 3 0 ++ Pb.varint 0) ++ ((Pb.key 4 0 ++ Pb.varint 0) ++
        ((Pb.key 5 2 ++ (Pb.varint (List.replicate n (0#8 : Byte)).length ++ List.replicate n (0#8 : Byte))) ++ [])))) := rfl
  have hl : (Pb.encodeFields Pb.galileoInav (Pb.ofInavVals (bigPacket n))).length = n + 12 := by
    rw [e]
    simp only [List.length_append, List.length_replicate, List.length_nil, Pb.key]
    rw [varint_len1, varint_len1, varint_len1, varint_len1, varint_len1, varint_len1, varint_len3] <;> omega
  rw [bareBody_eq, List.length_append, List.length_append, hl, varint_len3 (by omega) (by omega)]
  rw [Pb.key, varint_len1 (by omega)]
  omega

/-- **C55 has a limit**: `galmon-filter-inav` panics on a frame of 65535 bytes in which the required fields of the message are missing (the
default values it writes for them do not fit). -/
theorem C55_panic_counterexample : ∃ bytes : List Byte, (filterInavMain prostNavmon ⟨bytes, false⟩ ⟨[], none⟩).Panics := by
  refine ⟨frame (bareBody (bigPacket 65519)), ?_⟩
  have hl := bareBody_big 65519 (by decide) (by decide)
  obtain ⟨m, h1, h2, h3⟩ := decode_bareBody (bigPacket 65519) (by omega)
  have hp := packetsOf_frame (N := prostNavmon) (m := m) (rest := []) (fails := false) (show Framable (bareBody (bigPacket 65519)) by unfold Framable; omega) h1
  rw [List.append_nil, packetsOf_nil] at hp
  refine (C55_any_input _ _ hp).2 ⟨m, by simp, by rw [h2]; rfl, ?_⟩
  unfold Framable
  omega

end Verif
