import Verif.Lemmas.Galmon

/-! # C43, C54: the Galmon transport protocol -/

namespace Verif
open ReadTransport

variable {N : Navmon}

/-- **C43.**  `write_packet` returns the number of bytes of the frame exactly when it has appended the whole frame, and
nothing else, to the writer. -/
theorem C43_write_reports_size {w w' : Sink} {m : N.Msg} {n : Nat} (h : writePacket N w m = .ok (w', .ok n)) :
    w'.data = w.data ++ frame (N.encode m) ∧ n = (frame (N.encode m)).length ∧ Framable (N.encode m) := by
  unfold writePacket at h
  dsimp only at h
  split at h
  · rename_i hl
    rw [← frame_eq] at h
    have hw : (w.writeAll (frame (N.encode m))).2 = none → (w.writeAll (frame (N.encode m))).1.data = w.data ++ frame (N.encode m) := by
      unfold Sink.writeAll
      cases w.room with
      | none => exact fun _ => rfl
      | some r =>
        simp only
        split
        · exact fun _ => rfl
        · intro h; cases h
    generalize hx : w.writeAll (frame (N.encode m)) = x at h hw
    obtain ⟨w1, e⟩ := x
    cases e with
    | some e => simp at h
    | none =>
      simp only [Res.ok.injEq, Prod.mk.injEq, Except.ok.injEq] at h
      obtain ⟨rfl, rfl⟩ := h
      exact ⟨hw rfl, rfl, by unfold Framable; omega⟩
  · cases h

/-- **C43.**  Into a writer that takes everything, `write_packet` succeeds for every packet whose encoding has at most 65535
bytes (and panics for a longer one). -/
theorem C43_write_succeeds (d : List Byte) (m : N.Msg) :
    (Framable (N.encode m) → writePacket N ⟨d, none⟩ m = .ok (⟨d ++ frame (N.encode m), none⟩, .ok (frame (N.encode m)).length)) ∧
    (¬ Framable (N.encode m) → (writePacket N ⟨d, none⟩ m).Panics) := by
  unfold writePacket
  dsimp only
  rw [← frame_eq]
  constructor
  · intro h
    rw [if_pos (by unfold Framable at h; omega)]
    rfl
  · intro h
    rw [if_neg (by unfold Framable at h; omega)]
    exact ⟨_, rfl⟩

/-- Writing a sequence of packets into a writer that takes everything. -/
theorem C43_write_sequence (d : List Byte) (ms : List N.Msg) (h : ∀ m ∈ ms, Framable (N.encode m)) :
    writePackets N ⟨d, none⟩ ms = .ok (⟨d ++ frames N ms, none⟩, ms.map fun m => .ok (frame (N.encode m)).length) := by
  induction ms generalizing d with
  | nil => simp [writePackets, frames]
  | cons m ms ih =>
    rw [writePackets, (C43_write_succeeds d m).1 (h m (by simp))]
    simp only [Res.ok_bind]
    rw [ih _ (fun m hm => h m (by simp [hm]))]
    simp [frames]

theorem packetsOf_frame {m : N.Msg} {body rest : List Byte} {fails : Bool} (h : Framable body) (hm : N.decode body = some m) :
    packetsOf N (frame body ++ rest) fails = packetsOf N rest fails >>= fun x => Res.ok (m :: x.1, x.2) := by
  rw [packetsOf_eq, next_frame h, hm]

theorem packetsOf_frames (hN : N.Lawful) (ms : List N.Msg) (h : ∀ m ∈ ms, Framable (N.encode m)) (rest : List Byte) (fails : Bool) :
    packetsOf N (frames N ms ++ rest) fails = packetsOf N rest fails >>= fun x => Res.ok (ms ++ x.1, x.2) := by
  induction ms with
  | nil =>
    simp only [frames, List.flatMap_nil, List.nil_append]
    cases packetsOf N rest fails <;> rfl
  | cons m ms ih =>
    have : frames N (m :: ms) ++ rest = frame (N.encode m) ++ (frames N ms ++ rest) := by simp [frames]
    rw [this, packetsOf_frame (h m (by simp)) (hN.decode_encode m (h m (by simp))), ih (fun m hm => h m (by simp [hm]))]
    cases packetsOf N rest fails <;> rfl

theorem packetsOf_nil (fails : Bool) : packetsOf N [] fails = .ok ([], if fails then some .other else none) := by
  rw [packetsOf_eq]
  cases fails <;> rfl

/-- **C43, round trip.**  Reading what was written for a sequence of packets gives the same packets, and then end of stream. -/
theorem C43_round_trip (hN : N.Lawful) (ms : List N.Msg) (h : ∀ m ∈ ms, Framable (N.encode m)) :
    ∃ w l, writePackets N ⟨[], none⟩ ms = .ok (w, l) ∧ packetsOf N w.data = .ok (ms, none) := by
  refine ⟨_, _, C43_write_sequence [] ms h, ?_⟩
  have := packetsOf_frames hN ms h [] false
  rw [List.append_nil] at this
  simp only [List.nil_append]
  rw [this, packetsOf_nil]
  simp

/-- **C43, truncation.**  From a stream cut at any point inside a frame (even when the writer failed there), the packets
before the cut are read, and nothing else. -/
theorem C43_truncated (hN : N.Lawful) (ms : List N.Msg) (m : N.Msg) (h : ∀ x ∈ ms, Framable (N.encode x)) (hm : Framable (N.encode m))
    (cut : List Byte) (hcut : cut <+: frame (N.encode m)) (hlt : cut.length < (frame (N.encode m)).length) :
    packetsOf N (frames N ms ++ cut) = .ok (ms, if cut.length < 6 then none else some .unexpectedEof) := by
  rw [packetsOf_frames hN ms h, packetsOf_eq, next_trunc hm hcut hlt]
  by_cases h6 : cut.length < 6
  · simp [h6]
  · simp [h6]

/-- **C43, any stream.**  Whatever the stream, the packets returned are the decoded bodies of consecutive complete frames
from its start; a wrong magic value, a body cut short or one that does not decode is an error. -/
theorem C43_any_stream (bytes : List Byte) (fails : Bool) :
    ∃ (bodies : List (List Byte)) (rest : List Byte) (ms : List N.Msg) (e : Option IoError),
      bytes = bodies.flatMap frame ++ rest ∧ bodies.map N.decode = ms.map some ∧ (∀ b ∈ bodies, Framable b) ∧
      packetsOf N bytes fails = .ok (ms, e) ∧
      (rest.length < 6 → e = if fails then some .other else none) ∧
      (6 ≤ rest.length → rest.take 4 ≠ [0x62#8, 0x65#8, 0x72#8, 0x74#8] → e = some .invalidData) ∧
      (6 ≤ rest.length → rest.take 4 = [0x62#8, 0x65#8, 0x72#8, 0x74#8] →
        (∃ body more, Framable body ∧ frame body = rest ++ more ∧ more ≠ [] ∧ e = some (if fails then .other else .unexpectedEof)) ∨
        (∃ body more, Framable body ∧ rest = frame body ++ more ∧ N.decode body = none ∧ e = some .invalidData)) := by
  induction hn : bytes.length using Nat.strongRecOn generalizing bytes with
  | ind n ih =>
  by_cases h6 : bytes.length < 6
  · refine ⟨[], bytes, [], _, rfl, rfl, by simp, ?_, fun _ => rfl, by omega, by omega⟩
    rw [packetsOf_eq, next, if_pos h6]
    cases fails <;> rfl
  · by_cases hmag : bytes.take 4 ≠ MAGIC
    · refine ⟨[], bytes, [], some .invalidData, rfl, rfl, by simp, ?_, by omega, fun _ _ => rfl, fun _ h => absurd h hmag⟩
      rw [packetsOf_eq, next, if_neg h6, if_pos hmag]
    · have hmag' : bytes.take 4 = MAGIC := Classical.not_not.1 hmag
      have hsl : ((bytes.drop 4).take 2).length = 2 := by simp; omega
      have hlt : loadBe (bitsOf ((bytes.drop 4).take 2)) ≤ 65535 := by
        have := loadBe_lt (bitsOf ((bytes.drop 4).take 2))
        rw [bitsOf_length, hsl] at this
        omega
      have hbe : beBytes 2 (loadBe (bitsOf ((bytes.drop 4).take 2))) = (bytes.drop 4).take 2 := by
        unfold beBytes
        have := storeBe_loadBe (bitsOf ((bytes.drop 4).take 2))
        rw [bitsOf_length, hsl] at this
        rw [this, packBytes_bitsOf]
      have hsplit : bytes = MAGIC ++ (bytes.drop 4).take 2 ++ bytes.drop 6 := by
        conv => lhs; rw [← List.take_append_drop 4 bytes, hmag', ← List.take_append_drop 2 (bytes.drop 4), List.drop_drop]
        simp
      generalize hs : loadBe (bitsOf ((bytes.drop 4).take 2)) = size at hlt hbe
      by_cases hsh : bytes.length < 6 + size
      · refine ⟨[], bytes, [], some (if fails then .other else .unexpectedEof), rfl, rfl, by simp, ?_, by omega,
          fun _ h => absurd hmag' h, fun _ _ => .inl ?_⟩
        · rw [packetsOf_eq, next, if_neg h6, if_neg hmag, hs, if_pos hsh]
        · have hd6 : (bytes.drop 6).length = bytes.length - 6 := by simp
          have hbl : (bytes.drop 6 ++ List.replicate (6 + size - bytes.length) 0#8).length = size := by
            rw [List.length_append, hd6, List.length_replicate]; omega
          refine ⟨bytes.drop 6 ++ List.replicate (6 + size - bytes.length) 0#8, List.replicate (6 + size - bytes.length) 0#8,
            by unfold Framable; omega, ?_, ?_, rfl⟩
          · rw [frame_eq, hbl, hbe, ← List.append_assoc, ← hsplit]
          · intro h
            have := congrArg List.length h
            simp at this; omega
      · have hbl : ((bytes.drop 6).take size).length = size := by simp; omega
        have hfr : bytes = frame ((bytes.drop 6).take size) ++ bytes.drop (6 + size) := by
          rw [frame_eq, hbl, hbe, List.append_assoc, ← List.drop_drop, List.take_append_drop]
          exact hsplit
        have hF : Framable ((bytes.drop 6).take size) := by unfold Framable; omega
        cases hdec : N.decode ((bytes.drop 6).take size) with
        | none =>
          refine ⟨[], bytes, [], some .invalidData, rfl, rfl, by simp, ?_, by omega, fun _ _ => rfl, fun _ _ => .inr ?_⟩
          · rw [packetsOf_eq, next, if_neg h6, if_neg hmag, hs, if_neg hsh, hdec]
          · exact ⟨_, _, hF, hfr, hdec, rfl⟩
        | some f =>
          obtain ⟨bodies, rest, ms, e, h1, h2, h3, h4, h5⟩ := ih (bytes.drop (6 + size)).length (by simp; omega) _ rfl
          refine ⟨(bytes.drop 6).take size :: bodies, rest, f :: ms, e, ?_, ?_, ?_, ?_, h5⟩
          · rw [List.flatMap_cons, List.append_assoc, ← h1]; exact hfr
          · rw [List.map_cons, hdec, h2]; rfl
          · intro b hb
            rcases List.mem_cons.1 hb with rfl | hb
            · exact hF
            · exact h3 b hb
          · rw [packetsOf_eq, next, if_neg h6, if_neg hmag, hs, if_neg hsh, hdec]
            simp only
            rw [h4]; rfl

/-- A codec to show that the hypotheses can be met: one-byte messages. -/
def byteCodec : Navmon := ⟨Byte, fun b => [b], fun l => l.head?, fun _ => none, fun _ => 0#8⟩

example : packetsOf byteCodec (frames byteCodec [7#8, 8#8]) = .ok ([7#8, 8#8], none) := by
  have hd := packetsOf_frame (N := byteCodec) (m := 7#8) (body := [7#8]) (rest := frame [8#8]) (fails := false) (by simp [Framable]) rfl
  have hd2 := packetsOf_frame (N := byteCodec) (m := 8#8) (body := [8#8]) (rest := []) (fails := false) (by simp [Framable]) rfl
  rw [List.append_nil] at hd2
  exact hd.trans (by rw [hd2, packetsOf_nil]; rfl)

/-- **C54, the part that holds**: end of stream (`None`) is reported only when fewer than 6 bytes are left
after the last packet.  The documentation says that it is reported only when nothing is left;
see `C54_counterexample`. -/
theorem C54_none_at_end_partial (bytes : List Byte) (ms : List N.Msg) (h : packetsOf N bytes = .ok (ms, none)) :
    ∃ (bodies : List (List Byte)) (rest : List Byte), bytes = bodies.flatMap frame ++ rest ∧ bodies.map N.decode = ms.map some ∧ rest.length < 6 := by
  obtain ⟨bodies, rest, ms', e, h1, h2, _, h4, h5, h6, h7⟩ := C43_any_stream (N := N) bytes false
  rw [h] at h4
  cases h4
  refine ⟨bodies, rest, h1, h2, Classical.byContradiction fun hr => ?_⟩
  by_cases hm : rest.take 4 = [0x62#8, 0x65#8, 0x72#8, 0x74#8]
  · rcases h7 (by omega) hm with ⟨_, _, _, _, _, h⟩ | ⟨_, _, _, _, _, h⟩ <;> cases h
  · cases h6 (by omega) hm

/-- **C54 fails**: a stream that ends in the middle of the header of a frame, even of one with a wrong magic
value, is taken for a regular end of stream. -/
theorem C54_counterexample (hN : N.Lawful) (ms : List N.Msg) (h : ∀ m ∈ ms, Framable (N.encode m)) (cut : List Byte) (hc : cut.length < 6) :
    packetsOf N (frames N ms ++ cut) = .ok (ms, none) := by
  rw [packetsOf_frames hN ms h, packetsOf_eq, next, if_pos hc]
  simp

/-! ## `galmon-filter-inav` -/

/-- **C55.**  `galmon-filter-inav` copies the packets with a Galileo INAV message, in order and unchanged, and drops the
others.  (Packets of at most 65535 bytes; a valid input stream has no others.) -/
theorem C55_filter (hN : N.Lawful) (ms : List N.Msg) (h : ∀ m ∈ ms, Framable (N.encode m)) :
    filterInavMain N ⟨frames N ms, false⟩ ⟨[], none⟩ = .ok (⟨frames N (ms.filter fun m => (N.gi m).isSome), none⟩, none) := by
  have hp := packetsOf_frames hN ms h [] false
  rw [List.append_nil, packetsOf_nil] at hp
  unfold packetsOf at hp
  have hl : ∀ (d : List Byte) (ms : List N.Msg), (∀ m ∈ ms, Framable (N.encode m)) →
      loopM (filterStep N) ms (⟨d, none⟩, none) = .ok (⟨d ++ frames N (ms.filter fun m => (N.gi m).isSome), none⟩, none) := by
    intro d ms h
    induction ms generalizing d with
    | nil => simp [frames]
    | cons m ms ih =>
      rw [loopM_cons]
      cases hg : N.gi m with
      | none =>
        rw [show filterStep N (⟨d, none⟩, none) m = .ok (⟨d, none⟩, none) from by simp [filterStep, hg]]
        rw [Res.ok_bind, ih d (fun m hm => h m (by simp [hm]))]
        simp [hg]
      | some i =>
        rw [show filterStep N (⟨d, none⟩, none) m = .ok (⟨d ++ frame (N.encode m), none⟩, none) from by
          simp [filterStep, hg, (C43_write_succeeds d m).1 (h m (by simp))]]
        rw [Res.ok_bind, ih _ (fun m hm => h m (by simp [hm]))]
        simp [hg, frames]
  unfold filterInavMain
  rw [hp]
  simp only [Res.ok_bind, if_neg (show ¬ (false = true) by decide), List.append_nil]
  rw [hl [] ms h]
  simp

/-- **C55, any input.**  Whatever the input stream (also one with packets that were not written by this program, or with errors), the
output is the packets read that have a Galileo INAV message, in order, each written anew; the program ends as the reading ends.  It
panics exactly when one of these packets does not fit a frame when it is written. -/
theorem C55_any_input (bytes : List Byte) (fails : Bool) {ms : List N.Msg} {e : Option IoError} (hp : packetsOf N bytes fails = .ok (ms, e)) :
    ((∀ m ∈ ms, (N.gi m).isSome = true → Framable (N.encode m)) →
      filterInavMain N ⟨bytes, fails⟩ ⟨[], none⟩ = .ok (⟨frames N (ms.filter fun m => (N.gi m).isSome), none⟩, e)) ∧
    ((∃ m ∈ ms, (N.gi m).isSome = true ∧ ¬ Framable (N.encode m)) → (filterInavMain N ⟨bytes, fails⟩ ⟨[], none⟩).Panics) := by
  unfold packetsOf at hp
  have hl : ∀ (d : List Byte) (ms : List N.Msg),
      ((∀ m ∈ ms, (N.gi m).isSome = true → Framable (N.encode m)) →
        loopM (filterStep N) ms (⟨d, none⟩, none) = .ok (⟨d ++ frames N (ms.filter fun m => (N.gi m).isSome), none⟩, none)) ∧
      ((∃ m ∈ ms, (N.gi m).isSome = true ∧ ¬ Framable (N.encode m)) → (loopM (filterStep N) ms (⟨d, none⟩, none)).Panics) := by
    intro d ms
    induction ms generalizing d with
    | nil => simp [frames]
    | cons m ms ih =>
      rw [loopM_cons]
      cases hg : N.gi m with
      | none =>
        rw [show filterStep N (⟨d, none⟩, none) m = .ok (⟨d, none⟩, none) from by simp [filterStep, hg]]
        rw [Res.ok_bind]
        refine ⟨fun h => ?_, fun ⟨x, hx, h1, h2⟩ => ?_⟩
        · rw [(ih d).1 (fun m hm => h m (by simp [hm]))]
          simp [hg]
        · rcases List.mem_cons.1 hx with rfl | hx
          · rw [hg] at h1; cases h1
          · exact (ih d).2 ⟨x, hx, h1, h2⟩
      | some i =>
        by_cases hf : Framable (N.encode m)
        · rw [show filterStep N (⟨d, none⟩, none) m = .ok (⟨d ++ frame (N.encode m), none⟩, none) from by
            simp [filterStep, hg, (C43_write_succeeds d m).1 hf]]
          rw [Res.ok_bind]
          refine ⟨fun h => ?_, fun ⟨x, hx, h1, h2⟩ => ?_⟩
          · rw [(ih _).1 (fun m hm => h m (by simp [hm]))]
            simp [hg, frames]
          · rcases List.mem_cons.1 hx with rfl | hx
            · exact absurd hf h2
            · exact (ih _).2 ⟨x, hx, h1, h2⟩
        · refine ⟨fun h => absurd (h m (by simp) (by rw [hg]; rfl)) hf, fun _ => ?_⟩
          obtain ⟨w, hw⟩ := (C43_write_succeeds d m).2 hf
          exact ⟨w, by simp [filterStep, hg, hw]⟩
  unfold filterInavMain
  rw [hp, Res.ok_bind]
  refine ⟨fun h => ?_, fun h => ?_⟩
  · dsimp only
    rw [(hl [] ms).1 h]
    rfl
  · obtain ⟨w, hw⟩ := (hl [] ms).2 h
    exact ⟨w, by dsimp only; rw [hw]; rfl⟩

/-- **C55, output that fails.**  If the output takes only `r` bytes, then what is written is the first `r` bytes of that output; if that is not all
of it the program ends with the write error, and otherwise as the reading ends. -/
theorem C55_write_error (bytes : List Byte) (fails : Bool) (r : Nat) {ms : List N.Msg} {e : Option IoError}
    (hp : packetsOf N bytes fails = .ok (ms, e)) (h : ∀ m ∈ ms, (N.gi m).isSome = true → Framable (N.encode m))
    {out : List Byte} (ho : out = frames N (ms.filter fun m => (N.gi m).isSome)) :
    filterInavMain N ⟨bytes, fails⟩ ⟨[], some r⟩ =
      .ok (⟨out.take r, some (r - out.length)⟩, if out.length ≤ r then e else some .other) := by
  subst ho
  unfold packetsOf at hp
  have hstop : ∀ (w : Sink) (x : IoError) (ms : List N.Msg), loopM (filterStep N) ms (w, some x) = .ok (w, some x) := by
    intro w x ms
    induction ms with
    | nil => rfl
    | cons m ms ih => rw [loopM_cons]; exact ih
  have hl : ∀ (ms : List N.Msg) (d : List Byte) (r : Nat), (∀ m ∈ ms, (N.gi m).isSome = true → Framable (N.encode m)) →
      loopM (filterStep N) ms (⟨d, some r⟩, none) =
        .ok (⟨d ++ (frames N (ms.filter fun m => (N.gi m).isSome)).take r, some (r - (frames N (ms.filter fun m => (N.gi m).isSome)).length)⟩,
          if (frames N (ms.filter fun m => (N.gi m).isSome)).length ≤ r then none else some .other) := by
    intro ms
    induction ms with
    | nil => intro d r _; simp [frames]
    | cons m ms ih =>
      intro d r h
      rw [loopM_cons]
      cases hg : N.gi m with
      | none =>
        rw [show filterStep N (⟨d, some r⟩, none) m = .ok (⟨d, some r⟩, none) from by simp [filterStep, hg]]
        rw [Res.ok_bind, ih d r (fun m hm => h m (by simp [hm]))]
        simp [hg]
      | some i =>
        have hf := h m (by simp) (by rw [hg]; rfl)
        have hfs : frames N ((m :: ms).filter fun m => (N.gi m).isSome) =
            frame (N.encode m) ++ frames N (ms.filter fun m => (N.gi m).isSome) := by simp [hg, frames]
        rw [hfs]
        by_cases hr : (frame (N.encode m)).length ≤ r
        · rw [show filterStep N (⟨d, some r⟩, none) m =
              .ok (⟨d ++ frame (N.encode m), some (r - (frame (N.encode m)).length)⟩, none) from by
            simp only [filterStep, hg, writePacket]
            rw [if_pos (show (N.encode m).length < 65536 from by unfold Framable at hf; omega)]
            rw [← frame_eq]
            simp only [Sink.writeAll, if_pos hr, Res.ok_bind]]
          rw [Res.ok_bind, ih _ _ (fun m hm => h m (by simp [hm])), List.append_assoc, List.take_append, List.take_of_length_le hr]
          simp only [List.length_append, Res.ok.injEq, Prod.mk.injEq, Sink.mk.injEq, Option.some.injEq, true_and]
          refine ⟨by omega, ?_⟩
          by_cases h2 : (frames N (ms.filter fun m => (N.gi m).isSome)).length ≤ r - (frame (N.encode m)).length
          · rw [if_pos h2, if_pos (by omega)]
          · rw [if_neg h2, if_neg (by omega)]
        · rw [show filterStep N (⟨d, some r⟩, none) m = .ok (⟨d ++ (frame (N.encode m)).take r, some 0⟩, some .other) from by
            simp only [filterStep, hg, writePacket]
            rw [if_pos (show (N.encode m).length < 65536 from by unfold Framable at hf; omega)]
            rw [← frame_eq]
            simp only [Sink.writeAll, if_neg hr, Res.ok_bind]]
          rw [Res.ok_bind, hstop, List.take_append_of_le_length (by omega), if_neg (by rw [List.length_append]; omega)]
          simp only [List.length_append, Res.ok.injEq, Prod.mk.injEq, Sink.mk.injEq, Option.some.injEq, true_and, and_true]
          omega
  unfold filterInavMain
  rw [hp, Res.ok_bind]
  dsimp only
  rw [hl ms [] r h, Res.ok_bind]
  split
  · rename_i h1
    split at h1
    · cases h1
    · rename_i h2
      cases h1
      rw [if_neg h2]; rfl
  · rename_i h1
    split at h1
    · rename_i h2
      cases h1
      rw [if_pos h2]; rfl
    · cases h1

end Verif
