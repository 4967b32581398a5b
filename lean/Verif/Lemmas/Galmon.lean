import Verif.Spec.GalmonSpec
import Verif.Prelude.BitsLemmas

namespace Verif

theorem beBytes_two (n : Nat) : beBytes 2 n = [BitVec.ofNat 8 (n / 256), BitVec.ofNat 8 n] := by
  have h : ∀ k : Nat, packByte (storeBe 8 k) = BitVec.ofNat 8 k := by
    intro k
    have := packByte_byteBits (BitVec.ofNat 8 k)
    rw [byteBits_eq_storeBe, BitVec.toNat_ofNat, show 2 ^ 8 = 2 ^ 8 from rfl, storeBe_mod] at this
    exact this
  unfold beBytes
  rw [show 8 * 2 = 8 + 8 from rfl, storeBe_append 8 8, packBytes_byte_append (by simp), h]
  rw [← List.append_nil (storeBe 8 n), packBytes_byte_append (by simp), h]
  rfl

theorem frame_eq (body : List Byte) : frame body = MAGIC ++ beBytes 2 body.length ++ body := by
  rw [beBytes_two]; rfl

theorem frame_length (body : List Byte) : (frame body).length = body.length + 6 := by
  simp [frame]

namespace ReadTransport
variable {N : Navmon}

theorem new_buffer (r : Source) : 6 ≤ (new r).buffer.length := by
  show 6 ≤ (List.replicate 2048 0#8).length
  rw [List.length_replicate]; omega

theorem fill_eq {t : ReadTransport} {n : Nat} (hb : n ≤ t.buffer.length) :
    t.fill n = .ok (⟨{ t.read with bytes := t.read.bytes.drop n }, t.read.bytes.take n ++ t.buffer.drop (t.read.bytes.take n).length⟩,
      if n ≤ t.read.bytes.length then none else if t.read.fails then some .other else some .unexpectedEof) := by
  unfold fill
  rw [slice_ok (by omega) hb]
  simp only [Res.ok_bind, Source.readExact]
  rw [writeSlice_ok (by simp; omega)]
  simp

/-- What `read_packet` does on a stream, as a function of the stream alone: the bytes left, and the result. -/
def next (N : Navmon) (bytes : List Byte) (fails : Bool) : List Byte × Except IoError (Option N.Msg) :=
  if bytes.length < 6 then ([], if fails then .error .other else .ok none)
  else if bytes.take 4 ≠ MAGIC then (bytes.drop 6, .error .invalidData)
  else if bytes.length < 6 + loadBe (bitsOf ((bytes.drop 4).take 2)) then
    ([], .error (if fails then .other else .unexpectedEof))
  else (bytes.drop (6 + loadBe (bitsOf ((bytes.drop 4).take 2))),
    match N.decode ((bytes.drop 6).take (loadBe (bitsOf ((bytes.drop 4).take 2)))) with
    | some f => .ok (some f)
    | none => .error .invalidData)

theorem readPacket_eq (t : ReadTransport) (hb : 6 ≤ t.buffer.length) :
    ∃ buf, 6 ≤ buf.length ∧
      t.readPacket N = .ok (⟨⟨(next N t.read.bytes t.read.fails).1, t.read.fails⟩, buf⟩, (next N t.read.bytes t.read.fails).2) := by
  unfold readPacket
  rw [fill_eq hb]
  simp only [Res.ok_bind]
  generalize hx : next N t.read.bytes t.read.fails = x
  unfold next at hx
  by_cases h6 : t.read.bytes.length < 6
  · rw [if_neg (by omega)]
    rw [if_pos h6] at hx
    subst hx
    refine ⟨t.read.bytes.take 6 ++ t.buffer.drop (t.read.bytes.take 6).length, by simp; omega, ?_⟩
    cases hf : t.read.fails
    · simp [List.drop_eq_nil_iff.2 (show t.read.bytes.length ≤ 6 by omega)]
    · simp [List.drop_eq_nil_iff.2 (show t.read.bytes.length ≤ 6 by omega)]
  · rw [if_neg h6] at hx
    rw [if_pos (by omega)]
    have htk : (t.read.bytes.take 6).length = 6 := by simp; omega
    have hbl : (t.read.bytes.take 6 ++ t.buffer.drop (t.read.bytes.take 6).length).length = t.buffer.length := by
      rw [List.length_append, htk, List.length_drop]; omega
    simp only
    rw [slice_ok (by omega) (by omega)]
    simp only [Res.ok_bind, List.drop_zero]
    have hm : List.take (4 - 0) (t.read.bytes.take 6 ++ t.buffer.drop (t.read.bytes.take 6).length) = t.read.bytes.take 4 := by
      rw [List.take_append_of_le_length (by omega), List.take_take]; rfl
    rw [hm]
    by_cases hmag : t.read.bytes.take 4 ≠ MAGIC
    · rw [if_pos hmag] at hx ⊢
      subst hx
      exact ⟨_, by rw [hbl]; exact hb, rfl⟩
    · rw [if_neg hmag] at hx ⊢
      rw [slice_ok (by omega) (by omega)]
      simp only [Res.ok_bind]
      have hs : List.take (6 - 4) (List.drop 4 (t.read.bytes.take 6 ++ t.buffer.drop (t.read.bytes.take 6).length)) =
          (t.read.bytes.drop 4).take 2 := by
        rw [List.drop_append_of_le_length (by omega), List.take_append_of_le_length (by simp; omega), List.drop_take, List.take_take]
        rfl
      rw [hs]
      generalize loadBe (bitsOf ((t.read.bytes.drop 4).take 2)) = size at hx ⊢
      generalize hbuf : t.read.bytes.take 6 ++ t.buffer.drop (t.read.bytes.take 6).length = buf at hbl ⊢
      have key : ∀ buf' : List Byte, 6 ≤ buf'.length → size ≤ buf'.length →
          ∃ bufr, 6 ≤ List.length bufr ∧
          (do
            let x ← ReadTransport.fill ⟨{ t.read with bytes := t.read.bytes.drop 6 }, buf'⟩ size
            match x.2 with
              | some e => pure (x.1, .error e)
              | none => do
                let frame ← slice x.1.buffer 0 size
                match N.decode frame with
                  | some f => pure (x.1, .ok (some f))
                  | none => pure (x.1, .error .invalidData)) =
            Res.ok ((⟨⟨x.1, t.read.fails⟩, bufr⟩ : ReadTransport), x.2) := by
        intro buf' h6' hsz
        rw [fill_eq hsz]
        simp only [Res.ok_bind, List.length_drop]
        refine ⟨List.take size (t.read.bytes.drop 6) ++ buf'.drop (List.take size (t.read.bytes.drop 6)).length, by simp; omega, ?_⟩
        by_cases hl : t.read.bytes.length < 6 + size
        · rw [if_pos hl] at hx
          rw [if_neg (by omega)]
          subst hx
          have hd : List.drop size (t.read.bytes.drop 6) = [] := by simp; omega
          rw [hd]
          cases t.read.fails <;> rfl
        · rw [if_neg hl] at hx
          rw [if_pos (by omega)]
          subst hx
          simp only
          have hl2 : (List.take size (t.read.bytes.drop 6)).length = size := by simp; omega
          rw [slice_ok (by omega) (by rw [List.length_append, hl2]; simp)]
          simp only [Res.ok_bind, List.drop_zero]
          rw [show List.take (size - 0) (List.take size (t.read.bytes.drop 6) ++ buf'.drop (List.take size (t.read.bytes.drop 6)).length)
            = List.take size (t.read.bytes.drop 6) from by
              rw [List.take_append_of_le_length (by omega), List.take_take]; simp]
          rw [List.drop_drop]
          cases N.decode (List.take size (t.read.bytes.drop 6)) <;> rfl
      by_cases hgt : size > buf.length
      · rw [if_pos hgt]
        exact key _ (by rw [List.length_append]; omega) (by simp; omega)
      · rw [if_neg hgt]
        exact key _ (by omega) (by omega)

/-- The loop, as a function of the stream. -/
theorem packets_eq (t : ReadTransport) (hb : 6 ≤ t.buffer.length) :
    t.packets N = match next N t.read.bytes t.read.fails with
      | (_, .error e) => .ok ([], some e)
      | (_, .ok none) => .ok ([], none)
      | (rest, .ok (some m)) => (ReadTransport.new ⟨rest, t.read.fails⟩).packets N >>= fun x => Res.ok (m :: x.1, x.2) := by
  induction hn : t.read.bytes.length using Nat.strongRecOn generalizing t with
  | ind n ih =>
  obtain ⟨buf, h6, h⟩ := readPacket_eq (N := N) t hb
  generalize hx : next N t.read.bytes t.read.fails = x at h
  obtain ⟨rest, r⟩ := x
  rw [packets]
  simp only at h
  split
  · rename_i w hw; rw [hw] at h; cases h
  · rename_i t' e hw; rw [hw] at h; cases h; rfl
  · rename_i t' hw; rw [hw] at h; cases h; rfl
  · rename_i t' m hw
    have hc := readPacket_consumes hw
    rw [hw] at h
    simp only [Res.ok.injEq, Prod.mk.injEq] at h
    obtain ⟨rfl, rfl⟩ := h
    simp only
    rw [ih rest.length (by rw [← hn]; exact hc) ⟨⟨rest, t.read.fails⟩, buf⟩ h6 rfl,
      ih rest.length (by rw [← hn]; exact hc) (ReadTransport.new ⟨rest, t.read.fails⟩) (new_buffer _) rfl]
    rfl

end ReadTransport

open ReadTransport

variable {N : Navmon}

theorem packetsOf_eq (bytes : List Byte) (fails : Bool) :
    packetsOf N bytes fails = match next N bytes fails with
      | (_, .error e) => .ok ([], some e)
      | (_, .ok none) => .ok ([], none)
      | (rest, .ok (some m)) => packetsOf N rest fails >>= fun x => Res.ok (m :: x.1, x.2) := by
  unfold packetsOf
  rw [packets_eq _ (new_buffer _)]
  rfl

theorem loadBe_frame_size {n : Nat} (h : n ≤ 65535) : loadBe (bitsOf (beBytes 2 n)) = n := by
  rw [bitsOf_beBytes, loadBe_storeBe]
  exact Nat.mod_eq_of_lt (by omega)

/-- A complete frame at the front of the stream. -/
theorem next_frame {body rest : List Byte} {fails : Bool} (h : Framable body) :
    next N (frame body ++ rest) fails = (rest, match N.decode body with | some f => .ok (some f) | none => .error .invalidData) := by
  unfold next
  have hl : (frame body ++ rest).length = 6 + body.length + rest.length := by rw [List.length_append, frame_length]; omega
  have e4 : (frame body ++ rest).take 4 = MAGIC := by rw [frame_eq]; rfl
  have e2 : ((frame body ++ rest).drop 4).take 2 = beBytes 2 body.length := by rw [beBytes_two]; rfl
  have e6 : (frame body ++ rest).drop 6 = body ++ rest := rfl
  rw [if_neg (by omega), if_neg (by rw [e4]; simp), e2, loadBe_frame_size h, if_neg (by omega), ← List.drop_drop, e6]
  simp

/-- A proper prefix of a frame at the end of the stream. -/
theorem next_trunc {body pre : List Byte} {fails : Bool} (h : Framable body) (hp : pre <+: frame body) (hne : pre.length < (frame body).length) :
    next N pre fails = ([], if fails then .error .other else if pre.length < 6 then .ok none else .error .unexpectedEof) := by
  unfold next
  rw [frame_length] at hne
  by_cases h6 : pre.length < 6
  · rw [if_pos h6, if_pos h6]
  · obtain ⟨t, ht⟩ := hp
    have e4 : pre.take 4 = MAGIC := by
      rw [← List.take_append_of_le_length (l₂ := t) (by omega), ht]; rw [frame_eq]; rfl
    have e2 : (pre.drop 4).take 2 = beBytes 2 body.length := by
      have : ((pre ++ t).drop 4).take 2 = (pre.drop 4).take 2 := by
        rw [List.drop_append_of_le_length (by omega), List.take_append_of_le_length (by simp; omega)]
      rw [← this, ht, beBytes_two]; rfl
    rw [if_neg h6, if_neg (by rw [e4]; simp), e2, loadBe_frame_size h, if_pos (by omega), if_neg h6]
    cases fails <;> rfl

end Verif
