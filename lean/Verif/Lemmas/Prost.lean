import Verif.Model.Prost

/-! # Lemmas on the `Navmon` of `prost` -/

namespace Verif.Pb

theorem varint_length (n : Nat) : ∀ k, n < 128 ^ (k + 1) → (varint n).length ≤ k + 1 := by
  induction n using Nat.strongRecOn with
  | _ n ih =>
    intro k hk
    unfold varint
    split
    · simp
    · rename_i h
      cases k with
      | zero => simp at hk; omega
      | succ k =>
        have hd : n / 128 < 128 ^ (k + 1) := by
          rw [Nat.pow_succ] at hk
          exact Nat.div_lt_of_lt_mul (by omega)
        have := ih (n / 128) (by omega) k hd
        simp only [List.length_cons]
        omega

theorem varint_le5 {n : Nat} (h : n < 2 ^ 32) : (varint n).length ≤ 5 := varint_length n 4 (by omega)

theorem key_le2 {num wire : Nat} (h : num * 8 + wire < 16384) : (key num wire).length ≤ 2 := varint_length _ 1 h

theorem optBytes_len (num : Nat) (hn : num < 100) (x : Option (List Byte)) (hx : (x.getD []).length < 2 ^ 32) :
    ((⟨.optional, num, bytes⟩ : Field).enc (optBytes x)).length ≤ 7 + (x.getD []).length := by
  cases x with
  | none => simp [Field.enc, optBytes]
  | some b =>
    simp only [Field.enc, optBytes, bytes, List.length_append, Option.getD_some] at hx ⊢
    have := key_le2 (num := num) (wire := 2) (by omega)
    have := varint_le5 hx
    omega

theorem optNum_len (num : Nat) (hn : num < 100) (x : Option (BitVec 32)) :
    ((⟨.optional, num, uint32⟩ : Field).enc (optNum x)).length ≤ 7 := by
  cases x with
  | none => simp [Field.enc, optNum]
  | some b =>
    simp only [Field.enc, optNum, uint32, List.length_append]
    have := key_le2 (num := num) (wire := 0) (by omega)
    have := varint_le5 b.isLt
    omega

theorem reqNum_len (num : Nat) (hn : num < 100) {n : Nat} (h : n < 2 ^ 32) :
    ((⟨.required, num, uint32⟩ : Field).enc (.num n)).length ≤ 7 := by
  simp only [Field.enc, uint32, List.length_append]
  have := key_le2 (num := num) (wire := 0) (by omega)
  have := varint_le5 h
  omega

theorem reqBytes_len (num : Nat) (hn : num < 100) {b : List Byte} (h : b.length < 2 ^ 32) :
    ((⟨.required, num, bytes⟩ : Field).enc (.bytes b)).length ≤ 7 + b.length := by
  simp only [Field.enc, bytes, List.length_append]
  have := key_le2 (num := num) (wire := 2) (by omega)
  have := varint_le5 h
  omega

theorem ofInavVals_len (i : GalileoInav) (h : i.payload ≤ 60000) :
    (encodeFields galileoInav (ofInavVals i)).length ≤ 84 + i.payload := by
  unfold GalileoInav.payload at *
  unfold galileoInav ofInavVals
  simp only [encodeFields, List.length_append, List.length_nil, req, opt]
  have := reqNum_len 1 (by decide) i.gnssWn.isLt
  have := reqNum_len 2 (by decide) i.gnssTow.isLt
  have := reqNum_len 3 (by decide) i.gnssId.isLt
  have := reqNum_len 4 (by decide) i.gnssSv.isLt
  have := reqBytes_len 5 (by decide) (b := i.contents) (by omega)
  have := optNum_len 6 (by decide) i.sigid
  have := optBytes_len 7 (by decide) i.reserved1 (by omega)
  have := optBytes_len 8 (by decide) i.reserved2 (by omega)
  have := optBytes_len 9 (by decide) i.sar (by omega)
  have := optBytes_len 10 (by decide) i.spare (by omega)
  have := optBytes_len 11 (by decide) i.crc (by omega)
  have := optNum_len 12 (by decide) i.ssp
  omega

theorem ofInavMsg_len (i : GalileoInav) (h : i.payload ≤ 60000) :
    (encodeFields navMonMessage (ofInavMsg i)).length ≤ 1000 + i.payload := by
  have hl := ofInavVals_len i h
  have hk := varint_le5 (n := (encodeFields galileoInav (ofInavVals i)).length) (by omega)
  have e : encodeFields navMonMessage (ofInavMsg i) =
      (key 1 0 ++ varint 0 ++ (key 2 0 ++ varint 3) ++ (key 3 0 ++ varint 0) ++ (key 4 0 ++ varint 0)) ++
      (key 5 2 ++ (varint (encodeFields galileoInav (ofInavVals i)).length ++ encodeFields galileoInav (ofInavVals i))) := by
    unfold navMonMessage ofInavMsg
    simp [encodeFields, Field.enc, uint64, int32, message, List.replicate]
  rw [e]
  have := key_le2 (num := 5) (wire := 2) (by omega)
  have h1 : (key 1 0 ++ varint 0 ++ (key 2 0 ++ varint 3) ++ (key 3 0 ++ varint 0) ++ (key 4 0 ++ varint 0)).length ≤ 100 := by
    simp [key, varint]
  simp only [List.length_append] at h1 ⊢
  omega

end Verif.Pb

namespace Verif

theorem prostNavmon_lawful : prostNavmon.Lawful where
  decode_encode := by
    intro m hm
    have h := Pb.mergeLoop_encode Pb.navMonMessage_ok (d := 100) (by decide) Pb.navMonMessage [] [] m.1
      (Pb.encodeFields Pb.navMonMessage m.1).length (by simp) rfl m.2 (Nat.lt_of_le_of_lt hm (by decide)) (Nat.le_refl _)
    simp only [List.nil_append] at h
    simp only [prostNavmon, Pb.decodeMsg]
    split
    · rename_i vs hv
      rw [h] at hv
      cases hv
      rfl
    · rename_i hv
      rw [h] at hv
      cases hv
  gi_ofInav := by
    intro i
    have ob : ∀ x, Pb.unBytes (Pb.optBytes x) = x := by intro x; cases x <;> rfl
    have on : ∀ x, Pb.unNum (Pb.optNum x) = x := by intro x; cases x <;> simp [Pb.unNum, Pb.optNum]
    have on' : ∀ n, Pb.unNum (.num n) = some (BitVec.ofNat 32 n) := fun _ => rfl
    have ob' : ∀ b, Pb.unBytes (.bytes b) = some b := fun _ => rfl
    simp only [prostNavmon, Pb.ofInavMsg, List.cons_append, List.getElem?_cons_succ, List.getElem?_cons_zero, Option.bind_some,
      Pb.ofInavVals, Pb.toInav, ob, on, on', ob', Option.getD_some, BitVec.ofNat_toNat, BitVec.setWidth_eq]

/-- The packets of the converter fit a frame. -/
theorem prostNavmon_small (i : GalileoInav) (h : i.payload ≤ 60000) : Framable (prostNavmon.encode (prostNavmon.ofInav i)) := by
  have := Pb.ofInavMsg_len i h
  unfold Framable
  show (Pb.encodeFields Pb.navMonMessage (Pb.ofInavMsg i)).length ≤ 65535
  omega

end Verif
