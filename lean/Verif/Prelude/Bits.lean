import Verif.Prelude.Res

/-!
# Bytes, bits, slices

Model of `u8`, `[u8]` and of `bitvec::BitSlice<u8, Msb0>` (`galileo-osnma/src/types.rs:60-69`):
a bit slice is a list of booleans, the most significant bit of the first byte first.
-/

namespace Verif

/-- A Rust `u8`. -/
abbrev Byte := BitVec 8

/-- The 8 bits of a byte, most significant first (`BitSlice::from_slice(&[b])`, order `Msb0`). -/
def byteBits (b : Byte) : List Bool :=
  [b.getLsbD 7, b.getLsbD 6, b.getLsbD 5, b.getLsbD 4,
   b.getLsbD 3, b.getLsbD 2, b.getLsbD 1, b.getLsbD 0]

/-- `BitSlice::from_slice(bytes)`. -/
def bitsOf (bs : List Byte) : List Bool := bs.flatMap byteBits

/-- `bits.load_be::<uN>()`: big-endian unsigned value of a bit slice. -/
def loadBe (bits : List Bool) : Nat := bits.foldl (fun a b => 2 * a + b.toNat) 0

/-- `bits.store_be(v)` into a bit slice of length `n`: the `n` least significant bits of `v`,
most significant first. -/
def storeBe (n : Nat) (v : Nat) : List Bool :=
  match n with
  | 0 => []
  | n + 1 => v.testBit n :: storeBe n v

/-- One byte from (up to) 8 bits, most significant first; missing bits are zero. -/
def packByte (bits : List Bool) : Byte :=
  BitVec.ofNat 8 (loadBe (bits.take 8 ++ List.replicate (8 - bits.length) false))

/-- Bytes from bits, 8 at a time; the last byte is padded with zero bits. -/
def packBytes : List Bool → List Byte
  | b7 :: b6 :: b5 :: b4 :: b3 :: b2 :: b1 :: b0 :: rest =>
    packByte [b7, b6, b5, b4, b3, b2, b1, b0] :: packBytes rest
  | [] => []
  | rest => [packByte rest]

/-- `&l[i..j]`: panics if out of bounds. -/
def slice {α : Type u} (l : List α) (i j : Nat) : Res (List α) :=
  if i ≤ j ∧ j ≤ l.length then .ok ((l.drop i).take (j - i)) else .panic "slice out of bounds"

/-- `l[i]`: panics if out of bounds. -/
def index {α : Type u} (l : List α) (i : Nat) : Res α :=
  match l[i]? with
  | some a => .ok a
  | none => .panic "index out of bounds"

/-- `l[i] = v`: panics if out of bounds. -/
def setIndex {α : Type u} (l : List α) (i : Nat) (v : α) : Res (List α) :=
  if i < l.length then .ok (l.set i v) else .panic "index out of bounds"

/-- `l[i..i+src.len()].copy_from_slice(src)`: panics if out of bounds. -/
def writeSlice {α : Type u} (l : List α) (i : Nat) (src : List α) : Res (List α) :=
  if i + src.length ≤ l.length then .ok (l.take i ++ src ++ l.drop (i + src.length))
  else .panic "slice out of bounds"

/-- An array `[u8; n]`. -/
abbrev Bytes (n : Nat) := { l : List Byte // l.length = n }

/-- `[0; n]`. -/
def Bytes.zero (n : Nat) : Bytes n := ⟨List.replicate n 0#8, by simp⟩

instance (n : Nat) : Inhabited (Bytes n) := ⟨Bytes.zero n⟩

/-- Big-endian bytes of `v` on `n` bytes (`to_be_bytes`). -/
def beBytes (n : Nat) (v : Nat) : List Byte := packBytes (storeBe (8 * n) v)

end Verif
