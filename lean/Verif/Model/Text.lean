import Verif.Prelude.Bits

/-! # Text handling of the standard library and of the crate `hex`

Used by `osnma-longan-nano-client.rs`, `osnma-longan-nano/src/main.rs` and `osnma-test-vectors-to-galmon.rs`. -/

namespace Verif

/-- An ASCII string as bytes (for literals). -/
def ascii (s : String) : List Byte := s.toList.map fun c => BitVec.ofNat 8 c.toNat

/-- `{}` of an unsigned integer (e.g. `osnma-longan-nano-client.rs:49-56`): decimal digits without leading zeros. -/
def decimal (n : Nat) : List Byte :=
  if n < 10 then [BitVec.ofNat 8 (48 + n)] else decimal (n / 10) ++ [BitVec.ofNat 8 (48 + n % 10)]
termination_by n
decreasing_by omega

/-- `{:02}` of an unsigned integer (`svn.rs:84`). -/
def decimal02 (n : Nat) : List Byte := if n < 10 then 48#8 :: decimal n else decimal n

/-- A digit of `hex::encode` (lower case). -/
def hexDigit (n : Nat) : Byte := if n < 10 then BitVec.ofNat 8 (48 + n) else BitVec.ofNat 8 (87 + n)

/-- `hex::encode` (`osnma-longan-nano-client.rs:62, 74`). -/
def hexEncode (l : List Byte) : List Byte := l.flatMap fun b => [hexDigit (b.toNat / 16), hexDigit (b.toNat % 16)]

/-- Continuation byte of UTF-8. -/
def isCont (b : Byte) : Bool := 0x80 ≤ b.toNat && b.toNat < 0xc0

/-- `core::str::from_utf8(..).ok()` (`osnma-longan-nano/src/main.rs:91`): the code points, if the bytes are
well formed (Unicode standard, table 3-7).  The first argument bounds the recursion; `utf8` gives the length. -/
def utf8Go : Nat → List Byte → Option (List Nat)
  | _, [] => some []
  | 0, _ => none
  | n + 1, b :: rest =>
    if b.toNat < 0x80 then (utf8Go n rest).map (b.toNat :: ·)
    else if 0xc2 ≤ b.toNat ∧ b.toNat < 0xe0 then
      match rest with
      | c :: rest => if isCont c then (utf8Go n rest).map (((b.toNat - 0xc0) * 64 + (c.toNat - 0x80)) :: ·) else none
      | _ => none
    else if 0xe0 ≤ b.toNat ∧ b.toNat < 0xf0 then
      match rest with
      | c :: d :: rest =>
        let v := (b.toNat - 0xe0) * 4096 + (c.toNat - 0x80) * 64 + (d.toNat - 0x80)
        if isCont c && isCont d && 0x800 ≤ v && !(0xd800 ≤ v && v < 0xe000) then (utf8Go n rest).map (v :: ·) else none
      | _ => none
    else if 0xf0 ≤ b.toNat ∧ b.toNat < 0xf5 then
      match rest with
      | c :: d :: e :: rest =>
        let v := (b.toNat - 0xf0) * 262144 + (c.toNat - 0x80) * 4096 + (d.toNat - 0x80) * 64 + (e.toNat - 0x80)
        if isCont c && isCont d && isCont e && 0x10000 ≤ v && v < 0x110000 then (utf8Go n rest).map (v :: ·) else none
      | _ => none
    else none

/-- See `utf8Go`. -/
def utf8 (l : List Byte) : Option (List Nat) := utf8Go l.length l

/-- Length in bytes of the UTF-8 encoding of a code point (for `str::len`). -/
def utf8Len (c : Nat) : Nat := if c < 0x80 then 1 else if c < 0x800 then 2 else if c < 0x10000 then 3 else 4

/-- `str::len`. -/
def strLen (s : List Nat) : Nat := (s.map utf8Len).sum

/-- `char::is_whitespace` (Unicode property `White_Space`). -/
def isWhitespace (c : Nat) : Bool :=
  (9 ≤ c && c ≤ 13) || c == 0x20 || c == 0x85 || c == 0xa0 || c == 0x1680 || (0x2000 ≤ c && c ≤ 0x200a) ||
    c == 0x2028 || c == 0x2029 || c == 0x202f || c == 0x205f || c == 0x3000

/-- `str::split_whitespace` (`osnma-longan-nano/src/main.rs:93`): `cur` is the word being read. -/
def splitWhitespace (cur : List Nat) : List Nat → List (List Nat)
  | [] => if cur = [] then [] else [cur]
  | c :: cs =>
    if isWhitespace c then (if cur = [] then splitWhitespace [] cs else cur :: splitWhitespace [] cs)
    else splitWhitespace (cur ++ [c]) cs

/-- The digits of `str::parse` for an unsigned type with values below `lim`. -/
def parseDigits (lim : Nat) (acc : Nat) : List Nat → Option Nat
  | [] => some acc
  | c :: cs =>
    if 48 ≤ c ∧ c ≤ 57 then
      if acc * 10 < lim then if acc * 10 + (c - 48) < lim then parseDigits lim (acc * 10 + (c - 48)) cs else none
      else none
    else none

/-- `str::parse::<T>().ok()` for an unsigned integer type with values below `lim` (`osnma-longan-nano/src/main.rs:94-97`,
`osnma-test-vectors-to-galmon.rs:41`): an optional `+` and at least one digit; no overflow. -/
def parseUint (lim : Nat) (s : List Nat) : Option Nat :=
  match s with
  | [] => none
  | [43] => none
  | 43 :: ds => parseDigits lim 0 ds
  | ds => parseDigits lim 0 ds

/-- `hex::val`: value of a hexadecimal digit. -/
def hexVal (c : Nat) : Option Nat :=
  if 48 ≤ c ∧ c ≤ 57 then some (c - 48)
  else if 97 ≤ c ∧ c ≤ 102 then some (c - 87)
  else if 65 ≤ c ∧ c ≤ 70 then some (c - 55)
  else none

/-- `hex::decode(..).ok()` (`osnma-test-vectors-to-galmon.rs:44`). -/
def hexDecode : List Nat → Option (List Byte)
  | [] => some []
  | [_] => none
  | a :: b :: rest =>
    match hexVal a, hexVal b, hexDecode rest with
    | some x, some y, some l => some (BitVec.ofNat 8 (16 * x + y) :: l)
    | _, _, _ => none

/-- `hex::decode_to_slice(s, &mut [0; n]).unwrap()` (`osnma-longan-nano/src/main.rs:109, 114`). -/
def hexDecodeTo (n : Nat) (s : List Nat) : Res (Bytes n) :=
  match hexDecode s with
  | some l => if h : l.length = n then .ok ⟨l, h⟩ else .panic "hex::decode_to_slice: InvalidStringLength"
  | none => .panic "hex::decode_to_slice"

end Verif
