import Verif.Spec.SerialSpec

/-! # Specification of the lines that the firmware understands

Independent of the parser of the model: text is a list of `Char`, numbers are lists of digits, words are maximal runs
of characters other than white space. -/

namespace Verif

/-- The bytes are the text in UTF-8 (`String.utf8EncodeChar` is the encoding of a character of Lean's library). -/
def Utf8Of (bytes : List Byte) (s : List Char) : Prop := bytes = (s.flatMap String.utf8EncodeChar).map (·.toBitVec)

/-- The characters with the Unicode property White_Space. -/
def White (c : Char) : Prop :=
  c.toNat ∈ [0x09, 0x0a, 0x0b, 0x0c, 0x0d, 0x20, 0x85, 0xa0, 0x1680, 0x2000, 0x2001, 0x2002, 0x2003, 0x2004, 0x2005, 0x2006, 0x2007,
    0x2008, 0x2009, 0x200a, 0x2028, 0x2029, 0x202f, 0x205f, 0x3000]

/-- The words of a text: the maximal runs of characters that are not white space. -/
inductive Words : List Char → List (List Char) → Prop
  | nil {sep : List Char} : (∀ c ∈ sep, White c) → Words sep []
  | cons {sep w rest : List Char} {ws : List (List Char)} : (∀ c ∈ sep, White c) → w ≠ [] → (∀ c ∈ w, ¬ White c) →
    (∀ c, rest.head? = some c → White c) → Words rest ws → Words (sep ++ w ++ rest) (w :: ws)

/-- The number with the decimal digits `ds`. -/
def digitsValue (ds : List (Fin 10)) : Nat := ds.foldl (fun n d => 10 * n + d.val) 0

/-- The text is the number `n`, below the limit, in decimal: at least one digit, possibly after a plus sign. -/
def Number (lim : Nat) (w : List Char) (n : Nat) : Prop :=
  ∃ ds : List (Fin 10), ds ≠ [] ∧ (w = ds.map (fun d => Nat.digitChar d.val) ∨ w = '+' :: ds.map (fun d => Nat.digitChar d.val)) ∧
    n = digitsValue ds ∧ n < lim

/-- A hexadecimal digit, in lower or upper case. -/
def HexDigit (c : Char) (x : Nat) : Prop := x < 16 ∧ (c = Nat.digitChar x ∨ c = (Nat.digitChar x).toUpper)

/-- The text is the bytes in hexadecimal. -/
inductive HexOf : List Char → List Byte → Prop
  | nil : HexOf [] []
  | cons {a b : Char} {x y : Nat} {w : List Char} {l : List Byte} : HexDigit a x → HexDigit b y → HexOf w l →
    HexOf (a :: b :: w) (BitVec.ofNat 8 (16 * x + y) :: l)

/-- A line with satellite, week number, time of week, band and data (and possibly more words). -/
def Request (s : List Char) (svn : Svn) (gst : Gst) (band : InavBand) (data : List Char) : Prop :=
  ∃ w1 w2 w3 w4 more, Words s (w1 :: w2 :: w3 :: w4 :: data :: more) ∧
    Number (2 ^ 32) w1 svn.val ∧ Number (2 ^ 16) w2 gst.wn ∧ Number (2 ^ 32) w3 gst.tow ∧
    Number (2 ^ 8) w4 (match band with | .E1B => 1 | .E5B => 5)

/-- The line asks for a call. -/
def AsksFor (s : List Char) (c : Call) : Prop :=
  match c with
  | .inav word svn gst band => ∃ data, Request s svn gst band data ∧ HexOf data word.val
  | .osnma d svn gst => ∃ band data, Request s svn gst band data ∧ HexOf data d.val

/-- The line is complete, but its data has the length of neither an INAV word nor an OSNMA message. -/
def AsksNothing (s : List Char) : Prop :=
  ∃ svn gst band data, Request s svn gst band data ∧
    (data.flatMap String.utf8EncodeChar).length ≠ 32 ∧ (data.flatMap String.utf8EncodeChar).length ≠ 10

/-- The bytes on the serial port begin with a line: the bytes other than LF up to a CR, or the first 256 such bytes if
there is no CR in them. -/
def BeginsWithLine (input line rest : List Byte) : Prop :=
  ∃ raw : List Byte, 0x0d#8 ∉ raw ∧ line = raw.filter (fun b => b ≠ 0x0a#8) ∧
    ((line.length < 256 ∧ input = raw ++ 0x0d#8 :: rest) ∨
     (line.length = 256 ∧ raw.getLast? ≠ some 0x0a#8 ∧ input = raw ++ rest))

end Verif
