import Verif.Spec.VectorSpec
import Verif.Spec.LineGrammar

/-! # Specification of the files that the converter understands

Independent of the parser of the model: text is a list of `Char`. -/

namespace Verif

/-- The lines of a text: each is ended by LF or CR LF, except that the last one, if not empty, may go on to the end of the text. -/
inductive TextLines : List Char → List (List Char) → Prop
  | nil : TextLines [] []
  | last {w : List Char} : w ≠ [] → '\n' ∉ w → TextLines w [w]
  | lf {w rest : List Char} {ls : List (List Char)} : '\n' ∉ w → w.getLast? ≠ some '\r' → TextLines rest ls → TextLines (w ++ '\n' :: rest) (w :: ls)
  | crlf {w rest : List Char} {ls : List (List Char)} : '\n' ∉ w → TextLines rest ls → TextLines (w ++ '\r' :: '\n' :: rest) (w :: ls)

/-- A satellite number (any of 32 bits) and pages. -/
structure CsvLine where
  sat : Nat
  pages : List InavPage

/-- The text of the line: the number in decimal, a field that is ignored, the pages in hexadecimal, and possibly more fields. -/
def CsvLine.Text (v : CsvLine) (text : List Char) : Prop :=
  ∃ (a b c rest : List Char) (bytes : List Byte), text = a ++ ',' :: b ++ ',' :: c ++ rest ∧ ',' ∉ a ∧ ',' ∉ b ∧ ',' ∉ c ∧
    (rest = [] ∨ rest.head? = some ',') ∧ Number (2 ^ 32) a v.sat ∧ HexOf c bytes ∧ bitsOf bytes = v.pages.flatMap InavPage.bits

/-- The texts are the lines, one by one. -/
def AllText (vs : List CsvLine) (texts : List (List Char)) : Prop := vs.length = texts.length ∧ ∀ x ∈ vs.zip texts, x.1.Text x.2

/-- A file: a header, which is ignored, and the lines. -/
def CsvFile (vs : List CsvLine) (s : List Char) : Prop := ∃ header texts, TextLines s (header :: texts) ∧ AllText vs texts

/-- The time two seconds after the last page is in the range of GST.  `start` is in seconds since the GST epoch. -/
def CsvLine.Fits (start : Int) (v : CsvLine) : Prop := start + 2 * v.pages.length < 65536 * 604800

/-- The pages in chronological order, and in order of the lines at the same time; with their satellite number and index in the line. -/
def byTime (vs : List CsvLine) : List (Nat × Nat × InavPage) :=
  (List.range ((vs.map fun v => v.pages.length).foldr max 0)).flatMap fun k =>
    vs.filterMap fun v => v.pages[k]?.map fun p => (v.sat, k, p)

/-- The packets are those for the pages, in order. -/
def Packets (start : Gst) (xs : List (Nat × Nat × InavPage)) (is : List GalileoInav) : Prop :=
  is.length = xs.length ∧ ∀ (n : Nat) (x : Nat × Nat × InavPage) (i : GalileoInav), xs[n]? = some x → is[n]? = some i →
    PacketFor start x.1 x.2.1 x.2.2 i

end Verif
