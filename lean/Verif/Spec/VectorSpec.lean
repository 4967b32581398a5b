import Verif.Model.TestVectors
import Verif.Spec.SerialSpec

/-! # Specification of the test vectors -/

namespace Verif

/-- The fields of a nominal I/NAV page on E1-B (OS SIS ICD, section 4.3.2): the even page and the odd page, 120 bits each. -/
structure InavPage where
  even : Bool
  evenType : Bool
  data1 : List Bool
  evenTail : List Bool
  odd : Bool
  oddType : Bool
  data2 : List Bool
  osnma : List Bool
  sar : List Bool
  spare : List Bool
  crc : List Bool
  ssp : List Bool
  oddTail : List Bool
  h1 : data1.length = 112
  h2 : evenTail.length = 6
  h3 : data2.length = 16
  h4 : osnma.length = 40
  h5 : sar.length = 22
  h6 : spare.length = 2
  h7 : crc.length = 24
  h8 : ssp.length = 8
  h9 : oddTail.length = 6

/-- The 240 bits of a page, in order of transmission. -/
def InavPage.bits (p : InavPage) : List Bool :=
  ([p.even, p.evenType] ++ p.data1 ++ p.evenTail) ++
    ([p.odd, p.oddType] ++ p.data2 ++ p.osnma ++ p.sar ++ p.spare ++ p.crc ++ p.ssp ++ p.oddTail)

/-- The 128-bit word of a page. -/
def InavPage.word (p : InavPage) : List Bool := p.data1 ++ p.data2

/-- The pages of one satellite, as in a line of a test vector file. -/
structure VectorLine where
  svn : Svn
  pages : List InavPage

/-- The character in lower case, for the letters `A` to `F`. -/
def lowerHex (c : Nat) : Nat := if 65 ≤ c ∧ c ≤ 70 then c + 32 else c

/-- The text of a line: satellite, a field that is ignored, and the pages in hexadecimal (in upper or lower case). -/
def VectorLine.Text (v : VectorLine) (text : List Nat) : Prop :=
  ∃ (ignored : List Nat) (bytes : List Byte) (hex : List Nat), (∀ c ∈ ignored, c ≠ 44 ∧ c ≠ 10) ∧
    bitsOf bytes = v.pages.flatMap InavPage.bits ∧ hex.map lowerHex = (hexText bytes).map (·.toNat) ∧
    text = (dec v.svn.val).map (·.toNat) ++ [44] ++ ignored ++ [44] ++ hex

/-- A file: a header line and then the lines, each ended by LF or CR LF. -/
def VectorFile (vs : List VectorLine) (csv : List Nat) : Prop :=
  ∃ (header : List Nat) (texts : List (List Nat)) (eol : List Nat), (∀ c ∈ header, c ≠ 10) ∧ (eol = [10] ∨ eol = [13, 10]) ∧
    texts.length = vs.length ∧ (∀ x ∈ vs.zip texts, x.1.Text x.2) ∧ csv = header ++ eol ++ texts.flatMap (· ++ eol)

/-- The pages of a file in chronological order, and in order of the lines of the file at the same time; with their satellite and index in
the line. -/
def chronological (vs : List VectorLine) : List (Svn × Nat × InavPage) :=
  (List.range ((vs.map fun v => v.pages.length).foldr max 0)).flatMap fun k =>
    vs.filterMap fun v => v.pages[k]?.map fun p => (v.svn, k, p)

/-- The packet for a page. -/
structure PacketFor (start : Gst) (svn : Nat) (k : Nat) (p : InavPage) (i : GalileoInav) : Prop where
  time : i.secs = start.abs + 2 * k
  wnTow : i.gnssTow.toNat < 604800
  sv : i.gnssSv.toNat = svn
  contents : bitsOf i.contents = p.word
  sigid : i.sigid = some 1
  osnma : ∃ d, i.reserved1 = some d ∧ bitsOf d = p.osnma
  ssp : i.ssp.map (fun x => x.toNat) = some (loadBe p.ssp) ∧ i.reserved2.map bitsOf = some p.ssp
  sar : i.sar.map bitsOf = some (p.sar ++ p.spare)
  spare : i.spare.map (fun l => l.map fun b => b.toNat) = some [loadBe p.spare]
  crc : i.crc.map bitsOf = some p.crc
  gnssId : i.gnssId = 2

/-- The calls for a page: none for a dummy word. -/
def CallsForPage (start : Gst) (x : Svn × Nat × InavPage) (calls : List Call) : Prop :=
  (x.2.2.word.take 6 = List.replicate 6 true ∧ calls = []) ∨
  (x.2.2.word.take 6 ≠ List.replicate 6 true ∧
    ∃ (word : InavWord) (data : OsnmaDataMessage) (gst : Gst), bitsOf word.val = x.2.2.word ∧ bitsOf data.val = x.2.2.osnma ∧
      gst.abs = start.abs + 2 * x.2.1 ∧ calls = [.inav word x.1 gst .E1B, .osnma data x.1 gst])

/-- The same for a sequence of pages. -/
inductive CallsForPages (start : Gst) : List (Svn × Nat × InavPage) → List Call → Prop
  | nil : CallsForPages start [] []
  | cons {x : Svn × Nat × InavPage} {xs : List (Svn × Nat × InavPage)} {now later : List Call} :
    CallsForPage start x now → CallsForPages start xs later → CallsForPages start (x :: xs) (now ++ later)

end Verif
