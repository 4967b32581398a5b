import Verif.Model.Serial
import Verif.Spec.GalmonSpec

/-! # Specification of the serial line protocol -/

namespace Verif

/-- A number in decimal, as text. -/
def dec (n : Nat) : List Byte := ascii (toString n)

/-- A number in decimal, with at least two digits. -/
def dec2 (n : Nat) : List Byte := if n < 10 then ascii ("0" ++ toString n) else ascii (toString n)

/-- Bytes in hexadecimal, two digits per byte, most significant digit first. -/
def hexText (l : List Byte) : List Byte :=
  l.flatMap fun b => (Nat.toDigits 16 (256 + b.toNat)).drop 1 |>.map fun c => BitVec.ofNat 8 c.toNat

/-- The line for a call: satellite, week number, time of week, band (`1` or `5`) and the data in hexadecimal. -/
def LineFor (c : Call) (line : List Byte) : Prop :=
  match c with
  | .inav word svn gst band =>
    line = dec svn.val ++ ascii " " ++ dec gst.wn ++ ascii " " ++ dec gst.tow ++
      (match band with | .E1B => ascii " 1 " | .E5B => ascii " 5 ") ++ hexText word.val ++ ascii "\r\n"
  | .osnma data svn gst =>
    ∃ band : InavBand, line = dec svn.val ++ ascii " " ++ dec gst.wn ++ ascii " " ++ dec gst.tow ++
      (match band with | .E1B => ascii " 1 " | .E5B => ascii " 5 ") ++ hexText data.val ++ ascii "\r\n"

/-- The lines for a sequence of calls. -/
inductive LinesFor : List Call → List (List Byte) → Prop
  | nil : LinesFor [] []
  | cons {c : Call} {line : List Byte} {cs : List Call} {lines : List (List Byte)} :
    LineFor c line → LinesFor cs lines → LinesFor (c :: cs) (line :: lines)

/-- What the firmware echoes about a call. -/
def EchoOf (c : Call) (text : List Byte) : Prop :=
  match c with
  | .inav _ svn gst band =>
    text = ascii "E" ++ dec2 svn.val ++ ascii " WN " ++ dec gst.wn ++ ascii " TOW " ++ dec gst.tow ++
      (match band with | .E1B => ascii " E1B INAV\r\n" | .E5B => ascii " E5B INAV\r\n")
  | .osnma _ svn gst =>
    ∃ band : InavBand, text = ascii "E" ++ dec2 svn.val ++ ascii " WN " ++ dec gst.wn ++ ascii " TOW " ++ dec gst.tow ++
      (match band with | .E1B => ascii " E1B OSNMA\r\n" | .E5B => ascii " E5B OSNMA\r\n")

/-- The status line for a kind of data: the satellites with authenticated data, in order, with the time of week of the data, or `NONE`. -/
def StatusLine {C : Crypto} (S : Storage) (o : Osnma C) (kd : NavKind) (line : List Byte) : Prop :=
  ∃ l : List (Svn × NavMessageData),
    (l.Pairwise fun a b => a.1.val < b.1.val) ∧ (∀ svn d, (svn, d) ∈ l ↔ o.get S kd svn = .ok (some d)) ∧
    line = (match kd with | .timing => ascii "AUTH ADKD=4" | .ced => ascii "AUTH ADKD=0") ++
      (if l = [] then ascii " NONE" else l.flatMap fun x => ascii " E" ++ dec2 x.1.val ++ ascii " TOW " ++ dec x.2.gst.tow) ++
      ascii "\r\n"

/-- All getters return (they could only panic for data of the first hours of week 0, see C38). -/
def GettersReturn {C : Crypto} (S : Storage) (o : Osnma C) : Prop := ∀ kd svn, ∃ r, o.get S kd svn = .ok r

end Verif
