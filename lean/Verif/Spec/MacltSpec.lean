import Verif.Spec.TagSpec

/-! # Specification: the MAC look-up table (ICD Annex C) and MACSEQ (ICD 6.6)

The table is written again, in the notation of the ICD and including the first slot (always `00S`);
the code stores it without that slot and padded with `FLX`. -/

namespace Verif

/-- A slot in the notation of the ICD: ADKD with `S` (self) or `E` (any satellite), or flexible. -/
inductive Slot where
  | S00 | E00 | S04 | S12 | E12 | FLX
  deriving DecidableEq, Repr

namespace Slot

/-- A fixed slot requires an ADKD. -/
def adkd : Slot → Option Nat
  | S00 | E00 => some 0
  | S04 => some 4
  | S12 | E12 => some 12
  | FLX => none

/-- Self-authentication slots. -/
def isSelf : Slot → Bool
  | S00 | S04 | S12 => true
  | _ => false

/-- A tag may be sent in a slot by satellite `prna`. -/
def Allows (s : Slot) (prna : Svn) (t : TagSpec) : Prop :=
  ∀ a, s.adkd = some a → t.adkd = a ∧ (1 ≤ t.prnd ∧ t.prnd ≤ 36) ∧ (s.isSelf = true → t.prnd = prna.val)

end Slot

open Slot in
/-- ICD Annex C: for each table id, the slots in the first and second half of the GST minute. -/
def icdMaclt : Nat → Option (List Slot × List Slot)
  | 27 => some ([S00, E00, E00, E00, S12, E00], [S00, E00, E00, S04, S12, E00])
  | 28 => some ([S00, E00, E00, E00, S00, E00, E00, S12, E00, E00],
                [S00, E00, E00, S00, E00, E00, S04, S12, E00, E00])
  | 31 => some ([S00, E00, E00, S12, E00], [S00, E00, E00, S12, S04])
  | 33 => some ([S00, E00, S04, E00, S12, E00], [S00, E00, E00, S12, E00, E12])
  | 34 => some ([S00, FLX, S04, FLX, S12, E00], [S00, FLX, E00, S12, E00, E12])
  | 35 => some ([S00, FLX, S04, FLX, S12, FLX], [S00, FLX, FLX, S12, FLX, FLX])
  | 36 => some ([S00, FLX, S04, FLX, S12], [S00, FLX, E00, S12, E12])
  | 37 => some ([S00, E00, S04, E00, S12], [S00, E00, E00, S12, E12])
  | 38 => some ([S00, FLX, S04, FLX, S12], [S00, FLX, FLX, S12, FLX])
  | 39 => some ([S00, FLX, S04, FLX], [S00, FLX, E00, S12])
  | 40 => some ([S00, E00, S04, S12], [S00, E00, E00, E12])
  | 41 => some ([S00, FLX, S04, FLX], [S00, FLX, FLX, S12])
  | _ => none

/-- Row of the table for a half minute (0 or 1). -/
def icdSlots (id half : Nat) : Option (List Slot) :=
  (icdMaclt id).map (fun r => if half = 0 then r.1 else r.2)

/-- Half of the GST minute: 0 if the subframe starts at second 0, 1 at second 30. -/
def minuteHalf (g : Gst) : Nat := (g.tow / 30) % 2

/-- Positions of the flexible slots, in increasing order. -/
def flexSlots (slots : List Slot) : List Nat :=
  (List.range slots.length).filter (fun j => slots[j]? = some .FLX)

/-- The tag-info (16 bits) of tag `j` of a MACK. -/
def tagInfoBits (msg : MackMessage) (ts j : Nat) : List Bool :=
  ((bitsOf msg.val).drop (j * (ts + 16) + ts)).take 16

/-- The MACSEQ field. -/
def macseqField (msg : MackMessage) (ts : Nat) : List Bool := ((bitsOf msg.val).drop ts).take 12

/-- The bytes MACed for the MACSEQ: PRNA, GST, tag-infos of the flexible slots (ICD Eq. 19). -/
def macseqMessage (msg : MackMessage) (ts : Nat) (slots : List Slot) (prna : Svn) (g : Gst) : List Byte :=
  packBytes (storeBe 8 prna.val ++ storeBe 12 g.wn ++ storeBe 20 g.tow
    ++ (flexSlots slots).flatMap (tagInfoBits msg ts))

/-- The MACSEQ is right. -/
def MacseqOk (C : Crypto) (k : Key) (msg : MackMessage) (ts : Nat) (slots : List Slot) (prna : Svn)
    (g : Gst) : Prop :=
  (macBits C k (macseqMessage msg ts slots prna g)).take 12 = macseqField msg ts

end Verif
