import Verif.Spec.TagSpec

/-! # Specification: layout of a MACK message (ICD Figures 8, 9, 11) -/

namespace Verif

/-- A tag with its tag-info, as field values. -/
structure TagFields where
  tag : List Bool
  prnd : Nat
  adkd : Nat
  cop : Nat

/-- Tag, PRND (8 bits), ADKD (4 bits), COP (4 bits). -/
def TagFields.bits (t : TagFields) : List Bool :=
  t.tag ++ storeBe 8 t.prnd ++ storeBe 4 t.adkd ++ storeBe 4 t.cop

/-- The fields of a MACK message. -/
structure MackFields where
  tag0 : List Bool
  macseq : Nat
  cop : Nat
  tags : List TagFields
  key : List Bool
  padding : List Bool

/-- The 480 bits: first tag, MACSEQ (12), COP (4), the other tags with tag-infos, key, padding. -/
def MackFields.bits (f : MackFields) : List Bool :=
  f.tag0 ++ storeBe 12 f.macseq ++ storeBe 4 f.cop ++ f.tags.flatMap TagFields.bits ++ f.key ++ f.padding

/-- The sizes are those of the chain: `⌊(480 - key) / (tag + 16)⌋` tags. -/
structure MackFields.Fits (f : MackFields) (c : Chain) : Prop where
  tag0 : f.tag0.length = c.tagSizeBits
  macseq : f.macseq < 4096
  cop : f.cop < 16
  num : f.tags.length + 1 = (480 - 8 * c.keySizeBytes) / (c.tagSizeBits + 16)
  tags : ∀ t ∈ f.tags, t.tag.length = c.tagSizeBits ∧ t.prnd < 256 ∧ t.adkd < 16 ∧ t.cop < 16
  key : f.key.length = 8 * c.keySizeBytes

/-- Meaning of the PRND field. -/
def PrndMeans (n : Nat) : Prnd → Prop
  | .GalileoSvid m => m = n ∧ 1 ≤ n ∧ n ≤ 36
  | .GalileoConstellation => n = 255
  | .Reserved => ¬ (1 ≤ n ∧ n ≤ 36) ∧ n ≠ 255

/-- Meaning of the ADKD field. -/
def AdkdMeans (n : Nat) : Adkd → Prop
  | .InavCed => n = 0
  | .InavTiming => n = 4
  | .SlowMac => n = 12
  | .Reserved => n ≠ 0 ∧ n ≠ 4 ∧ n ≠ 12

end Verif
