import Verif.Props.Mack
import Verif.Props.Tesla
import Verif.Props.Kroot
import Verif.Props.Merkle
import Verif.Props.Dsm
import Verif.Props.Vectors
import Verif.Tests.ApiKeys
import Verif.Tests.Dsms

/-! # Concrete cases for the theorems about messages, keys, tags and the Merkle tree

Each example meets all the hypotheses of the theorem that it names (C07, C18–C28, C46, C49–C51).  The theorems that exhibit a
collision need a hash with collisions: `flat`. -/

namespace Verif.Sim
open Verif

/-! ## MACK: a chain with flexible slots -/

/-- Chain 1 with table 34, whose rows have flexible slots. -/
def chainF : Chain := { chain 1 with maclt := 34, hmaclt := by decide }

/-- A key of this chain. -/
def keyF : Key := ⟨fix 32 (List.replicate 16 9#8 ++ List.replicate 16 0#8), chainF, gst 36090⟩

/-- Row of the table in the first half of the minute. -/
def slotsF : List Slot := [.S00, .FLX, .S04, .FLX, .S12, .E00]

/-- Fields of a MACK of satellite 1 with tags of satellites 7 and 1 in the flexible slots, with the given MACSEQ. -/
def fieldsF (seq : Nat) : MackFields :=
  ⟨List.replicate 40 true, seq, 1, [⟨List.replicate 40 false, 7, 0, 2⟩, ⟨List.replicate 40 true, 1, 4, 3⟩, ⟨List.replicate 40 false, 1, 12, 4⟩,
    ⟨List.replicate 40 true, 1, 12, 5⟩, ⟨List.replicate 40 true, 30, 0, 6⟩], bitsOf (List.replicate 16 0x5a#8), List.replicate 16 true⟩

def mackF (seq : Nat) : MackMessage := fix 60 (packBytes (fieldsF seq).bits)

/-- The right MACSEQ, computed from the specification. -/
def seqF : Nat := loadBe ((macBits toy keyF (macseqMessage (mackF 0) 40 slotsF (sv 1) (gst 36060))).take 12)

private theorem slotsF_eq : icdSlots chainF.maclt (minuteHalf (gst 36060)) = some slotsF := by decide +kernel

/-- `C20_macseq_accepts_iff`: two flexible slots; the right MACSEQ is accepted and the next one is not. -/
example : keyF.MacUsable ∧ icdSlots keyF.chain.maclt (minuteHalf (gst 36060)) = some slotsF ∧ flexSlots slotsF = [1, 3] ∧
    (∀ j ∈ flexSlots slotsF, j < (480 - 8 * keyF.chain.keySizeBytes) / (keyF.chain.tagSizeBits + 16)) ∧
    keyF.validateMacseq toy (mackOf (mackF seqF) chainF) (sv 1) (gst 36060) = .ok (.ok ()) ∧
    keyF.validateMacseq toy (mackOf (mackF (seqF + 1)) chainF) (sv 1) (gst 36060) ≠ .ok (.ok ()) := by
  refine ⟨(by intro h; cases h), slotsF_eq, by decide, by decide, of_okVal (by decide +kernel), ?_⟩
  intro h
  have : okVal (keyF.validateMacseq toy (mackOf (mackF (seqF + 1)) chainF) (sv 1) (gst 36060)) = none := by decide +kernel
  rw [h] at this
  cases this

/-- `C20_unknown_table`. -/
example : ({ keyF with chain := { chain 1 with maclt := 29, hmaclt := by decide } } : Key).MacUsable ∧ icdMaclt 29 = none :=
  ⟨(by intro h; cases h), rfl⟩

/-- `C20_flex_slot_beyond_panics`: with 32-byte keys and table 34 there are four tags, and a flexible slot 3 is still among them; with table 35 the flexible
slot 5 is not. -/
example : ∃ c : Chain, icdSlots c.maclt 0 = some [.S00, .FLX, .S04, .FLX, .S12, .FLX] ∧ 5 ∈ flexSlots [.S00, .FLX, .S04, .FLX, .S12, .FLX] ∧
    c.numTags ≤ 5 :=
  ⟨{ chain 1 with maclt := 35, hmaclt := by decide, keySizeBytes := 32, hks := by decide }, rfl, by decide, by decide⟩

/-- `C20_message_determines_flexible_infos`: two MACKs that differ only outside the flexible tag-infos. -/
example : (mackF 0).val ≠ (mackF 5).val ∧ (∀ j ∈ flexSlots slotsF, j < chainF.numTags) ∧
    macseqMessage (mackF 0) chainF.tagSizeBits slotsF (sv 1) (gst 36060) = macseqMessage (mackF 5) chainF.tagSizeBits slotsF (sv 1) (gst 36060) := by
  refine ⟨by decide +kernel, by decide, by decide +kernel⟩

/-- `C21_get_maclt_entry_exact`, `C21_timing_slots_are_self`. -/
example : Maclt.getEntry 34 0 2 = .ok (.ok (.Fixed .InavTiming .SelfAuth)) ∧ Maclt.getEntry 34 0 3 = .ok (.ok .Flex) ∧
    Maclt.getEntry 34 0 6 = .ok (.error .InvalidTagNumber) ∧ Maclt.getEntry 29 0 1 = .ok (.error .InvalidMaclt) := ⟨rfl, rfl, rfl, rfl⟩

/-- `C21_mack_validate_exact`, `C21_accepted_conforms`: the MACK with the right MACSEQ is accepted; with a Slow MAC tag in the place of
the timing tag it is not. -/
example : (mackOf (mackF seqF) chainF).validate toy keyF (sv 1) (gst 36060) = .ok (.ok (mackOf (mackF seqF) chainF)) ∧
    okVal ((mackOf (fix 60 (packBytes ({ fieldsF seqF with tags := (fieldsF seqF).tags.set 1 ⟨List.replicate 40 true, 1, 12, 3⟩ } : MackFields).bits))
      chainF).validate toy keyF (sv 1) (gst 36060)) = none ∧
    (∃ t, (mackOf (mackF seqF) chainF).tagAndInfo 2 = .ok t) :=
  ⟨of_okVal (by decide +kernel), by decide +kernel, _, Mack.tagAndInfo_ok (mackF seqF) chainF (j := 2) (by decide) (by decide)⟩

/-- `C50_mack_fields_decoded`. -/
example : (fieldsF 77).Fits chainF ∧ bitsOf (mackF 77).val = (fieldsF 77).bits := by
  refine ⟨⟨by decide, by decide, by decide, by decide, by decide +kernel, by decide +kernel⟩, by decide +kernel⟩

/-! ## Tags -/

/-- Some navigation data. -/
def data : List Bool := navData .ced 1 0x35

/-- `C18_validate_tag_exact`, `C18_validate_tag0_exact`: the tag of the specification is accepted, as a tag of another satellite it is not. -/
example : (key (chain 1) 36090).MacUsable ∧ (tagFor (chain 1) 1 36060 1 3 1 0 0x35).length ≤ 128 ∧ data.length ≤ 550 ∧
    (key (chain 1) 36090).validateTag toy (tagFor (chain 1) 1 36060 1 3 1 0 0x35) (gst 36060) 1#8 (sv 1) 4#8 .Test data = .ok true ∧
    (key (chain 1) 36090).validateTag toy (tagFor (chain 1) 1 36060 1 3 1 0 0x35) (gst 36060) 2#8 (sv 1) 4#8 .Test data = .ok false ∧
    (key (chain 1) 36090).validateTag0 toy (tagFor (chain 1) 1 36060 1 0 1 0 0x35) (gst 36060) (sv 1) .Test data = .ok true := by
  refine ⟨(by intro h; cases h), by decide +kernel, by decide +kernel, by decide +kernel, by decide +kernel, by decide +kernel⟩

/-- A hash with nothing but collisions, for the theorems that exhibit them. -/
def flat : Crypto := { toy with
  sha256 := fun _ => List.replicate 32 0#8, sha256_len := fun _ => List.length_replicate
  hmac := fun _ _ => List.replicate 32 0#8, hmac_len := fun _ _ => List.length_replicate }

/-- `C18_tag_binding`: one tag for two different data. -/
example : ∃ (t : TagSpec) (d₁ d₂ : List Bool), d₁.length = 549 ∧ d₂.length = 549 ∧ t.tag.length = 40 ∧ t.ctr < 256 ∧ t.prnd < 256 ∧ d₁ ≠ d₂ ∧
    t.Verifies flat (key (chain 1) 36090) (sv 1) (gst 36060) .Test d₁ ∧ t.Verifies flat (key (chain 1) 36090) (sv 1) (gst 36060) .Test d₂ :=
  ⟨⟨2, List.replicate 40 false, 1, 0, 1⟩, List.replicate 549 false, List.replicate 549 true, by decide +kernel, by decide +kernel, by decide,
    by decide, by decide, by decide +kernel, by decide +kernel, by decide +kernel⟩

/-! ## Keys -/

/-- `C22_derive_spec`, `C22_derive_returns_iff`: four steps of the chain, over the specification of the transmitter. -/
example : (key (chain 1) 36090).derive toy 4 = .ok (key (chain 1) 35970) := by decide +kernel

/-- `C23_accepts_iff`, `C23_transitive`: a key, the key four subframes later, and ten subframes after that. -/
example : (gst 35970).Aligned ∧ (gst 36090).Aligned ∧ (gst 36390).Aligned ∧
    (key (chain 1) 35970).validateKey toy (key (chain 1) 36090) = .ok (.ok (key (chain 1) 36090)) ∧
    (key (chain 1) 36090).validateKey toy (key (chain 1) 36390) = .ok (.ok (key (chain 1) 36390)) ∧
    (gst 36390).abs ≤ (gst 35970).abs + 30 * 3000 := by
  refine ⟨by decide +kernel, by decide +kernel, by decide +kernel, apiKey_ok, apiKey_ok', by decide +kernel⟩

/-- `C24_key_binding`: two keys of the same subframe accepted by one key. -/
example : ∃ self k₁ k₂ : Key, self.gst.Aligned ∧ k₁.gst.Aligned ∧ self.validateKey flat k₁ = .ok (.ok k₁) ∧ self.validateKey flat k₂ = .ok (.ok k₂) ∧
    k₁.gst = k₂.gst ∧ k₁.bytes ≠ k₂.bytes :=
  ⟨⟨fix 32 (List.replicate 32 0#8), chain 1, gst 36000⟩, ⟨fix 32 (List.replicate 16 1#8 ++ List.replicate 16 0#8), chain 1, gst 36060⟩,
    ⟨fix 32 (List.replicate 16 2#8 ++ List.replicate 16 0#8), chain 1, gst 36060⟩, by decide +kernel, by decide +kernel, of_okVal (by decide +kernel),
    of_okVal (by decide +kernel), rfl, by decide +kernel⟩

/-! ## DSM-KROOT -/

/-- `C27_kroot_accepted_iff`, `C27_signed_message_determines_key`: the DSM-KROOT of the transmitter; and a DSM-KROOT with the same signed message but
another number of blocks in its first byte (which is not signed). -/
example : ∃ (d : DsmKroot) (h : NmaHeader) (k : Key), Key.fromDsmKroot toy h d (pub 1) = .ok (.ok (k, h)) ∧ k.chain = chain 1 ∧ k.gst = gst 35970 :=
  ⟨apiKroot, ⟨hdr1⟩, key (chain 1) 35970, apiRoot_ok, rfl, rfl⟩

example : ∃ d : DsmKroot, d.data ≠ apiKroot.data ∧
    Key.fromDsmKroot toy ⟨hdr1⟩ d (pub 1) = .ok (.ok (key (chain 1) 35970, ⟨hdr1⟩)) ∧ d.signatureMessage ⟨hdr1⟩ = apiKroot.signatureMessage ⟨hdr1⟩ :=
  ⟨⟨0xf1#8 :: apiKroot.data.drop 1⟩, by decide +kernel, of_okVal (by decide +kernel), by decide +kernel⟩

/-- `C28_genuine_kroot_located`, `C28_curve_recognised_iff`: 8 blocks with a P-256 signature and 13 with a P-521 signature. -/
example : ∃ head : List Byte, head.length = 13 ∧ icdKeyBytes (bitField head 16 4) = some 16 ∧
    (head ++ List.replicate 16 1#8 ++ List.replicate 64 2#8 ++ List.replicate 11 3#8).length % 13 = 0 ∧
    (head ++ List.replicate 16 1#8 ++ List.replicate 132 2#8 ++ List.replicate 8 3#8).length % 13 = 0 ∧
    (DsmKroot.mk (head ++ List.replicate 16 1#8 ++ List.replicate 64 2#8 ++ List.replicate 11 3#8)).ecdsaFunction = .ok .P256Sha256 ∧
    (DsmKroot.mk (head ++ List.replicate 16 1#8 ++ List.replicate 132 2#8 ++ List.replicate 8 3#8)).ecdsaFunction = .ok .P521Sha512 :=
  ⟨[0x21#8, 0x10#8, 0x49#8] ++ List.replicate 10 0#8, by decide, by decide +kernel, by decide +kernel, by decide +kernel, by decide +kernel, by decide +kernel⟩

/-- `C49_kroot_fields_decoded`. -/
example : ∃ (f : KrootFields) (d : DsmKroot), f.InRange ∧ bitsOf d.data = f.bits ∧ f.kroot.length = 16 ∧ f.signature.length = 64 ∧ f.alpha ≠ 0 := by
  let f : KrootFields := {
    nb := 2, pkid := 3, cidkr := 1, rsvd1 := 2, hf := 2, mf := 1, ks := 4, ts := 9, maclt := 34, rsvd2 := 5, wn := 1200, towh := 100,
    alpha := 0x112233445566, kroot := List.replicate 16 9#8, signature := List.replicate 64 8#8, padding := List.replicate 11 7#8 }
  exact ⟨f, ⟨packBytes f.bits⟩, ⟨by decide, by decide, by decide, by decide, by decide, by decide, by decide, by decide, by decide, by decide, by decide⟩,
    by decide +kernel, by decide, by decide, by decide⟩

/-! ## DSM-PKR -/

/-- `C25_accepted_iff_proved`, `C26_genuine_leaf_accepted`: the DSM-PKRs of the transmitter are accepted, the key and the alert; the key with another
identifier is not. -/
example : Merkle.validatePkr toy root ⟨pkr2⟩ = .ok (.ok (pub 2)) ∧ Merkle.validateAlertMessage toy root ⟨pkr0⟩ = .ok (.ok ()) ∧
    (match Merkle.validatePkr toy root ⟨pkr2.set 129 0x13#8⟩ with | .ok (.ok _) => false | .ok (.error _) => true | .panic _ => false) = true := by
  refine ⟨?_, of_okVal (by decide +kernel), by decide +kernel⟩
  refine (C25_accepted_iff_proved root ⟨pkr2⟩ (pub 2)).2 ?_
  refine ⟨by decide +kernel, .inl ⟨by decide +kernel, by decide +kernel, by unfold MerkleProof; decide +kernel, pubBytes 2, ?_, rfl⟩⟩
  have : byteField pkr2 130 33 = pubBytes 2 := by decide +kernel
  show toy.p256FromSec1 (byteField pkr2 130 33) = some (pubBytes 2)
  rw [this]
  rfl

/-- A DSM-PKR with message identifier 5 of a P-256 key, with zeros as tree nodes and padding. -/
def flatPkr (x : Byte) : DsmPkr := ⟨0x75#8 :: List.replicate 128 0#8 ++ 0x12#8 :: List.replicate 33 x ++ List.replicate 6 0#8⟩

private theorem flatPkr_ok (x : Byte) (hb : bitField (flatPkr x).data 1036 4 = 2 ∧ bitField (flatPkr x).data 1032 4 = 1 ∧ 163 ≤ (flatPkr x).data.length ∧
    byteField (flatPkr x).data 130 33 = List.replicate 33 x ∧ ((List.replicate 33 x).any (fun x => x != 0#8)) = true ∧
    merklePathRoot flat (bitField (flatPkr x).data 4 4) (flat.sha256 (byteField (flatPkr x).data 129 34))
      [byteField (flatPkr x).data 1 32, byteField (flatPkr x).data 33 32, byteField (flatPkr x).data 65 32, byteField (flatPkr x).data 97 32]
        = (Bytes.zero 32).val) : Merkle.validatePkr flat (Bytes.zero 32) (flatPkr x) = .ok (.ok ⟨.P256 (List.replicate 33 x), 2⟩) := by
  obtain ⟨h1, h2, h3, h4, h5, h6⟩ := hb
  refine (C25_accepted_iff_proved (Bytes.zero 32) (flatPkr x) _).2 ⟨h1.symm, .inl ⟨h2, h3, h6, List.replicate 33 x, ?_, rfl⟩⟩
  rw [h4]
  show (if (List.replicate 33 x).length = 33 ∧ (List.replicate 33 x).any (fun x => x != 0#8) then some (List.replicate 33 x) else none) = _
  rw [if_pos ⟨List.length_replicate, h5⟩]
  rfl

/-- `C25_public_key_binding`, `C25_merkle_binding`: two public keys accepted at the same place of the tree. -/
example : ∃ (d₁ d₂ : DsmPkr) (pk₁ pk₂ : PublicKey flat), Merkle.validatePkr flat (Bytes.zero 32) d₁ = .ok (.ok pk₁) ∧
    Merkle.validatePkr flat (Bytes.zero 32) d₂ = .ok (.ok pk₂) ∧ d₁.messageId = d₂.messageId ∧ pk₁ ≠ pk₂ := by
  refine ⟨flatPkr 1#8, flatPkr 2#8, _, _, flatPkr_ok 1#8 (by decide +kernel), flatPkr_ok 2#8 (by decide +kernel), by decide +kernel, ?_⟩
  intro h
  have : VerifyingKey.P256 (C := flat) (List.replicate 33 1#8) = .P256 (List.replicate 33 2#8) := congrArg PublicKey.key h
  cases this

/-- `C51_pkr_fields_decoded`, `C51_pkr_padding_check`: a DSM-PKR of 13 blocks. -/
example : ∃ f : PkrFields, f.InRange ∧ icdPkrKeyBytes f.npkt f.nb = some f.key.length ∧ 7 ≤ f.nb ∧ f.nb ≤ 10 ∧ f.bytes.length = 13 * (f.nb + 6) ∧
    f.padding.length = 6 := by
  refine ⟨{ nb := 7, mid := 5, node0 := List.replicate 32 1#8, node1 := List.replicate 32 2#8, node2 := List.replicate 32 3#8, node3 := List.replicate 32 4#8, npkt := 1, npkid := 2, key := List.replicate 33 7#8, padding := List.replicate 6 0#8 }, ?_, ?_, ?_, ?_, ?_, ?_⟩
  · constructor <;> decide
  all_goals decide +kernel

/-- `C51_dsm_header_decoded`, `C51_nma_header_decoded`. -/
example : byteBits (DsmHeader.mk 0xd7#8).data = storeBe 4 13 ++ storeBe 4 7 ∧
    byteBits (NmaHeader.mk 0x52#8).data = storeBe 2 1 ++ storeBe 2 1 ++ storeBe 3 1 ++ [false] := ⟨by decide, by decide⟩

/-! ## DSM blocks -/

/-- The blocks of a DSM. -/
def dsmCalls (id : Nat) (dsm : List Byte) (order : List Nat) : List DsmCall :=
  order.map fun i => ⟨⟨BitVec.ofNat 8 (16 * id + i)⟩, fix 13 ((dsm.drop (13 * i)).take 13)⟩

/-- `C08_order_independent`, `C07_completed_dsm`: the DSM-KROOT in two orders, after blocks of another DSM. -/
example : ∃ (h₁ h₂ : List DsmCall) (p₁ p₂ : DsmCall) (d : Dsm), h₁ ≠ h₂ ∧ p₁ ≠ p₂ ∧
    (match feedBlocks .new h₁ with | .ok (c, _) => (match c.feed p₁.header p₁.block with | .ok (_, r) => r | _ => none) | _ => none) = some d ∧
    (match feedBlocks .new h₂ with | .ok (c, _) => (match c.feed p₂.header p₂.block with | .ok (_, r) => r | _ => none) | _ => none) = some d ∧
    d.data = kroot11 :=
  ⟨dsmCalls 13 pkr2 [0, 1] ++ dsmCalls 3 kroot11 [0, 1, 2, 3, 4, 5, 6], dsmCalls 3 kroot11 [7, 6, 5, 4, 4, 3, 2, 1],
    ⟨⟨0x37#8⟩, fix 13 (kroot11.drop 91)⟩, ⟨⟨0x30#8⟩, fix 13 (kroot11.take 13)⟩, ⟨3, .Kroot, kroot11⟩,
    by decide +kernel, by decide +kernel, by decide +kernel, by decide +kernel, rfl⟩

/-! ## Test vector files -/

/-- A page with a data word of type 63 and all the other bits zero. -/
def zeroPage : InavPage := ⟨false, false, List.replicate 6 true ++ List.replicate 106 false, List.replicate 6 false, true, false, List.replicate 16 false,
  List.replicate 40 true, List.replicate 22 false, List.replicate 2 false, List.replicate 24 false, List.replicate 8 false, List.replicate 6 false,
  by decide, by decide, by decide, by decide, by decide, by decide, by decide, by decide, by decide⟩

/-- `C46_convert`, `C46_end_to_end`, `C46_runs`: a file with two satellites, with one and two pages. -/
example : ∃ csv, VectorFile [⟨sv 7, [zeroPage]⟩, ⟨sv 12, [zeroPage, zeroPage]⟩] csv ∧
    ∃ start : Gst, (start.abs : Int) = 1692162001 - 935280000 ∧ 7650 ≤ start.abs ∧
      ∀ v ∈ [(⟨sv 7, [zeroPage]⟩ : VectorLine), ⟨sv 12, [zeroPage, zeroPage]⟩], start.abs + 2 * v.pages.length < 65536 * 604800 := by
  let text (v : VectorLine) : List Nat := (dec v.svn.val).map (·.toNat) ++ [44] ++ [50, 52, 48] ++ [44] ++
    (hexText (packBytes (v.pages.flatMap InavPage.bits))).map (·.toNat)
  have ht : ∀ v : VectorLine, bitsOf (packBytes (v.pages.flatMap InavPage.bits)) = v.pages.flatMap InavPage.bits →
      (hexText (packBytes (v.pages.flatMap InavPage.bits))).map (fun b => lowerHex b.toNat) =
        (hexText (packBytes (v.pages.flatMap InavPage.bits))).map (·.toNat) → v.Text (text v) := by
    intro v h1 h2
    exact ⟨[50, 52, 48], _, _, by decide, h1, by rw [List.map_map]; exact h2, rfl⟩
  refine ⟨_, ⟨[83, 86], [text ⟨sv 7, [zeroPage]⟩, text ⟨sv 12, [zeroPage, zeroPage]⟩], [13, 10], by decide, .inr rfl, rfl, ?_, rfl⟩,
    ⟨1251, 277201, by decide, by decide⟩, by decide +kernel, by decide +kernel, by decide +kernel⟩
  intro x hx
  simp only [List.zip_cons_cons, List.zip_nil_left, List.mem_cons, List.not_mem_nil, or_false] at hx
  rcases hx with rfl | rfl
  · exact ht _ (by decide +kernel) (by decide +kernel)
  · exact ht _ (by decide +kernel) (by decide +kernel)

end Verif.Sim
