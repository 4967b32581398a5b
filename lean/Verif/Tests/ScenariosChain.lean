import Verif.Tests.ScenariosKeys

/-! # Runs of the simulated transmitter: change of chain, and a long gap -/

namespace Verif.Sim

/-- NMA header: test, chain 2 in force, nominal. -/
def hdr2 : Byte := nmaByte 1 2 1

/-- The key of the subframe 144000 (40 h) of chain 1. -/
def lateKey : List Byte := List.replicate 16 0x77#8

/-- The root key derived from it, 30 s before. -/
def lateRoot : List Byte := (chainHash toy (chain 1) (owfMessage (chain 1) lateKey (gst 143970))).take 16

/-- Signs a DSM-KROOT and pads it to 8 blocks. -/
def signKroot (hdr : Byte) (pkid : Nat) (f : KrootFields) : List Byte :=
  let body := packBytes f.bits
  let msg := hdr :: body.drop 1
  let sig := toyHash (pubBytes pkid ++ msg) ++ List.replicate 32 5#8
  body ++ sig ++ (toyHash (msg ++ sig)).take 11

/-- The DSM-KROOT with the root key of 40 h. -/
def lateKrootBytes : List Byte := signKroot hdr1 1 {
    nb := 2, pkid := 1, cidkr := 1, rsvd1 := 0, hf := 0, mf := 0, ks := 4, ts := 9, maclt := 33,
    rsvd2 := 0, wn := 1200, towh := 40, alpha := 0x112233445566, kroot := lateRoot,
    signature := [], padding := [] }

/-- DSM-KROOT of chain 2 signed with key 1 under a header that puts chain 2 in force. -/
def kroot21cid2 : List Byte :=
  [33, 128, 73, 33, 4, 176, 10, 17, 34, 51, 68, 85, 102, 43, 43, 43, 43, 43, 43, 43, 43, 43, 43, 43, 43, 43, 
    43, 43, 43, 80, 80, 80, 80, 80, 80, 80, 80, 80, 80, 80, 80, 80, 80, 80, 80, 80, 80, 80, 80, 80, 80, 80, 80, 
    80, 80, 80, 80, 80, 80, 80, 80, 5, 5, 5, 5, 5, 5, 5, 5, 5, 5, 5, 5, 5, 5, 5, 5, 5, 5, 5, 5, 5, 5, 5, 5, 5, 5, 
    5, 5, 5, 5, 5, 5, 86, 86, 86, 86, 86, 86, 86, 86, 86, 86, 86].map (BitVec.ofNat 8)

/-- DSM-KROOT of chain 1 with the root key of 40 h. -/
def lateKroot : List Byte :=
  [33, 64, 73, 33, 4, 176, 40, 17, 34, 51, 68, 85, 102, 91, 91, 91, 91, 91, 91, 91, 91, 91, 91, 91, 91, 91, 
    91, 91, 91, 97, 97, 97, 97, 97, 97, 97, 97, 97, 97, 97, 97, 97, 97, 97, 97, 97, 97, 97, 97, 97, 97, 97, 97, 
    97, 97, 97, 97, 97, 97, 97, 97, 5, 5, 5, 5, 5, 5, 5, 5, 5, 5, 5, 5, 5, 5, 5, 5, 5, 5, 5, 5, 5, 5, 5, 5, 5, 5, 
    5, 5, 5, 5, 5, 5, 12, 12, 12, 12, 12, 12, 12, 12, 12, 12, 12].map (BitVec.ofNat 8)

theorem kroot21cid2_eq : kroot21cid2 = krootBytes (chain 2) hdr2 1 10 := by decide +kernel
theorem lateKroot_eq : lateKroot = lateKrootBytes := by decide +kernel

/-! ## Change of chain -/

/-- The MACK message sent by `prna` in the subframe `tow` when its MACSEQ is made with a key of chain `c` but
the Slow MAC key is of chain `c'` (a change of chain in between). -/
def mackBits2 (c c' : Chain) (prna other tow st fill cop : Nat) : List Bool :=
  let slots := (icdSlots c.maclt (minuteHalf (gst tow))).getD []
  let tags := (List.range slots.length).map (fun j =>
    let (p, a) := tagInfoFor prna other (slots.getD j .S00)
    (⟨tagFor (if a = 12 then c' else c) prna tow st j p a fill, p, a, cop⟩ : TagFields))
  let seq := loadBe ((macBits toy (key c (tow + 30))
    (packBytes (storeBe 8 prna ++ storeBe 12 1200 ++ storeBe 20 tow))).take 12)
  let f : MackFields := ⟨tagFor c prna tow st 0 prna 0 fill, seq, cop, tags.drop 1, bitsOf (keyBytes c tow), List.replicate 16 true⟩
  f.bits

/-- HKROOT message: header, DSM id and block. -/
def hkroot (hdr : Byte) (id b : Nat) (dsm : List Byte) : List Byte :=
  hdr :: BitVec.ofNat 8 (id * 16 + b) :: (dsm.drop (13 * b)).take 13

/-- Chain 1 is in force until 36000, then chain 2.  Satellite 1 sends navigation data at 35910, a MACK at 35940
whose MACSEQ is made with the key of chain 1 of 35970 and whose Slow MAC tag with the key of chain 2 of
36270, and this key at 36270.  In between, the DSM-KROOT of chain 2 may be sent a second time. -/
def changeChain (resend : Bool) : List Call :=
  sendDsm hdr1 3 8 35550 kroot11 ++ sendDsm hdr2 4 4 35790 kroot21cid2 ++ navCalls 1 0x35 35910 ++
  dsmSubframe 1 35910 hdr2 4 4 kroot21cid2 ++
  pages 1 35940 (hkroot hdr2 4 5 kroot21cid2) (mackBits2 (chain 1) (chain 2) 1 2 35940 1 0x35 1) ++
  dsmSubframe 1 35970 hdr2 4 6 kroot21cid2 ++ dsmSubframe 1 36000 hdr2 4 7 kroot21cid2 ++
  (if resend then
    (List.range 8).flatMap (fun b => pages 1 (36030 + 30 * b) (hkroot hdr2 5 b kroot21cid2) (List.replicate 480 false))
   else []) ++
  pages 1 36270 (hkroot hdr2 4 5 kroot21cid2) (mackBits (chain 2) 1 2 36270 1 0x35 1)

/-- With one KROOT of the new chain the Slow MAC tag authenticates the data … -/
theorem changeChain_once : outcome slowOnly (changeChain false) =
    some ([[0, 82, 1, 1, 35760], [0, 98, 1, 2, 36000], [3, 2, 36270]], some (40, 35910), none) := by decide +kernel

/-- … but not after a second KROOT of the new chain. -/
theorem changeChain_twice : outcome slowOnly (changeChain true) =
    some ([[0, 82, 1, 1, 35760], [0, 98, 1, 2, 36000], [0, 98, 1, 2, 36240], [3, 2, 36270]], none, none) := by
  decide +kernel

/-! ## Long gap -/

/-- A MACK message with dummy tags and a key. -/
def keyMack (k : List Byte) : List Bool :=
  MackFields.bits ⟨List.replicate 40 false, 0, 0, List.replicate 5 ⟨List.replicate 40 false, 0, 0, 0⟩, bitsOf k, List.replicate 16 true⟩

/-- The fresh KROOT, completed at 143940, and the next key at 144000. -/
def lateCalls : List Call :=
  sendDsm hdr1 5 8 143730 lateKroot ++ pages 1 144000 (hkroot hdr1 5 0 lateKroot) (keyMack lateKey)

/-- A new receiver accepts the key. -/
theorem late_new : outcome withKey lateCalls = some ([[0, 82, 1, 1, 143940], [3, 1, 144000]], none, none) := by
  decide +kernel

/-- A receiver that was in use 30 hours before does not, although it verifies the fresh KROOT. -/
theorem late_gap : outcome withKey (nominal 8 ++ lateCalls) =
    some ([[0, 82, 1, 1, 36210], [3, 1, 36210], [0, 82, 1, 1, 143940]], some (40, 36210), some (40, 36210)) := by
  decide +kernel

end Verif.Sim
