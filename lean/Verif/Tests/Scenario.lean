import Verif.Model.Log
import Verif.Spec.TeslaSpec
import Verif.Spec.KrootSpec
import Verif.Spec.MackLayout
import Verif.Spec.MacltSpec
import Verif.Spec.NavSpec

/-! # A simulated transmitter, for concrete cases

Messages are built from the specification layouts (`KrootFields.bits`, `MackFields.bits`, `tagMessage`,
`owfMessage`, …), not with the functions of the receiver, and fed to the model of the receiver.  Used by
the examples beside the theorems, and for the counterexamples.  Evaluated by the kernel. -/

namespace Verif.Sim

/-- A weak but non-constant "hash": 32 copies of a non-zero byte computed from all the bytes. -/
def toyHash (m : List Byte) : List Byte :=
  List.replicate 32 (BitVec.ofNat 8 (1 + m.foldl (fun a b => (a * 31 + b.toNat + 7) % 251) 0))

/-- The cryptographic primitives of the simulation.  A P-256 public key is its 33 bytes; a signature is
valid if its first 32 bytes are the hash of key and message. -/
def toy : Crypto where
  sha256 := toyHash
  sha256_len := fun _ => List.length_replicate
  sha3_256 := fun m => toyHash (3#8 :: m)
  sha3_256_len := fun _ => List.length_replicate
  hmac := fun k m => toyHash (k ++ m)
  hmac_len := fun _ _ => List.length_replicate
  cmac := fun k m => (toyHash (k ++ m)).take 16
  cmac_len := fun _ _ => by simp [toyHash]
  P256Key := List Byte
  P521Key := List Byte
  p256FromSec1 := fun b => if b.length = 33 ∧ b.any (fun x => x != 0#8) then some b else none
  p521FromSec1 := fun b => if b.length = 67 ∧ b.any (fun x => x != 0#8) then some b else none
  p256SigOk := fun s => s.any (fun x => x != 0#8)
  p521SigOk := fun s => s.any (fun x => x != 0#8)
  p256Verify := fun k m s => toyHash (k ++ m) == s.take 32
  p521Verify := fun _ _ _ => false
  p521 := true

/-- A storage of two satellites, thirteen subframes of navigation data and twelve of MACK. -/
def S : Storage := ⟨2, 13, 26, 12, 24⟩

theorem S_consistent : S.Consistent := ⟨by decide, by decide, by decide, by decide, by decide⟩

/-- Satellite number, clipped to the valid range. -/
def sv (n : Nat) : Svn := if h : 1 ≤ n ∧ n ≤ 36 then ⟨n, h.1, h.2⟩ else default

/-- Time in week 1200. -/
def gst (tow : Nat) : Gst := if h : tow < 604800 then ⟨1200, tow, by decide, h⟩ else ⟨1200, 0, by decide, by decide⟩

/-- Bytes of a given length. -/
def fix (n : Nat) (l : List Byte) : Bytes n :=
  if h : l.length = n then ⟨l, h⟩ else Bytes.zero n

/-- Public key `i`: 33 bytes. -/
def pub (i : Nat) : PublicKey toy := ⟨.P256 (List.replicate 33 (BitVec.ofNat 8 (100 + i))), i⟩

/-- The bytes of public key `i`. -/
def pubBytes (i : Nat) : List Byte := List.replicate 33 (BitVec.ofNat 8 (100 + i))

/-- Chain parameters of the simulation: SHA-256, HMAC, 16-byte keys, 40-bit tags, table 33. -/
def chain (id : Nat) (h : id < 4 := by decide) : Chain where
  id := id
  hashFunction := .Sha256
  macFunction := .HmacSha256
  keySizeBytes := 16
  tagSizeBits := 40
  maclt := 33
  alpha := 0x112233445566
  hid := h
  hks := by decide
  hts := by decide
  hmaclt := by decide
  halpha := by decide

/-! ## TESLA keys -/

/-- The key bytes of the subframe `n` steps before the subframe `tow` whose key bytes are `k`. -/
def back (c : Chain) : Nat → Nat → List Byte → List Byte
  | 0, _, k => k
  | n + 1, tow, k => back c n (tow - 30) ((chainHash toy c (owfMessage c k (gst (tow - 30)))).take 16)

/-- Time of week of the last key of the simulated chains. -/
def lastTow : Nat := 36600

/-- Key of the chain for the subframe that starts at `tow`. -/
def keyBytes (c : Chain) (tow : Nat) : List Byte :=
  back c ((lastTow - tow) / 30) lastTow (List.replicate 16 (BitVec.ofNat 8 (0xa0 + c.id)))

def key (c : Chain) (tow : Nat) : Key := ⟨fix 32 (keyBytes c tow ++ List.replicate 16 0#8), c, gst tow⟩

/-! ## Navigation data -/

/-- An I/NAV word of the given type, filled with a byte. -/
def word (ty fill : Nat) : InavWord :=
  fix 16 (packBytes (storeBe 6 ty ++ (bitsOf (List.replicate 16 (BitVec.ofNat 8 fill))).drop 6))

/-- The words of one subframe for a satellite, on E1B, from which all the navigation data can be read. -/
def navCalls (svn fill tow : Nat) : List Call :=
  [1, 2, 3, 4, 5, 6, 10].map (fun ty => .inav (word ty fill) (sv svn) (gst tow) .E1B)

/-- The navigation data of a satellite sending these words. -/
def navData (kd : NavKind) (svn fill : Nat) : List Bool :=
  kd.expected (inavsOf (navCalls svn fill 0)) (sv svn)

/-! ## MACK -/

/-- A slot of the MAC look-up table with the tag-info to send in it: PRND, ADKD and COP. -/
def tagInfoFor (self other : Nat) : Slot → Nat × Nat
  | .S00 => (self, 0)
  | .E00 => (other, 0)
  | .S04 => (self, 4)
  | .S12 => (self, 12)
  | .E12 => (other, 12)
  | .FLX => (self, 0)

/-- The tag number `j` sent by `prna` in the subframe `tow`. -/
def tagFor (c : Chain) (prna tow st j prnd adkd fill : Nat) : List Bool :=
  let k := key c (if adkd = 12 then tow + 330 else tow + 30)
  let st' := if st = 1 then NmaStatus.Test else if st = 2 then .Operational else if st = 3 then .DontUse else .Reserved
  (macBits toy k (tagMessage (j + 1) prnd (sv prna) (gst tow) st'
    (navData (if adkd = 4 then .timing else .ced) prnd fill))).take 40

/-- The MACK message sent by `prna` in the subframe `tow`: the navigation data of all the satellites is
filled with `fill`; `other` is the satellite that is cross-authenticated. -/
def mackBits (c : Chain) (prna other tow st fill cop : Nat) : List Bool :=
  let slots := (icdSlots c.maclt (minuteHalf (gst tow))).getD []
  let tags := (List.range slots.length).map (fun j =>
    let (p, a) := tagInfoFor prna other (slots.getD j .S00)
    (⟨tagFor c prna tow st j p a fill, p, a, cop⟩ : TagFields))
  let seq := loadBe ((macBits toy (key c (tow + 30))
    (packBytes (storeBe 8 prna ++ storeBe 12 1200 ++ storeBe 20 tow))).take 12)
  let f : MackFields := ⟨tagFor c prna tow st 0 prna 0 fill, seq, cop, tags.drop 1, bitsOf (keyBytes c tow), List.replicate 16 true⟩
  f.bits

/-! ## HKROOT -/

/-- NMA header: status, chain in force, CPKS. -/
def nmaByte (st cid cpks : Nat) : Byte := BitVec.ofNat 8 (st * 64 + cid * 16 + cpks * 2)

/-- A DSM-KROOT of 8 blocks signed by public key `pk`, for the chain `c`, with root key time `towh`. -/
def krootBytes (c : Chain) (hdr : Byte) (pkid towh : Nat) : List Byte :=
  let f : KrootFields := {
    nb := 2, pkid := pkid, cidkr := c.id, rsvd1 := 0, hf := 0, mf := 0, ks := 4, ts := 9, maclt := c.maclt,
    rsvd2 := 0, wn := 1200, towh := towh, alpha := c.alpha, kroot := keyBytes c (towh * 3600 - 30),
    signature := [], padding := [] }
  let body := packBytes f.bits
  let msg := hdr :: body.drop 1
  let sig := toyHash (pubBytes pkid ++ msg) ++ List.replicate 32 5#8
  body ++ sig ++ (toyHash (msg ++ sig)).take 11

/-- The 15 calls that deliver a subframe of satellite `prna`: the HKROOT bytes and the MACK bits. -/
def pages (prna tow : Nat) (hkroot : List Byte) (mack : List Bool) : List Call :=
  let mk := packBytes mack
  (List.range 15).map (fun i =>
    .osnma (fix 5 (hkroot.getD i 0#8 :: (mk.drop (4 * i)).take 4)) (sv prna) (gst (tow + 2 * i)))

/-- A subframe with block `b` of the DSM `dsm` with id `id`. -/
def subframe (c : Chain) (prna other tow st fill : Nat) (hdr : Byte) (id b : Nat) (dsm : List Byte) : List Call :=
  pages prna tow (hdr :: BitVec.ofNat 8 (id * 16 + b) :: (dsm.drop (13 * b)).take 13)
    (mackBits c prna other tow st fill 1)

/-! ## Running -/

/-- Runs the calls and collects the acceptance messages. -/
def runLog {C : Crypto} (S : Storage) : Osnma C → List Call → Res (List (KeyEvent C) × Osnma C)
  | o, [] => .ok ([], o)
  | o, c :: cs =>
    match c.run S o with
    | .panic w => .panic w
    | .ok o' =>
      match runLog S o' cs with
      | .panic w => .panic w
      | .ok (l, o'') => .ok (o.events S c ++ l, o'')

/-- Summary of a message. -/
def code {C : Crypto} : KeyEvent C → List Nat
  | .kroot h _ pk k g => [0, h.data.toNat, pk.pkid, k.chain.id, g.tow]
  | .pkr _ pk => [1, pk.pkid]
  | .alert _ => [2]
  | .tesla k => [3, k.chain.id, k.gst.tow]

/-- Authentication bits and time reported by a getter. -/
def got {C : Crypto} (S : Storage) (o : Osnma C) (kd : NavKind) (svn : Nat) : Option (Nat × Nat) :=
  match o.get S kd (sv svn) with
  | .ok (some d) => some (d.authbits, d.gst.tow)
  | _ => none

/-! ## DSM-PKR -/

/-- The leaves of the Merkle tree: public key `i` at leaf `i`, and an alert message at leaf 0. -/
def leaf (i : Nat) : List Byte :=
  if i = 0 then packBytes (storeBe 4 4 ++ storeBe 4 0) ++ List.replicate 39 7#8
  else packBytes (storeBe 4 1 ++ storeBe 4 i) ++ pubBytes i

/-- The root of the Merkle tree, computed beforehand (`root_eq` in `Tests/Dsms.lean`). -/
def rootBytes : List Byte :=
  [219, 219, 219, 219, 219, 219, 219, 219, 219, 219, 219, 219, 219, 219, 219, 219, 219, 219, 219, 219, 219, 
    219, 219, 219, 219, 219, 219, 219, 219, 219, 219, 219].map (BitVec.ofNat 8)

/-- The root of the Merkle tree. -/
def root : MerkleTreeNode := fix 32 rootBytes

/-- The DSM-PKR of 13 blocks for leaf `i`, with a given NB field. -/
def pkrBytes (i : Nat) (nb : Nat := 7) : List Byte :=
  let body := packBytes (storeBe 4 nb ++ storeBe 4 i) ++ merkleSibling toy leaf i 0 ++ merkleSibling toy leaf i 1
    ++ merkleSibling toy leaf i 2 ++ merkleSibling toy leaf i 3 ++ leaf i
  body ++ (toyHash (root.val ++ leaf i)).take (169 - body.length)

/-- A subframe with a DSM block and a meaningless MACK. -/
def dsmSubframe (prna tow : Nat) (hdr : Byte) (id b : Nat) (dsm : List Byte) : List Call :=
  pages prna tow (hdr :: BitVec.ofNat 8 (id * 16 + b) :: (dsm.drop (13 * b)).take 13) (List.replicate 480 true)

/-! ## Scenarios -/

/-- NMA header: test, chain 1, nominal. -/
def hdr1 : Byte := nmaByte 1 1 1

/-! ## Malformed DSMs, made without any secret -/

/-- A DSM-KROOT of 7 blocks (NB = 1) that announces 32-byte keys (KS = 8): too short for any signature. -/
def shortKroot : List Byte :=
  let f : KrootFields := {
    nb := 1, pkid := 1, cidkr := 1, rsvd1 := 0, hf := 0, mf := 0, ks := 8, ts := 9, maclt := 33,
    rsvd2 := 0, wn := 1200, towh := 10, alpha := 0, kroot := List.replicate 32 0#8, signature := List.replicate 46 0#8,
    padding := [] }
  packBytes f.bits

/-- A DSM-KROOT of 8 blocks whose signature is 64 zero bytes (not a P-256 signature), with the right
padding for the header `hdr`. -/
def zeroSigKroot (hdr : Byte) : List Byte :=
  let f : KrootFields := {
    nb := 2, pkid := 1, cidkr := 1, rsvd1 := 0, hf := 0, mf := 0, ks := 4, ts := 9, maclt := 33,
    rsvd2 := 0, wn := 1200, towh := 10, alpha := 0, kroot := List.replicate 16 0#8, signature := [], padding := [] }
  let body := packBytes f.bits
  let sig := List.replicate 64 0#8
  body ++ sig ++ (toyHash ((hdr :: body.drop 1) ++ sig)).take 11

/-- A DSM-PKR of 13 blocks (NB = 7) that announces a P-521 key (NPKT = 3), which needs 16 blocks. -/
def shortPkr : List Byte :=
  packBytes (storeBe 4 7 ++ storeBe 4 2) ++ List.replicate 128 0#8 ++ packBytes (storeBe 4 3 ++ storeBe 4 2) ++
    List.replicate 39 1#8

/-- Consecutive subframes from `tow` that send the first `n` blocks of a DSM, with header `hdr` and
meaningless MACKs. -/
def sendDsm (hdr : Byte) (id n tow : Nat) (dsm : List Byte) : List Call :=
  (List.range n).flatMap (fun b => dsmSubframe 1 (tow + 30 * b) hdr id b dsm)

/-- `n` subframes from `T0 = 36000` in which satellite 1 sends navigation data, MACKs of chain 1, and
repeatedly the blocks of a DSM-KROOT. -/
def nominalWith (ds : List Byte) (n : Nat) : List Call :=
  (List.range n).flatMap (fun i =>
    navCalls 1 0x35 (36000 + 30 * i) ++ subframe (chain 1) 1 2 (36000 + 30 * i) 1 0x35 hdr1 3 (i % 8) ds)

/-- The run panics in its last call. -/
def panicsAtLast {C : Crypto} (S : Storage) (o0 : Osnma C) (h : List Call) : Bool :=
  match run S o0 h.dropLast, h.getLast? with
  | .ok o, some c => match c.run S o with
    | .panic _ => true
    | .ok _ => false
  | _, _ => false

end Verif.Sim
