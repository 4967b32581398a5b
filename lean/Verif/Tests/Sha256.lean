import Verif.Model.Types
import Verif.Prelude.BitsLemmas

/-! # An executable SHA-256 and HMAC-SHA-256

Used only in examples (non-vacuity) and to replay the unit-test vectors of the repository through the
model; no property theorem depends on it.  Words are natural numbers below `2^32`. -/

namespace Verif.Sha2

/-- Round constants. -/
def K : List Nat := [
  0x428a2f98,0x71374491,0xb5c0fbcf,0xe9b5dba5,0x3956c25b,0x59f111f1,0x923f82a4,0xab1c5ed5,
  0xd807aa98,0x12835b01,0x243185be,0x550c7dc3,0x72be5d74,0x80deb1fe,0x9bdc06a7,0xc19bf174,
  0xe49b69c1,0xefbe4786,0x0fc19dc6,0x240ca1cc,0x2de92c6f,0x4a7484aa,0x5cb0a9dc,0x76f988da,
  0x983e5152,0xa831c66d,0xb00327c8,0xbf597fc7,0xc6e00bf3,0xd5a79147,0x06ca6351,0x14292967,
  0x27b70a85,0x2e1b2138,0x4d2c6dfc,0x53380d13,0x650a7354,0x766a0abb,0x81c2c92e,0x92722c85,
  0xa2bfe8a1,0xa81a664b,0xc24b8b70,0xc76c51a3,0xd192e819,0xd6990624,0xf40e3585,0x106aa070,
  0x19a4c116,0x1e376c08,0x2748774c,0x34b0bcb5,0x391c0cb3,0x4ed8aa4a,0x5b9cca4f,0x682e6ff3,
  0x748f82ee,0x78a5636f,0x84c87814,0x8cc70208,0x90befffa,0xa4506ceb,0xbef9a3f7,0xc67178f2]

/-- State: eight words. -/
structure St where
  (a b c d e f g h : Nat)

/-- Initial state. -/
def iv : St := ⟨0x6a09e667, 0xbb67ae85, 0x3c6ef372, 0xa54ff53a, 0x510e527f, 0x9b05688c, 0x1f83d9ab, 0x5be0cd19⟩

def w32 (x : Nat) : Nat := x % 4294967296
/-- Rotation to the right. -/
def rotr (x n : Nat) : Nat := (x >>> n) ||| w32 (x <<< (32 - n))

/-- One round. -/
def round (s : St) (kw : Nat × Nat) : St :=
  let S1 := rotr s.e 6 ^^^ rotr s.e 11 ^^^ rotr s.e 25
  let ch := (s.e &&& s.f) ^^^ ((s.e ^^^ 0xffffffff) &&& s.g)
  let t1 := s.h + S1 + ch + kw.1 + kw.2
  let S0 := rotr s.a 2 ^^^ rotr s.a 13 ^^^ rotr s.a 22
  let maj := (s.a &&& s.b) ^^^ (s.a &&& s.c) ^^^ (s.b &&& s.c)
  let t2 := S0 + maj
  ⟨w32 (t1 + t2), s.a, s.b, s.c, w32 (s.d + t1), s.e, s.f, s.g⟩

/-- Extends the message schedule (kept in reverse order) by `n` words. -/
def extend : Nat → List Nat → List Nat
  | 0, w => w
  | n + 1, w =>
    let w2 := w.getD 1 0
    let w7 := w.getD 6 0
    let w15 := w.getD 14 0
    let w16 := w.getD 15 0
    let s0 := rotr w15 7 ^^^ rotr w15 18 ^^^ (w15 >>> 3)
    let s1 := rotr w2 17 ^^^ rotr w2 19 ^^^ (w2 >>> 10)
    extend n (w32 (w16 + s0 + w7 + s1) :: w)

/-- Big-endian words of a byte string. -/
def words : List Byte → List Nat
  | a :: b :: c :: d :: rest =>
    (((a.toNat * 256 + b.toNat) * 256 + c.toNat) * 256 + d.toNat) :: words rest
  | _ => []

/-- Compression of one block of 16 words. -/
def compress (s : St) (blk : List Nat) : St :=
  let w := (extend 48 blk.reverse).reverse
  let t := (K.zip w).foldl round s
  ⟨w32 (s.a + t.a), w32 (s.b + t.b), w32 (s.c + t.c), w32 (s.d + t.d),
    w32 (s.e + t.e), w32 (s.f + t.f), w32 (s.g + t.g), w32 (s.h + t.h)⟩

/-- Compression of `n` blocks. -/
def blocks : Nat → St → List Nat → St
  | 0, s, _ => s
  | n + 1, s, w => blocks n (compress s (w.take 16)) (w.drop 16)

/-- Padding. -/
def pad (m : List Byte) : List Byte :=
  m ++ [0x80#8] ++ List.replicate ((119 - m.length % 64) % 64) 0#8
    ++ (List.range 8).map (fun i => BitVec.ofNat 8 ((8 * m.length) >>> (8 * (7 - i))))

def be4 (x : Nat) : List Byte :=
  [BitVec.ofNat 8 (x >>> 24), BitVec.ofNat 8 (x >>> 16), BitVec.ofNat 8 (x >>> 8), BitVec.ofNat 8 x]

/-- SHA-256. -/
def sha256 (m : List Byte) : List Byte :=
  let p := pad m
  let s := blocks (p.length / 64) iv (words p)
  be4 s.a ++ be4 s.b ++ be4 s.c ++ be4 s.d ++ be4 s.e ++ be4 s.f ++ be4 s.g ++ be4 s.h

theorem sha256_length (m : List Byte) : (sha256 m).length = 32 := rfl

/-- HMAC-SHA-256 (keys of at most 64 bytes). -/
def hmac (key m : List Byte) : List Byte :=
  let k := key ++ List.replicate (64 - key.length) 0#8
  sha256 (k.map (· ^^^ 0x5c#8) ++ sha256 (k.map (· ^^^ 0x36#8) ++ m))

theorem hmac_length (k m : List Byte) : (hmac k m).length = 32 := rfl

/-- Bytes from a number, for writing test vectors as hexadecimal literals. -/
def hex (n v : Nat) : List Byte := (List.range n).map (fun i => BitVec.ofNat 8 (v >>> (8 * (n - 1 - i))))

/-- FIPS 180-4 example: SHA-256 of "abc". -/
example : sha256 [0x61#8, 0x62#8, 0x63#8] =
    hex 32 0xba7816bf8f01cfea414140de5dae2223b00361a396177a9cb410ff61f20015ad := by decide +kernel

/-- RFC 4231 test case 2. -/
example : hmac [0x4a#8, 0x65#8, 0x66#8, 0x65#8]
    ("what do ya want for nothing?".toList.map (fun c => BitVec.ofNat 8 c.toNat)) =
    hex 32 0x5bdcc146bf60754e6a042426089575c75a003f089d2739839dec58b964ec3843 := by decide +kernel

end Verif.Sha2

namespace Verif

/-- A `Crypto` for examples: real SHA-256 and HMAC-SHA-256; the other hash functions are replaced by
truncated or prefixed SHA-256, and public-key operations by a shared-secret stand-in (a signature of a
message is its HMAC, twice, under the 33-byte key). -/
def demoCrypto : Crypto where
  sha256 := Sha2.sha256
  sha256_len := Sha2.sha256_length
  sha3_256 := fun m => Sha2.sha256 (0x33#8 :: m)
  sha3_256_len := fun _ => Sha2.sha256_length _
  hmac := Sha2.hmac
  hmac_len := Sha2.hmac_length
  cmac := fun k m => (Sha2.hmac k m).take 16
  cmac_len := fun _ _ => rfl
  P256Key := List Byte
  P521Key := List Byte
  p256FromSec1 := fun k => if k.length = 33 then some k else none
  p521FromSec1 := fun k => if k.length = 67 then some k else none
  p256SigOk := fun s => s.any (fun b => b != 0#8)
  p521SigOk := fun s => s.any (fun b => b != 0#8)
  p256Verify := fun k m s => Sha2.hmac k m ++ Sha2.hmac k m == s
  p521Verify := fun _ _ _ => false
  p521 := false

end Verif
