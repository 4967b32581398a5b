import Verif.Model.Tesla
import Verif.Spec.Time

/-! # Specification: TESLA chains (ICD 3.2, 6.4) -/

namespace Verif

/-- The hash function of a chain. -/
def chainHash (C : Crypto) (c : Chain) (m : List Byte) : List Byte :=
  match c.hashFunction with
  | .Sha256 => C.sha256 m
  | .Sha3_256 => C.sha3_256 m

/-- The bytes hashed to obtain the previous key: key, GST of the previous key (12-bit week, 20-bit
time of week), the 48-bit alpha of the chain. -/
def owfMessage (c : Chain) (key : List Byte) (prev : Gst) : List Byte :=
  key ++ packBytes (storeBe 12 prev.wn ++ storeBe 20 prev.tow ++ storeBe 48 c.alpha)

/-- `Derives C c n (g, k) (g', k')`: `n` applications of the one-way function of the chain to the
key `k` of subframe `g` give the key `k'` of subframe `g'`; each goes back exactly 30 seconds. -/
inductive Derives (C : Crypto) (c : Chain) : Nat → Gst × List Byte → Gst × List Byte → Prop
  | zero (x : Gst × List Byte) : Derives C c 0 x x
  | succ (n : Nat) (g prev : Gst) (k : List Byte) (x : Gst × List Byte)
      (hprev : prev.abs = g.abs - 30)
      (h : Derives C c n (prev, (chainHash C c (owfMessage c k prev)).take c.keySizeBytes) x) :
      Derives C c (n + 1) (g, k) x

/-- The derivations of two keys of the same subframe meet: after the same number `j < n` of steps they
are at different keys `a₁ ≠ a₂` of one subframe, and the one-way function maps these to the same key.
The two colliding messages are thus given explicitly by the two keys. -/
def DerivationsCollide (C : Crypto) (c : Chain) (n : Nat) (g : Gst) (k₁ k₂ : List Byte) : Prop :=
  ∃ (j : Nat) (g' prev : Gst) (a₁ a₂ : List Byte), j < n ∧
    Derives C c j (g, k₁) (g', a₁) ∧ Derives C c j (g, k₂) (g', a₂) ∧ prev.abs = g'.abs - 30 ∧
    owfMessage c a₁ prev ≠ owfMessage c a₂ prev ∧
    (chainHash C c (owfMessage c a₁ prev)).take c.keySizeBytes
      = (chainHash C c (owfMessage c a₂ prev)).take c.keySizeBytes

end Verif
