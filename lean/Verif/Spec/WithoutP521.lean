import Verif.Model.Log

/-! # Specification: builds with and without the feature `p521`

The feature only decides whether ECDSA P-521 is supported.  The model has it as a part of the cryptographic functions, on which the types depend;
so keys, receivers and messages of one build are carried over to the other, unchanged. -/

namespace Verif
variable {C : Crypto}

/-- The same primitives, in a build without the feature `p521`. -/
def Crypto.without521 (C : Crypto) : Crypto := { C with p521 := false }

/-- The same key in the other build. -/
def VerifyingKey.low : VerifyingKey C → VerifyingKey C.without521
  | .P256 k => .P256 (show C.P256Key from k)
  | .P521 k => .P521 (show C.P521Key from k)

/-- The same public key in the other build. -/
def PublicKey.low (k : PublicKey C) : PublicKey C.without521 := ⟨k.key.low, k.pkid⟩

/-- The same message in the other build. -/
def KeyEvent.low : KeyEvent C → KeyEvent C.without521
  | .kroot h data pk key g => .kroot h data pk.low key g
  | .pkr data pk => .pkr data pk.low
  | .alert data => .alert data
  | .tesla k => .tesla k

/-- A P-256 key. -/
def PublicKey.IsP256 (k : PublicKey C) : Prop := ∃ v, k.key = .P256 v

end Verif
