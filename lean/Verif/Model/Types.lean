import Verif.Model.Gst
import Verif.Model.Svn

/-! # `types.rs`, `storage.rs`, and the cryptographic primitives used by the crate -/

namespace Verif

/-- `OsnmaDataMessage` (`types.rs:28`). -/
abbrev OsnmaDataMessage := Bytes 5
/-- `HkrootMessage` (`types.rs:39`). -/
abbrev HkrootMessage := Bytes 15
/-- `MackMessage` (`types.rs:44`). -/
abbrev MackMessage := Bytes 60
/-- `DsmBlock` (`types.rs:53`). -/
abbrev DsmBlock := Bytes 13
/-- `MerkleTreeNode` (`types.rs:58`). -/
abbrev MerkleTreeNode := Bytes 32
/-- `InavWord` (`types.rs:78`). -/
abbrev InavWord := Bytes 16

/-- `InavBand` (`types.rs:92-98`). -/
inductive InavBand where
  | E1B
  | E5B
  deriving DecidableEq, Repr, Inhabited

/-- `StaticStorage` (`storage.rs:66-98`). -/
structure Storage where
  numSats : Nat
  navDepth : Nat
  navDepthSats : Nat
  mackDepth : Nat
  mackDepthSats : Nat
  deriving DecidableEq, Repr

/-- `FullStorage` (`storage.rs:108-114`). -/
def FullStorage : Storage := ⟨36, 13, 468, 12, 432⟩
/-- `SmallStorage` (`storage.rs:125-131`). -/
def SmallStorage : Storage := ⟨12, 3, 36, 2, 24⟩

/-- The consistency rules between sizes that the documentation of `StaticStorage` requires
(`storage.rs:63-65, 80-84, 94-96`), plus non-zero sizes. -/
structure Storage.Consistent (S : Storage) : Prop where
  sats_pos : 0 < S.numSats
  nav_pos : 0 < S.navDepth
  nav_prod : S.navDepthSats = S.navDepth * S.numSats
  mack_pos : 0 < S.mackDepth
  mack_prod : S.mackDepthSats = S.mackDepth * S.numSats

/-- The cryptographic primitives (crates `sha2`, `sha3`, `hmac`, `cmac`/`aes`, `p256`, `p521`).
They are arbitrary functions; only the output lengths are assumed.

* `sha256`, `sha3_256`, `hmac key msg`, `cmac key msg`: complete digest of a byte string
  (the incremental `update` calls of the code concatenate).
* `p256FromSec1`, `p521FromSec1`: `VerifyingKey::from_sec1_bytes(..).ok()`.
* `p256SigOk`, `p521SigOk`: `Signature::from_bytes(..).is_ok()`.
* `p256Verify key msg sig`: `VerifyingKey::verify(msg, sig).is_ok()`.
* `p521`: whether the Cargo feature `p521` is enabled. -/
structure Crypto where
  sha256 : List Byte → List Byte
  sha256_len : ∀ m, (sha256 m).length = 32
  sha3_256 : List Byte → List Byte
  sha3_256_len : ∀ m, (sha3_256 m).length = 32
  hmac : List Byte → List Byte → List Byte
  hmac_len : ∀ k m, (hmac k m).length = 32
  cmac : List Byte → List Byte → List Byte
  cmac_len : ∀ k m, (cmac k m).length = 16
  P256Key : Type
  P521Key : Type
  p256FromSec1 : List Byte → Option P256Key
  p521FromSec1 : List Byte → Option P521Key
  p256SigOk : List Byte → Bool
  p521SigOk : List Byte → Bool
  p256Verify : P256Key → List Byte → List Byte → Bool
  p521Verify : P521Key → List Byte → List Byte → Bool
  p521 : Bool

/-- `VerifyingKey` (`types.rs:104-110`).  Without the feature `p521` no `P521` value exists in
Rust; the model keeps the constructor and the functions never produce it in that case. -/
inductive VerifyingKey (C : Crypto) where
  | P256 (k : C.P256Key)
  | P521 (k : C.P521Key)

/-- `PublicKey<Validated>` (`merkle_tree.rs:182-187`). -/
structure PublicKey (C : Crypto) where
  key : VerifyingKey C
  pkid : Nat

end Verif
