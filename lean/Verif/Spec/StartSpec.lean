import Verif.Model.Startup
import Verif.Spec.LineGrammar
import Verif.Spec.Authentic

/-! # Specification: what the user trusts

The Merkle tree root and the public key that the arguments and files of the user mean. -/

namespace Verif
variable {C : Crypto}

/-- The Merkle tree root given: 32 bytes in hexadecimal. -/
def RootGiven (a : Args) (root0 : Option MerkleTreeNode) : Prop :=
  match a.merkleRoot with
  | none => root0 = none
  | some text => ∃ r, root0 = some r ∧ HexOf text r.val

/-- The public key given: none; a P-256 key in a file; or a P-521 key in hexadecimal.  A key comes with its identifier. -/
def KeyGiven (pem : List Char → Option C.P256Key) (a : Args) (pk0 : Option (PublicKey C)) : Prop :=
  match a.pubkey, a.pubkeyP521, a.pkid with
  | none, none, none => pk0 = none
  | some path, none, some id => ∃ k, pem path = some k ∧ pk0 = some ⟨.P256 k, id.val⟩
  | none, some text, some id => ∃ b k, HexOf text b ∧ C.p521FromSec1 b = some k ∧ pk0 = some ⟨.P521 k, id.val⟩
  | _, _, _ => False

/-- `t` is `s` without the white space at both ends. -/
def TrimmedTo (s t : List Char) : Prop :=
  ∃ a b, s = a ++ t ++ b ∧ (∀ c ∈ a, White c) ∧ (∀ c ∈ b, White c) ∧ (∀ c, t.head? = some c → ¬ White c) ∧
    (∀ c, t.getLast? = some c → ¬ White c)

end Verif
