import Verif.Prelude.Bits

/-! # `galileo-osnma/src/svn.rs` -/

namespace Verif

/-- `NUM_SVNS` (`types.rs:81`). -/
def NUM_SVNS : Nat := 36

/-- `Svn` (`svn.rs:25-26`): a private `NonZeroU8` which every constructor guarantees to be in
`1..=36`, so the bound is part of the type. -/
structure Svn where
  val : Nat
  h1 : 1 ≤ val
  h36 : val ≤ 36
  deriving DecidableEq

namespace Svn

instance : Inhabited Svn := ⟨⟨1, by omega, by omega⟩⟩

instance : Repr Svn := ⟨fun s _ => "E" ++ repr s.val⟩

/-- `Svn::try_from` (`svn.rs:49-62`), for any of the integer types. -/
def tryFrom (value : Int) : Option Svn :=
  if h : 1 ≤ value ∧ value ≤ 36 then some ⟨value.toNat, by omega, by omega⟩ else none

/-- `Svn::try_from(x).unwrap()` over `1..=NUM_SVNS` (`svn.rs:33-38`). -/
def iterRes : Res (List Svn) :=
  (List.range' 1 NUM_SVNS).foldr
    (fun (x : Nat) acc => do
      let s ← Res.unwrap (tryFrom x) "Svn::try_from(x).unwrap()"
      let rest ← acc
      pure (s :: rest)) (.ok [])

/-- `Svn::iter()` (`svn.rs:33-38`) as used in `for` loops; `iterRes_eq` in `Lemmas/Svn.lean`
shows that the `unwrap` inside never panics and that this is the sequence it yields. -/
def iter : List Svn := (List.range' 1 NUM_SVNS).filterMap (fun (x : Nat) => tryFrom x)

/-- Index of a satellite in per-satellite arrays (`usize::from(svn) - 1`, `subframe.rs:81`). -/
def idx (s : Svn) : Nat := s.val - 1

/-- `u8::from(svn)` (`svn.rs:43-47`). -/
def toByte (s : Svn) : Byte := BitVec.ofNat 8 s.val

end Svn
end Verif
