import Verif.Prelude.Bits

/-! # `galileo-osnma/src/gst.rs` -/

namespace Verif

/-- Range check of a value computed in `i32` arithmetic (overflow panics). -/
def i32 (x : Int) : Res Int :=
  if -2147483648 ≤ x ∧ x ≤ 2147483647 then .ok x else .panic "attempt to overflow i32"

/-- `Gst` (`gst.rs:23-27`).  The fields are private; `wn` is a `u16` and every constructor
(`Gst::new` l.36, `add_seconds` l.67, `gst_subframe` l.122) guarantees `tow < 604800`, so both
bounds are part of the type. -/
structure Gst where
  wn : Nat
  tow : Nat
  hwn : wn < 65536
  htow : tow < 604800
  deriving DecidableEq

namespace Gst

instance : Inhabited Gst := ⟨⟨0, 0, by omega, by omega⟩⟩

instance : Repr Gst := ⟨fun g _ => "Gst(" ++ repr g.wn ++ ", " ++ repr g.tow ++ ")"⟩

/-- `Gst::new` (`gst.rs:36-39`).  Arguments beyond the `u16` range cannot be passed in Rust. -/
def new (wn tow : Nat) (hwn : wn < 65536) : Res Gst :=
  if h : tow < 604800 then .ok ⟨wn, tow, hwn, h⟩ else .panic "tow < SECS_IN_WEEK"

/-- Builds a `Gst` from week number and (signed) time of week, both still to be range checked. -/
def ofParts (wn : Int) (tow : Int) : Res Gst :=
  if h : (0 ≤ wn ∧ wn < 65536) ∧ (0 ≤ tow ∧ tow < 604800) then
    .ok ⟨wn.toNat, tow.toNat, by omega, by omega⟩
  else .panic "GST out of range"

/-- `Gst::add_seconds` (`gst.rs:67-85`).  `seconds` is an `i32`.  `u16::try_from(weeks).unwrap()`
(l.72) panics on negative `weeks`; the additions and subtractions on the `u16` week number
(l.72, 74, 77) panic on overflow; the final assertion is l.80. -/
def addSeconds (g : Gst) (seconds : Int) : Res Gst :=
  let weeks := seconds.tdiv 604800
  let secs := seconds - weeks * 604800
  let tow : Int := g.tow + secs
  if 0 ≤ weeks ∧ weeks ≤ 65535 then
    let wn : Int := g.wn + weeks
    if wn ≤ 65535 then
      if tow < 0 then ofParts (wn - 1) (tow + 604800)
      else if tow ≥ 604800 then ofParts (wn + 1) (tow - 604800)
      else ofParts wn tow
    else .panic "attempt to add with overflow"
  else .panic "u16::try_from(weeks).unwrap()"

/-- `Gst::add_subframes` (`gst.rs:103-105`), `i32` multiplication by 30. -/
def addSubframes (g : Gst) (n : Int) : Res Gst := do
  let s ← i32 (n * 30)
  g.addSeconds s

/-- `Gst::gst_subframe` (`gst.rs:122-127`). -/
def subframe (g : Gst) : Gst :=
  ⟨g.wn, g.tow / 30 * 30, g.hwn, by have := g.htow; omega⟩

/-- `Gst::is_subframe` (`gst.rs:140-142`). -/
def isSubframe (g : Gst) : Bool := g.tow % 30 == 0

/-- `Gst::subframes_difference` (`gst.rs:148-154`), all in `i32` with truncating division. -/
def subframesDifference (g other : Gst) : Res Int := do
  let dw ← i32 ((g.wn : Int) - other.wn)
  let a ← i32 (dw * 20160)
  let dt ← i32 ((g.tow : Int) - other.tow)
  i32 (a + dt.tdiv 30)

/-- `derive(Ord)` on `Gst` (`gst.rs:23`): lexicographic on `(wn, tow)`. -/
def cmp (a b : Gst) : Ordering :=
  match compare a.wn b.wn with
  | .eq => compare a.tow b.tow
  | o => o

/-- `a < b` by the derived order. -/
def ltb (a b : Gst) : Bool := cmp a b == .lt

end Gst
end Verif
