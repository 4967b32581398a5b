import Verif.Model.TestVectors

/-! # The time in the name of a test vector file (`osnma-test-vectors-to-galmon.rs:26-35`)

`NaiveDateTime::parse_from_str` and `timestamp` of `chrono` are not in the repository.  They are modelled for names of the very form of the format string,
with two digits for the day, hours, minutes and seconds and four for the year; `chrono` also accepts fewer digits, signs and white space, which are not
modelled. -/

namespace Verif

/-- The value of digits. -/
def digitsOf (l : List Nat) : Option Nat :=
  l.foldl (fun acc c => acc.bind fun n => if 48 ≤ c ∧ c ≤ 57 then some (10 * n + (c - 48)) else none) (some 0)

/-- ASCII lower case. -/
def lowerAscii (c : Nat) : Nat := if 65 ≤ c ∧ c ≤ 90 then c + 32 else c

/-- `%b`: the names of the months in English, in upper or lower case. -/
def monthNames : List (List Nat) :=
  ["jan", "feb", "mar", "apr", "may", "jun", "jul", "aug", "sep", "oct", "nov", "dec"].map fun s => s.toList.map Char.toNat

/-- Days in a month of the Gregorian calendar. -/
def monthDays (y m : Nat) : Nat :=
  if m = 2 then (if y % 4 = 0 ∧ (y % 100 ≠ 0 ∨ y % 400 = 0) then 29 else 28) else if m = 4 ∨ m = 6 ∨ m = 9 ∨ m = 11 then 30 else 31

/-- Days before the first of the month in a year that is not a leap year. -/
def daysBeforeMonth : List Nat := [0, 31, 59, 90, 120, 151, 181, 212, 243, 273, 304, 334]

/-- `dt.and_utc().timestamp()`: seconds since 1970-01-01, for a year from 1 on. -/
def unixTime (y m d h mi s : Nat) : Int :=
  let before := 365 * (y - 1) + (y - 1) / 4 - (y - 1) / 100 + (y - 1) / 400
  let days := before + daysBeforeMonth.getD (m - 1) 0 + (if 2 < m ∧ monthDays y 2 = 29 then 1 else 0) + d
  86400 * ((days : Int) - 719163) + 3600 * h + 60 * mi + s

/-- `NaiveDateTime::parse_from_str(filename, "%d_%b_%Y_GST_%H_%M_%S.csv")` (l.27) and `timestamp()` (l.28).  A leap second (60) has the time stamp of the
second before. -/
def fileTimestamp (name : List Nat) : Option Int := do
  let lit (i j : Nat) (s : String) : Option Unit := if (name.drop i).take (j - i) = s.toList.map Char.toNat then some () else none
  if name.length ≠ 28 then none
  let d ← digitsOf (name.take 2)
  lit 2 3 "_"
  let m ← monthNames.findIdx? (· == ((name.drop 3).take 3).map lowerAscii)
  lit 6 7 "_"
  let y ← digitsOf ((name.drop 7).take 4)
  lit 11 16 "_GST_"
  let h ← digitsOf ((name.drop 16).take 2)
  lit 18 19 "_"
  let mi ← digitsOf ((name.drop 19).take 2)
  lit 21 22 "_"
  let s ← digitsOf ((name.drop 22).take 2)
  lit 24 28 ".csv"
  if 1 ≤ y ∧ 1 ≤ d ∧ d ≤ monthDays y (m + 1) ∧ h < 24 ∧ mi < 60 ∧ s ≤ 60 then some (unixTime y (m + 1) d h mi (min s 59)) else none

/-- `filename_to_gst` (l.26-35): `none` if the name cannot be parsed. -/
def filenameToGst (name : List Nat) : Res (Option Gst) :=
  match fileTimestamp name with
  | none => .ok none
  | some t => do
    let g ← timestampToGst t
    pure (some g)

end Verif
