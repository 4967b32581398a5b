import Verif.Spec.Time

/-! # Specification: the Gregorian calendar, day by day -/

namespace Verif

/-- A date: year, month, day. -/
structure Date where
  y : Nat
  m : Nat
  d : Nat

def LeapYear (y : Nat) : Prop := y % 4 = 0 ∧ (y % 100 ≠ 0 ∨ y % 400 = 0)

/-- The last day of a month. -/
inductive LastDay : Date → Prop
  | d31 {y m : Nat} : m ∈ [1, 3, 5, 7, 8, 10, 12] → LastDay ⟨y, m, 31⟩
  | d30 {y m : Nat} : m ∈ [4, 6, 9, 11] → LastDay ⟨y, m, 30⟩
  | d29 {y : Nat} : LeapYear y → LastDay ⟨y, 2, 29⟩
  | d28 {y : Nat} : ¬ LeapYear y → LastDay ⟨y, 2, 28⟩

/-- The day after a date. -/
inductive NextDay : Date → Date → Prop
  | day {y m d : Nat} : ¬ LastDay ⟨y, m, d⟩ → NextDay ⟨y, m, d⟩ ⟨y, m, d + 1⟩
  | month {y m d : Nat} : LastDay ⟨y, m, d⟩ → m < 12 → NextDay ⟨y, m, d⟩ ⟨y, m + 1, 1⟩
  | year {y d : Nat} : LastDay ⟨y, 12, d⟩ → NextDay ⟨y, 12, d⟩ ⟨y + 1, 1, 1⟩

/-- `n` days after a date. -/
inductive DaysAfter (a : Date) : Nat → Date → Prop
  | same : DaysAfter a 0 a
  | next {n : Nat} {b c : Date} : DaysAfter a n b → NextDay b c → DaysAfter a (n + 1) c

/-- The first day of GST week 0, a Sunday. -/
def gstEpoch : Date := ⟨1999, 8, 22⟩

/-- Two digits. -/
def two (n : Nat) : List Char := [Nat.digitChar (n / 10), Nat.digitChar (n % 10)]

/-- The names of the months, in upper and lower case. -/
def months : List (String × String) :=
  [("JAN", "jan"), ("FEB", "feb"), ("MAR", "mar"), ("APR", "apr"), ("MAY", "may"), ("JUN", "jun"), ("JUL", "jul"), ("AUG", "aug"), ("SEP", "sep"),
    ("OCT", "oct"), ("NOV", "nov"), ("DEC", "dec")]

/-- The name of the month, each letter in upper or lower case. -/
def MonthName (m : Nat) (w : List Char) : Prop :=
  ∃ upper lower, months[m - 1]? = some (upper, lower) ∧ w.length = 3 ∧
    ∀ (k : Nat) (c : Char), w[k]? = some c → upper.toList[k]? = some c ∨ lower.toList[k]? = some c

/-- The name of a file that starts at a date, hour, minute and second, such as `16_AUG_2023_GST_05_00_01.csv`. -/
def FileNameOf (date : Date) (h mi s : Nat) (name : List Char) : Prop :=
  ∃ month : List Char, MonthName date.m month ∧
    name = two date.d ++ "_".toList ++ month ++ "_".toList ++ (two (date.y / 100) ++ two (date.y % 100)) ++ "_GST_".toList ++ two h ++ "_".toList ++ two mi ++
      "_".toList ++ two s ++ ".csv".toList

end Verif
