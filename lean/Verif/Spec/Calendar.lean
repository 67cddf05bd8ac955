import Verif.Model.Time

/-
Specification of the two calendars: lengths of months and years, and day numbers counted by adding these lengths up.
-/

namespace Astro.Spec

open Astro.Time

/-- Leap years of the Gregorian and of the Julian calendar. -/
def gregorianLeap (y : Nat) : Bool := y % 4 = 0 && (y % 100 ≠ 0 || y % 400 = 0)
def julianLeap (y : Nat) : Bool := y % 4 = 0

/-- Number of days of month `m` (1 to 12). -/
def monthDays (leap : Nat → Bool) (y m : Nat) : Nat :=
  match m with
  | 1 => 31 | 2 => if leap y then 29 else 28 | 3 => 31 | 4 => 30 | 5 => 31 | 6 => 30
  | 7 => 31 | 8 => 31 | 9 => 30 | 10 => 31 | 11 => 30 | 12 => 31
  | _ => 0

/-- A date of the calendar. -/
def Valid (leap : Nat → Bool) (d : Date) : Prop := 1 ≤ d.month ∧ d.month ≤ 12 ∧ 1 ≤ d.day ∧ d.day ≤ monthDays leap d.year d.month

/-- Days of the years `0 .. y-1`. -/
def yearsBefore (leap : Nat → Bool) : Nat → Nat
  | 0 => 0
  | y + 1 => yearsBefore leap y + if leap y then 366 else 365

/-- Days of the months `1 .. m-1` of year `y`. -/
def monthsBefore (leap : Nat → Bool) (y : Nat) : Nat → Nat
  | 0 => 0
  | m + 1 => monthsBefore leap y m + monthDays leap y m

/-- Number of days from the first day of year 0 up to and including the date. -/
def dayNumber (leap : Nat → Bool) (d : Date) : Nat := yearsBefore leap d.year + monthsBefore leap d.year d.month + d.day

/-- The day after. -/
def Tomorrow (leap : Nat → Bool) (a b : Date) : Prop :=
  if a.day < monthDays leap a.year a.month then b = ⟨a.year, a.month, a.day + 1⟩
  else if a.month < 12 then b = ⟨a.year, a.month + 1, 1⟩
  else b = ⟨a.year + 1, 1, 1⟩

/-- The dates a boost::gregorian::date can hold: Gregorian dates of the years 1400 to 9999 (all others make its constructor throw). -/
def Representable (d : Date) : Prop := Valid gregorianLeap d ∧ 1400 ≤ d.year ∧ d.year ≤ 9999

/-- Order of dates. -/
def Earlier (a b : Date) : Prop := a.year < b.year ∨ (a.year = b.year ∧ (a.month < b.month ∨ (a.month = b.month ∧ a.day < b.day)))

/-- The last date that the code counts in the Julian calendar. -/
def lastJulian : Date := ⟨1582, 10, 1⟩

/-- `x` and `y` are the same time of day in hours. -/
def SameHour (x y : ℚ) : Prop := ∃ k : ℤ, x = y + 24 * k

/-- Hours since midnight of a time of day in whole seconds. -/
def universalTime (t : PTime) : ℚ := t.hours + t.minutes / 60 + t.seconds / 3600

/-- The polynomial of Greenwich sidereal time in hours: `c` Julian centuries since 2000 January 1 noon, `ut` hours. -/
def siderealFormula (c ut : ℚ) : ℚ := 6.697374558 + 2400.051336 * c + 0.000025862 * c ^ 2 + 1.002737909 * ut

/-- `h`, `m`, `s` are hours, minutes and seconds of the decimal hour `d`, all with the sign of `d`. -/
structure Split (d : ℚ) (h m : ℤ) (s : ℚ) : Prop where
  sum : d = h + m / 60 + s / 3600
  minutes : |m| < 60
  seconds : |s| < 60
  nonneg : 0 ≤ d → 0 ≤ h ∧ 0 ≤ m ∧ 0 ≤ s
  nonpos : d ≤ 0 → h ≤ 0 ∧ m ≤ 0 ∧ s ≤ 0

end Astro.Spec
