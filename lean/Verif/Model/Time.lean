import Mathlib.Algebra.Order.Floor.Defs
import Mathlib.Data.Rat.Floor
import Mathlib.Tactic.NormNum

/-
time/time_conversions.hpp, time/parser.hpp: Julian date, sidereal time, decimal hours.

A `double` is a rational number here.  Every arithmetic operation of the code is followed by a rounding function, about which is assumed only what
`Rounding` says; infinities and NaN are not modelled.  `floor` is exact, as in C.
-/

namespace Astro.Time

/-- The rational `x` is a finite IEEE binary64 number. -/
def IsDouble (x : ℚ) : Prop := ∃ m e : ℤ, |m| < 2 ^ 53 ∧ -1074 ≤ e ∧ e ≤ 971 ∧ x = m * 2 ^ e

/-- A rounding function for `double`: it does not change what can be represented and it is monotone.  (So it takes a number to one of the two doubles
around it; all IEEE rounding modes do.) -/
structure Rounding where
  rnd : ℚ → ℚ
  exact : ∀ x, IsDouble x → rnd x = x
  mono : ∀ x y, x ≤ y → rnd x ≤ rnd y

namespace Rounding

/-- No rounding: arithmetic with rational numbers. -/
def none : Rounding := ⟨id, fun _ _ => rfl, fun _ _ h => h⟩

def add (R : Rounding) (x y : ℚ) : ℚ := R.rnd (x + y)
def sub (R : Rounding) (x y : ℚ) : ℚ := R.rnd (x - y)
def mul (R : Rounding) (x y : ℚ) : ℚ := R.rnd (x * y)
def div (R : Rounding) (x y : ℚ) : ℚ := R.rnd (x / y)

end Rounding

/-- boost::gregorian::date: year (1400 to 9999), month, day. -/
structure Date where
  year : Nat
  month : Nat
  day : Nat
  deriving DecidableEq

/-- `operator<` of dates. -/
def Date.before (a b : Date) : Bool :=
  a.year < b.year || (a.year == b.year && (a.month < b.month || (a.month == b.month && a.day < b.day)))

/-- boost::posix_time::ptime: date and time of day; `fraction` counts the ticks below one second. -/
structure PTime where
  date : Date
  hours : Nat
  minutes : Nat
  seconds : Nat
  fraction : Nat

/-- julian_date, time_conversions.hpp l.33-90. -/
def julianDate (R : Rounding) (t : PTime) : ℚ :=
  let y : ℚ := t.date.year
  let m : ℚ := t.date.month
  let d : ℚ := t.date.day
  let yprime := if m = 1 ∨ m = 2 then R.sub y 1 else y
  let mprime := if m = 1 ∨ m = 2 then R.add m 12 else m
  let B : ℚ :=
    if (Date.before ⟨1582, 10, 1⟩ t.date) = true then
      let A : ℚ := ⌊R.div yprime 100⌋
      R.add (R.sub 2 A) ⌊R.div A 4⌋
    else 0
  let C : ℚ := if yprime < 0 then ⌊R.sub (R.mul (R.rnd (36525 / 100)) yprime) (R.rnd (75 / 100))⌋ else ⌊R.mul (R.rnd (36525 / 100)) yprime⌋
  let D : ℚ := ⌊R.mul (R.rnd (306001 / 10000)) (R.add mprime 1)⌋
  R.add (R.add (R.add (R.add B C) D) d) (R.rnd (17209945 / 10))

/-- struct decimal_hour, parser.hpp l.16-26 (the two remainders are not used outside the constructor). -/
structure DecimalHour where
  dh : ℚ
  hours : Int
  minutes : Int
  seconds : ℚ

/-- Conversion of a `double` to `long int`: towards zero, undefined behaviour out of range. -/
def toLong (x : ℚ) : Option Int :=
  let n : Int := if x < 0 then ⌈x⌉ else ⌊x⌋
  if -2 ^ 63 ≤ n ∧ n < 2 ^ 63 then some n else none

/-- decimal_hour(d), parser.hpp l.28-37; `none` is undefined behaviour. -/
def DecimalHour.ofDecimal (R : Rounding) (d : ℚ) : Option DecimalHour := do
  let hours ← toLong d
  let minutesRemainder := R.mul (R.sub d hours) 60
  let minutes ← toLong minutesRemainder
  let secondsRemainder := R.mul (R.sub minutesRemainder minutes) 60
  return ⟨d, hours, minutes, secondsRemainder⟩

/-- decimal_hour(h, m, s), parser.hpp l.39-41. -/
def DecimalHour.ofParts (R : Rounding) (h m s : ℚ) : DecimalHour := ⟨R.add (R.add h (R.div m 60)) (R.div s 3600), 0, 0, 0⟩

/-- The reduction `x - 24.0 * floor(x/24.0)`, time_conversions.hpp l.104, l.115, l.150. -/
def reduce24 (R : Rounding) (x : ℚ) : ℚ := R.sub x (R.mul 24 ⌊R.div x 24⌋)

/-- The value that GST (time_conversions.hpp l.92-119) passes to the constructor of decimal_hour. -/
def gstValue (R : Rounding) (t : PTime) : ℚ :=
  let JD := julianDate R t
  let S := R.sub JD 2451545
  let T := R.div S 36525
  let T0 := R.add (R.add (R.rnd (6697374558 / 1000000000)) (R.mul (R.rnd (2400051336 / 1000000)) T))
    (R.mul (R.mul (R.rnd (25862 / 1000000000)) T) T)
  let T0 := reduce24 R T0
  let UT := R.add (R.div (R.add (R.div t.seconds 60) t.minutes) 60) t.hours
  let A := R.mul UT (R.rnd (1002737909 / 1000000000))
  reduce24 R (R.add T0 A)

/-- GST, time_conversions.hpp l.92-119. -/
def gst (R : Rounding) (t : PTime) : Option DecimalHour := DecimalHour.ofDecimal R (gstValue R t)

/-- enum class DIRECTION, time_conversions.hpp l.121. -/
inductive Direction where
  | west
  | east

/-- The value that LST (time_conversions.hpp l.124-153) passes to the constructor of decimal_hour, from the longitude and GST. -/
def lstValue (R : Rounding) (longitude : ℚ) (dir : Direction) (gst : ℚ) : ℚ :=
  if longitude = 0 then gst
  else
    let long := R.div longitude 15
    let long := match dir with
      | .west => R.mul (-1) long
      | .east => R.mul 1 long
    reduce24 R (R.add long gst)

/-- LST, time_conversions.hpp l.124-153. -/
def lst (R : Rounding) (longitude : ℚ) (dir : Direction) (t : PTime) : Option DecimalHour := do
  let g ← gst R t
  DecimalHour.ofDecimal R (lstValue R longitude dir g.dh)

end Astro.Time
