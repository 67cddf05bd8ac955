import Mathlib.Data.Rat.Defs

/-
Specification for C146: a time of day as three numbers.
-/

namespace Astro.Spec

/-- Seconds since midnight. -/
def sinceMidnight (h m : ℤ) (s : ℚ) : ℚ := 3600 * h + 60 * m + s

/-- What a clock shows. -/
structure ClockTime (h m : ℤ) (s : ℚ) : Prop where
  hours : 0 ≤ h ∧ h < 24
  minutes : 0 ≤ m ∧ m < 60
  seconds : 0 ≤ s ∧ s < 60

end Astro.Spec
