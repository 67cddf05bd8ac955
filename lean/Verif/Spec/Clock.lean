import Verif.Spec.Calendar

/-
Specification of C136: the time between two moments.
-/

namespace Astro.Spec

open Astro.Time

/-- Hours from `s` to `t`, the days being counted in the calendar with these leap years. -/
def elapsedHours (leap : ℕ → Bool) (s t : PTime) : ℚ := 24 * ((dayNumber leap t.date : ℚ) - dayNumber leap s.date) + (universalTime t - universalTime s)

end Astro.Spec
