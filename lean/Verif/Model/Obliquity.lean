import Verif.Model.Stats

/-
obliquity_of_ecliptic (coordinate/utility/utility.hpp) in floating point arithmetic.

`double` operations are IEEE (round to nearest, ties to even, no fused operations).  `long double`, which differs between platforms, is a parameter: the
function that rounds a number to a `long double`.
-/

namespace Astro.Obliquity

/-- `e_degrees`, utility.hpp l.314-320. -/
def degrees (jd : ℤ) : Dbl :=
  let julianDate := Dbl.round jd
  let modifiedJulianDate := julianDate.sub (.round 2451545.0)
  let julianCenturies := modifiedJulianDate.div (.round 36525.0)
  (Dbl.round 23.439292).sub
    ((((Dbl.round 46.815).mul julianCenturies).add
      ((((Dbl.round 0.0006).sub ((Dbl.round 0.00181).mul julianCenturies)).mul julianCenturies).mul julianCenturies)).div (.round 3600.0))

/-- The constant `PI`, utility.hpp l.31. -/
def pi (ext : ℚ → ℚ) : ℚ := ext 3.141592653589793238462643383279502884

/-- `e_degrees * PI / 180.0`, utility.hpp l.322: `PI` is a `long double`, so the product and the quotient are computed in `long double` and then rounded
to `double`. -/
def toRadians (ext : ℚ → ℚ) : Dbl → Dbl
  | .num q => .round (ext (ext (q * pi ext) / 180))
  | d => d

/-- obliquity_of_ecliptic(d).get(), utility.hpp l.312-327; `jd` is `d.julian_day()`. -/
def radians (ext : ℚ → ℚ) (jd : ℤ) : Dbl := toRadians ext (degrees jd)

end Astro.Obliquity
