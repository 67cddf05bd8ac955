import Mathlib.Analysis.SpecialFunctions.Complex.Arg
import Mathlib.Analysis.SpecialFunctions.Trigonometric.Inverse
import Mathlib.LinearAlgebra.Matrix.Notation

/-
coordinate/utility/utility.hpp: direction vectors, rotation matrices, obliquity.

`double` is ℝ here: rounding, infinities, NaN and signed zeros are not modelled.  Angles are in radians (the code converts every angle argument to
radians first).
-/

namespace Astro.Coord

/-- A 3×1 matrix and a 3×3 matrix of boost::numeric::ublas; `prod` is the usual product. -/
abbrev Vec := Fin 3 → ℝ
abbrev Mat := Matrix (Fin 3) (Fin 3) ℝ

/-- std::atan2 (with `atan2(0, 0) = 0`). -/
noncomputable def atan2 (y x : ℝ) : ℝ := Complex.arg ⟨x, y⟩

/-- std::asin: NaN (`none`) outside [-1,1]. -/
noncomputable def asin (x : ℝ) : Option ℝ := if -1 ≤ x ∧ x ≤ 1 then some (Real.arcsin x) else none

/-- std::acos: NaN (`none`) outside [-1,1]. -/
noncomputable def acos (x : ℝ) : Option ℝ := if -1 ≤ x ∧ x ≤ 1 then some (Real.arccos x) else none

/-- column_vector(u, v), utility.hpp l.60-67. -/
noncomputable def columnVector (u v : ℝ) : Vec := ![Real.cos u * Real.cos v, Real.sin u * Real.cos v, Real.sin v]

/-- ha_dec_horizon(phi), utility.hpp l.91-103. -/
noncomputable def haDecHorizon (phi : ℝ) : Mat :=
  !![-Real.sin phi, 0, Real.cos phi;
     0, -1, 0;
     Real.cos phi, 0, Real.sin phi]

/-- ha_dec_ra_dec(ST), utility.hpp l.127-139. -/
noncomputable def haDecRaDec (st : ℝ) : Mat :=
  !![Real.cos st, Real.sin st, 0;
     Real.sin st, -Real.cos st, 0;
     0, 0, 1]

/-- ecliptic_to_ra_dec(obliquity), utility.hpp l.163-175. -/
noncomputable def eclipticToRaDec (e : ℝ) : Mat :=
  !![1, 0, 0;
     0, Real.cos e, -Real.sin e;
     0, Real.sin e, Real.cos e]

/-- ra_dec_to_ecliptic(obliquity), utility.hpp l.199-211. -/
noncomputable def raDecToEcliptic (e : ℝ) : Mat :=
  !![1, 0, 0;
     0, Real.cos e, Real.sin e;
     0, -Real.sin e, Real.cos e]

/-- galactic_to_ra_dec(), utility.hpp l.229-239. -/
noncomputable def galacticToRaDec : Mat :=
  !![-0.0669887, 0.8727558, -0.4835389;
     -0.4927285, -0.4503470, -0.7445846;
     -0.8676008, 0.1883746, 0.4601998]

/-- ra_dec_to_galactic(), utility.hpp l.257-268. -/
noncomputable def raDecToGalactic : Mat :=
  !![-0.0669887, -0.8727558, -0.4835389;
     0.4927285, -0.4503470, 0.7445846;
     -0.8676008, -0.1883746, 0.4601998]

/-- extract_coordinates, utility.hpp l.292-300; the second angle is `none` when `asin` gives NaN. -/
noncomputable def extractCoordinates (v : Vec) : ℝ × Option ℝ := (atan2 (v 1) (v 0), asin (v 2))

/-- obliquity_of_ecliptic in degrees, utility.hpp l.312-320; `jd` is `date::julian_day()`. -/
noncomputable def obliquityDegrees (jd : ℤ) : ℝ :=
  let modifiedJulianDate : ℝ := jd - 2451545.0
  let julianCenturies := modifiedJulianDate / 36525.0
  23.439292 - (46.815 * julianCenturies + (0.0006 - 0.00181 * julianCenturies) * julianCenturies * julianCenturies) / 3600.0

/-- obliquity_of_ecliptic, utility.hpp l.312-323.  The constant `PI` (l.31) is taken to be π. -/
noncomputable def obliquity (jd : ℤ) : ℝ := obliquityDegrees jd * Real.pi / 180.0

end Astro.Coord
