import Verif.Model.RotDouble
import Verif.Model.Rotation
import Verif.Spec.VecDouble
import Mathlib.Data.Real.Basic

/-
Accuracy of doubles as approximations of real numbers.
-/

namespace Astro.Spec

open Time

/-- `d` is a number within `e` of `r`. -/
def Near (d : Dbl) (r e : ℝ) : Prop := ∃ q : ℚ, d = .num q ∧ IsDouble q ∧ |(q : ℝ) - r| ≤ e

/-- All coordinates of `w` are within `e` of those of `v`. -/
def Close (w : DVec) (v : Coord.Vec) (e : ℝ) : Prop := Near w.x (v 0) e ∧ Near w.y (v 1) e ∧ Near w.z (v 2) e

/-- Sine and cosine of every number are accurate to 2^-53 (an error of one unit in the last place is at most that). -/
def Accurate (T : Trig) : Prop := ∀ x : ℚ, IsDouble x → Near (T.sin (.num x)) (Real.sin x) (2 ^ (-53 : ℤ)) ∧ Near (T.cos (.num x)) (Real.cos x) (2 ^ (-53 : ℤ))

/-- `d` is the double closest to `r`. -/
def ClosestDouble (d : Dbl) (r : ℝ) : Prop := ∃ q : ℚ, d = .num q ∧ IsDouble q ∧ ∀ y : ℚ, IsDouble y → |(q : ℝ) - r| ≤ |(y : ℝ) - r|

/-- Sine and cosine are always the closest doubles: no library can do better. -/
def BestPossible (T : Trig) : Prop := ∀ x : ℚ, IsDouble x → ClosestDouble (T.sin (.num x)) (Real.sin x) ∧ ClosestDouble (T.cos (.num x)) (Real.cos x)

/-- The matrix the code computes, and the one it stands for. -/
inductive SameMatrix (T : Trig) (a : ℚ) : DMat → Coord.Mat → Prop
  | horizon : SameMatrix T a (DMat.haDecHorizon T (.num a)) (Coord.haDecHorizon a)
  | hourAngle : SameMatrix T a (DMat.haDecRaDec T (.num a)) (Coord.haDecRaDec a)
  | fromEcliptic : SameMatrix T a (DMat.eclipticToRaDec T (.num a)) (Coord.eclipticToRaDec a)
  | toEcliptic : SameMatrix T a (DMat.raDecToEcliptic T (.num a)) (Coord.raDecToEcliptic a)
  | fromGalactic : SameMatrix T a DMat.galacticToRaDec Coord.galacticToRaDec
  | toGalactic : SameMatrix T a DMat.raDecToGalactic Coord.raDecToGalactic

/-- The double closest to 8° in radians. -/
def eightDegrees : ℚ := 5030569068109113 * 2 ^ (-55 : ℤ)

end Astro.Spec
