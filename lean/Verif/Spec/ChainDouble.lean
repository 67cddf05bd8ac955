import Verif.Model.ChainDouble
import Verif.Spec.RepDouble
import Verif.Props.Rotation

/-
Chains of exact rotations and the distance of directions.
-/

namespace Astro.Spec

open Matrix Time

/-- The length of the straight line between two points; of two directions it is twice the sine of half their angle. -/
noncomputable def chord (v w : Coord.Vec) : ℝ := √((v 0 - w 0) ^ 2 + (v 1 - w 1) ^ 2 + (v 2 - w 2) ^ 2)

/-- Sine and cosine of NaN are NaN. -/
def PassesNaN (T : Trig) : Prop := T.sin .nan = .nan ∧ T.cos .nan = .nan

/-- One of the four matrices of an angle, as computed and as it should be. -/
structure Rotation (T : Trig) where
  angle : ℚ
  computed : DMat
  exact : Coord.Mat
  double : IsDouble angle
  same : SameMatrix T angle computed exact
  rotates : AngleMatrix exact

/-- The exact rotations one after the other. -/
noncomputable def rotated {T : Trig} (l : List (Rotation T)) (v : Coord.Vec) : Coord.Vec := l.foldl (fun v r => r.exact *ᵥ v) v

/-- Two conversions that undo each other. -/
inductive ThereAndBack {T : Trig} : Rotation T → Rotation T → Prop
  | horizon (a : ℚ) (h : IsDouble a) (x y) : ThereAndBack ⟨a, DMat.haDecHorizon T (.num a), Coord.haDecHorizon a, h, .horizon, x⟩
      ⟨a, DMat.haDecHorizon T (.num a), Coord.haDecHorizon a, h, .horizon, y⟩
  | hourAngle (a : ℚ) (h : IsDouble a) (x y) : ThereAndBack ⟨a, DMat.haDecRaDec T (.num a), Coord.haDecRaDec a, h, .hourAngle, x⟩
      ⟨a, DMat.haDecRaDec T (.num a), Coord.haDecRaDec a, h, .hourAngle, y⟩
  | fromEcliptic (a : ℚ) (h : IsDouble a) (x y) : ThereAndBack ⟨a, DMat.eclipticToRaDec T (.num a), Coord.eclipticToRaDec a, h, .fromEcliptic, x⟩
      ⟨a, DMat.raDecToEcliptic T (.num a), Coord.raDecToEcliptic a, h, .toEcliptic, y⟩
  | toEcliptic (a : ℚ) (h : IsDouble a) (x y) : ThereAndBack ⟨a, DMat.raDecToEcliptic T (.num a), Coord.raDecToEcliptic a, h, .toEcliptic, x⟩
      ⟨a, DMat.eclipticToRaDec T (.num a), Coord.eclipticToRaDec a, h, .fromEcliptic, y⟩

end Astro.Spec
