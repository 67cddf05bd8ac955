import Verif.Model.UnitChain
import Verif.Spec.ChainDouble

/-
Exact conversions by given angles.
-/

namespace Astro.Spec

open Matrix

/-- The exact rotation by `a` radians. -/
noncomputable def exactMatrix : Conversion → ℝ → Coord.Mat
  | .horizon, a => Coord.haDecHorizon a
  | .hourAngle, a => Coord.haDecRaDec a
  | .fromEcliptic, a => Coord.eclipticToRaDec a
  | .toEcliptic, a => Coord.raDecToEcliptic a

/-- Exact rotations one after the other. -/
noncomputable def turned (l : List (Conversion × ℝ)) (v : Coord.Vec) : Coord.Vec := l.foldl (fun v s => exactMatrix s.1 s.2 *ᵥ v) v

/-- An angle of `x` degrees. -/
def inDegrees (x : ℚ) : DAngle := ⟨degreeFactor, .num x⟩

/-- Degrees in radians. -/
noncomputable def degree (x : ℚ) : ℝ := x * (Real.pi / 180)

end Astro.Spec
