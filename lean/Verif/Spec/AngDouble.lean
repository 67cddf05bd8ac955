import Verif.Model.AngDouble
import Verif.Spec.ChainDouble

/-
Positions in space.
-/

namespace Astro.Spec

open Time

/-- The position that three coordinates stand for: azimuth, polar angle and distance; azimuth, latitude and distance; or Cartesian coordinates. -/
noncomputable def position (s : Coord.System) (a b r : ℝ) : Coord.Vec :=
  match s with
  | .cartesian => ![a, b, r]
  | .spherical => ![r * Real.sin b * Real.cos a, r * Real.sin b * Real.sin a, r * Real.cos b]
  | .equatorial => ![r * Real.cos b * Real.cos a, r * Real.cos b * Real.sin a, r * Real.sin b]

/-- The distance from the origin. -/
noncomputable def size (v : Coord.Vec) : ℝ := chord v 0

/-- The representation `p` of system `s` stands for the position `w`. -/
def Stands3 (s : Coord.System) (p : DSph) (w : Coord.Vec) : Prop :=
  ∃ a b r : ℚ, p = ⟨.num a, .num b, .num r⟩ ∧ IsDouble a ∧ IsDouble b ∧ IsDouble r ∧ w = position s a b r

/-- The cross product. -/
def crossed (v w : Coord.Vec) : Coord.Vec := ![v 1 * w 2 - v 2 * w 1, v 2 * w 0 - v 0 * w 2, v 0 * w 1 - v 1 * w 0]

/-- Not too close to the origin and not too far. -/
def Between (n : ℤ) (w : Coord.Vec) : Prop := 2 ^ (-n) ≤ size w ∧ size w ≤ 2 ^ n

end Astro.Spec
