import Verif.Model.GalacticUnits
import Verif.Spec.UnitChain

/-
Exact conversions by given angles, the galactic ones included.
-/

namespace Astro.Spec

open Matrix

/-- The matrix in real arithmetic, for an angle in radians. -/
noncomputable def exactStep : Step ℝ → Coord.Mat
  | .turn c a => exactMatrix c a
  | .toGalactic => Coord.raDecToGalactic
  | .fromGalactic => Coord.galacticToRaDec

/-- The exact matrices one after the other. -/
noncomputable def travelled (l : List (Step ℝ)) (v : Coord.Vec) : Coord.Vec := l.foldl (fun v s => exactStep s *ᵥ v) v

/-- How many of the conversions use a galactic matrix. -/
def galacticSteps {α : Type} (l : List (Step α)) : ℕ := l.countP fun s => match s with | .turn _ _ => false | _ => true

/-- Every angle is held within `e` of what it should be. -/
def AnglesNear (e : ℝ) (l : List (Step (DAngle × ℝ))) : Prop := ∀ c a, Step.turn c a ∈ l → Near a.1.radians a.2 e

/-- Every angle of at most a full turn. -/
def FullTurn (l : List (Step ℚ)) : Prop := ∀ c x, Step.turn c x ∈ l → |x| ≤ 360

end Astro.Spec
