import Verif.Model.UnitChain

/-
Coordinate conversions with coordinate/utility/utility.hpp in IEEE double arithmetic, with angles in degrees or other units and the galactic matrices among
the conversions.  Simplified as in Model/UnitChain.
-/

namespace Astro

/-- The structs of utility.hpp: one that is built from an angle, l.82-218, or one of the two galactic ones, l.222-280. -/
inductive Step (α : Type) where
  | turn (c : Conversion) (a : α)
  | toGalactic
  | fromGalactic

def Step.map {α β : Type} (f : α → β) : Step α → Step β
  | .turn c a => .turn c (f a)
  | .toGalactic => .toGalactic
  | .fromGalactic => .fromGalactic

/-- The matrix `conv` of the struct, utility.hpp l.91-103, 127-139, 163-175, 199-211, 229-239, 257-268. -/
def Step.matrix (T : Trig) : Step DAngle → DMat
  | .turn c a => c.matrix T a
  | .toGalactic => DMat.raDecToGalactic
  | .fromGalactic => DMat.galacticToRaDec

/-- `column_vector(u, v)`, utility.hpp l.60-67, and conversions one after the other; between two of them the angles are in radians. -/
def Step.chain (T : Trig) (I : InverseTrig) (steps : List (Step DAngle)) (u v : DAngle) : Dbl × Dbl :=
  DMat.chain T I (steps.map (Step.matrix T)) (u.radians, v.radians)

end Astro
