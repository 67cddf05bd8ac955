import Verif.Spec.ChainDouble

/-
Chains of conversions between systems, the galactic ones included.
-/

namespace Astro.Spec

open Matrix Time

/-- One conversion: with one of the four matrices of an angle, or with one of the two galactic matrices. -/
inductive Leg (T : Trig) where
  | turn (r : Rotation T)
  | toGalactic
  | fromGalactic

/-- The matrix of the conversion as computed. -/
def Leg.computed {T : Trig} : Leg T → DMat
  | .turn r => r.computed
  | .toGalactic => DMat.raDecToGalactic
  | .fromGalactic => DMat.galacticToRaDec

/-- The matrix of the conversion in real arithmetic. -/
noncomputable def Leg.exact {T : Trig} : Leg T → Coord.Mat
  | .turn r => r.exact
  | .toGalactic => Coord.raDecToGalactic
  | .fromGalactic => Coord.galacticToRaDec

def Leg.galactic {T : Trig} : Leg T → Bool
  | .turn _ => false
  | _ => true

/-- How many of the conversions use a galactic matrix. -/
def galacticLegs {T : Trig} (l : List (Leg T)) : ℕ := l.countP Leg.galactic

/-- The exact matrices one after the other. -/
noncomputable def followed {T : Trig} (l : List (Leg T)) (v : Coord.Vec) : Coord.Vec := l.foldl (fun v r => r.exact *ᵥ v) v

end Astro.Spec
