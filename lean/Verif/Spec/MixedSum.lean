import Verif.Model.MixedSum
import Verif.Spec.FrameBuildDouble

/-
Representations and differentials with units: the vectors they stand for.
-/

namespace Astro.Spec

open Time

/-- The object of system `s` stands for the vector `w`; `len` are the sizes of the units in some fixed unit.  Angles are kept in radians. -/
def StandsFor {U : Type} (len : U → ℝ) (s : Coord.System) (a : QSph U) (w : Coord.Vec) : Prop :=
  ∃ p q r : ℚ, a.p = ⟨.num p, .num q, .num r⟩ ∧ IsDouble p ∧ IsDouble q ∧ IsDouble r ∧
    w = match s with
      | .cartesian => ![p * len a.u1, q * len a.u2, r * len a.u3]
      | s => position s p q (r * len a.u3)

/-- The length of a vector, measured in the unit `u`, is neither huge nor tiny. -/
def Manageable {U : Type} (len : U → ℝ) (u : U) (w : Coord.Vec) : Prop := 2 ^ (-400 : ℤ) * len u ≤ size w ∧ size w ≤ 2 ^ (400 : ℤ) * len u

end Astro.Spec
