import Verif.Model.QtyDouble
import Verif.Spec.AngDouble

/-
Quantities with units: what a number stands for.
-/

namespace Astro.Spec

open Time

/-- The conversion factors of units with these sizes (in some fixed unit), accurate to the fraction `ε`. -/
structure AccurateFactors {U : Type} (size : U → ℝ) (F : Factors U) (ε : ℝ) : Prop where
  positive : ∀ a, 0 < size a
  same : ∀ a, F a a = .num 1
  other : ∀ a b, ∃ k : ℚ, F a b = .num k ∧ IsDouble k ∧ |(k : ℝ) - size a / size b| ≤ size a / size b * ε

/-- The vector that numbers with units stand for. -/
def Measures {U : Type} (size : U → ℝ) (a : QVec U) (X Y Z : ℝ) : Prop :=
  ∃ x y z : ℚ, Coords a.v x y z ∧ X = x * size a.u1 ∧ Y = y * size a.u2 ∧ Z = z * size a.u3

/-- A length is zero, or its number in the unit `u` is neither huge nor tiny. -/
def Ordinary {U : Type} (size : U → ℝ) (u : U) (X : ℝ) : Prop := X = 0 ∨ (2 ^ (-400 : ℤ) * size u ≤ |X| ∧ |X| ≤ 2 ^ (400 : ℤ) * size u)

/-- The same for all coordinates and all units of a vector. -/
def OrdinaryVector {U : Type} (size : U → ℝ) (a : QVec U) (X Y Z : ℝ) : Prop :=
  ∀ u ∈ [a.u1, a.u2, a.u3], Ordinary size u X ∧ Ordinary size u Y ∧ Ordinary size u Z

end Astro.Spec
