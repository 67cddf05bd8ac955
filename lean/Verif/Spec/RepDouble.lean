import Verif.Model.RepDouble
import Verif.Spec.RotDouble

/-
Accuracy of the inverse trigonometric functions.
-/

namespace Astro.Spec

open Time

/-- Accurate to 2^-52 (an error of one unit in the last place is at most that, except for angles above 2 of `acos` and `atan2`, where it is half a unit);
`atan2` up to full turns. -/
structure AccurateInverse (I : InverseTrig) : Prop where
  acos : ∀ c : ℚ, IsDouble c → |c| ≤ 1 → Near (I.acos (.num c)) (Real.arccos c) (2 ^ (-52 : ℤ))
  asin : ∀ c : ℚ, IsDouble c → |c| ≤ 1 → Near (I.asin (.num c)) (Real.arcsin c) (2 ^ (-52 : ℤ))
  atan2 : ∀ y x : ℚ, IsDouble y → IsDouble x → ∃ k : ℤ, Near (I.atan2 (.num y) (.num x)) (Coord.atan2 y x + 2 * Real.pi * k) (2 ^ (-52 : ℤ))

end Astro.Spec
