import Mathlib.Algebra.Order.Field.Rat
import Mathlib.Algebra.Order.AbsoluteValue.Basic

/-
What is required of `long double`.
-/

namespace Astro.Spec

/-- Rounding to a format that is at least as precise as `double`, for numbers that are neither huge nor tiny. -/
def AtLeastDouble (ext : ℚ → ℚ) : Prop := ∀ q : ℚ, 2 ^ (-100 : ℤ) ≤ |q| → |q| ≤ 2 ^ 100 → |ext q - q| ≤ |q| * 2 ^ (-53 : ℤ)

end Astro.Spec
