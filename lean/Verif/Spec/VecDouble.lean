import Verif.Model.VecDouble
import Verif.Spec.Stats

/-
Vectors of numbers that doubles can hold.
-/

namespace Astro.Spec

open Time

/-- The coordinates of a vector, all of them numbers. -/
def Coords (v : DVec) (x y z : ℚ) : Prop := v = ⟨.num x, .num y, .num z⟩ ∧ IsDouble x ∧ IsDouble y ∧ IsDouble z

/-- The opposite vector. -/
def opposite (v : DVec) : DVec := ⟨v.x.neg, v.y.neg, v.z.neg⟩

/-- `d` is the result of an operation with the exact value `q`: the closest double, infinity when that is out of range. -/
def RoundedTo (q : ℚ) (d : Dbl) : Prop :=
  (|q| < limit .double → ∃ r, d = .num r ∧ Rounded q r) ∧ (limit .double ≤ |q| → d = .inf (decide (q < 0)))

end Astro.Spec
