import Verif.Model.Stats

/-
coordinate/arithmetic.hpp on Cartesian vectors of `double`, in IEEE arithmetic (round to nearest, ties to even, no fused operations).

Simplified: the three quantities of both vectors have one unit, so that every conversion factor is 1 and leaves a number as it is; `std::pow(x, 2)` is
the product `x * x` rounded once; the sign of zero is not kept.
-/

namespace Astro

/-- The point of a cartesian_representation<double, Q, Q, Q>, cartesian_representation.hpp l.29-60. -/
structure DVec where
  x : Dbl
  y : Dbl
  z : Dbl
  deriving DecidableEq

namespace DVec

/-- dot, arithmetic.hpp l.242-283; bg::dot_product goes from the first coordinate to the last, adding to each product that of the rest. -/
def dot (a b : DVec) : Dbl := (a.x.mul b.x).add ((a.y.mul b.y).add (a.z.mul b.z))

/-- cross with a Cartesian first argument, arithmetic.hpp l.41-140. -/
def cross (a b : DVec) : DVec :=
  ⟨(a.y.mul b.z).sub (a.z.mul b.y), (a.z.mul b.x).sub (a.x.mul b.z), (a.x.mul b.y).sub (a.y.mul b.x)⟩

/-- magnitude, arithmetic.hpp l.294-322. -/
def magnitude (v : DVec) : Dbl :=
  let result := Dbl.num 0
  let result := result.add (((v.x.mul v.x).add (v.y.mul v.y)).add (v.z.mul v.z))
  result.sqrt

/-- unit_vector, arithmetic.hpp l.336-356. -/
def unitVector (v : DVec) : DVec :=
  let mag := v.magnitude
  ⟨v.x.div mag, v.y.div mag, v.z.div mag⟩

/-- sum, arithmetic.hpp l.374-427; operator+, cartesian_representation.hpp l.206-237. -/
def sum (a b : DVec) : DVec := ⟨a.x.add b.x, a.y.add b.y, a.z.add b.z⟩

/-- mean, arithmetic.hpp l.432-477. -/
def mean (a b : DVec) : DVec := ⟨(a.x.add b.x).div (.num 2), (a.y.add b.y).div (.num 2), (a.z.add b.z).div (.num 2)⟩

/-- The number whose arc cosine (arc sine) bg::transform takes for the polar angle (latitude) of a Cartesian point, in the constructors of
spherical_representation.hpp l.104-117 and spherical_equatorial_representation.hpp; none when r = 0. -/
def polar (v : DVec) : Option Dbl :=
  let r := (((v.x.mul v.x).add (v.y.mul v.y)).add (v.z.mul v.z)).sqrt
  if (Dbl.num 0).less r then some (v.z.div r) else none

end DVec

end Astro
