import Verif.Model.RepDouble

/-
Quantities with units (boost::units) of `double`, in IEEE arithmetic: angles in degrees or other units, and Cartesian vectors whose three quantities have
different units.

A static_cast of a quantity multiplies its number by the conversion factor of the two units, a `double`, and rounds once.  The factors are a parameter;
the factor of two equal units is 1, a multiplication that changes nothing.  Simplified as in Model/VecDouble: the sign of zero is not kept, no fused
operations, `std::pow(x, 2)` is the product `x * x` rounded once.
-/

namespace Astro

/-- set_lat, set_lon, spherical_representation.hpp l.220-236 (the same in spherical_equatorial_representation.hpp l.214-230, and utility.hpp l.61, 62, 92, 128,
164, 200 for the arguments of the matrices): a static_cast to radians; `k` is the factor of the unit. -/
def storeAngle (k x : Dbl) : Dbl := x.mul k

/-- get_lat, get_lon, spherical_representation.hpp l.180-199 (the same in spherical_equatorial_representation.hpp l.174-193): a static_cast from radians.
Assumed of boost::units, whose source is not part of /repo and could not be looked up: the factor of this direction is 1.0 divided by the other one. -/
def readAngle (k y : Dbl) : Dbl := y.mul ((Dbl.num 1).div k)

/-- The factor from degrees to radians of boost::units, `6.28318530718/360.`.  Not taken from /repo: Boost's source was not available, the constant is quoted
from memory of boost/units/base_units/angle/degree.hpp and was not checked against any version of it. -/
def degreeFactor : Dbl := (Dbl.round (628318530718 / 100000000000)).div (.num 360)

/-- A spherical_representation or spherical_equatorial_representation made of two angles in units with the factors `k` and `k'` and a distance,
spherical_representation.hpp l.87-95, the same in spherical_equatorial_representation.hpp. -/
def DSph.ofAngles (k k' a b r : Dbl) : DSph := ⟨storeAngle k a, storeAngle k' b, r⟩

/-- A cartesian_representation<double, XQuantity, YQuantity, ZQuantity>, cartesian_representation.hpp l.29-60: the point and the units. -/
structure QVec (U : Type) where
  v : DVec
  u1 : U
  u2 : U
  u3 : U

/-- bu::conversion_factor of two units. -/
abbrev Factors (U : Type) := U → U → Dbl

namespace QVec

variable {U : Type} (F : Factors U)

/-- The three numbers in the unit of the first, as dot (arithmetic.hpp l.266-277), magnitude (l.312-314) and make_spherical_representation
(spherical_representation.hpp l.425-437) put them into a point. -/
def inFirst (a : QVec U) : DVec := ⟨a.v.x, a.v.y.mul (F a.u2 a.u1), a.v.z.mul (F a.u3 a.u1)⟩

/-- make_cartesian_representation<Type, Quantities...>(rep), cartesian_representation.hpp l.277-302, and the constructor from a Cartesian representation with
other units, l.112-142. -/
def changeUnits (a : QVec U) (u1 u2 u3 : U) : QVec U := ⟨⟨a.v.x.mul (F a.u1 u1), a.v.y.mul (F a.u2 u2), a.v.z.mul (F a.u3 u3)⟩, u1, u2, u3⟩

/-- sum, arithmetic.hpp l.374-427; operator+, cartesian_representation.hpp l.206-237. -/
def sum (a b : QVec U) : QVec U :=
  ⟨⟨a.v.x.add (b.v.x.mul (F b.u1 a.u1)), a.v.y.add (b.v.y.mul (F b.u2 a.u2)), a.v.z.add (b.v.z.mul (F b.u3 a.u3))⟩, a.u1, a.u2, a.u3⟩

/-- mean, arithmetic.hpp l.432-477. -/
def mean (a b : QVec U) : QVec U :=
  ⟨⟨(a.v.x.add (b.v.x.mul (F b.u1 a.u1))).div (.num 2), (a.v.y.add (b.v.y.mul (F b.u2 a.u2))).div (.num 2),
    (a.v.z.add (b.v.z.mul (F b.u3 a.u3))).div (.num 2)⟩, a.u1, a.u2, a.u3⟩

/-- dot, arithmetic.hpp l.242-283: the number; its unit is the product of the first units. -/
def dot (a b : QVec U) : Dbl := (a.inFirst F).dot (b.inFirst F)

/-- The numbers of cross, arithmetic.hpp l.41-140; the units of the result are the products of the second unit of `a` and the third of `b`, the third and the
first, the first and the second. -/
def cross (a b : QVec U) : DVec :=
  ⟨(a.v.y.mul b.v.z).sub ((a.v.z.mul (F a.u3 a.u2)).mul (b.v.y.mul (F b.u2 b.u3))),
    (a.v.z.mul b.v.x).sub ((a.v.x.mul (F a.u1 a.u3)).mul (b.v.z.mul (F b.u3 b.u1))),
    (a.v.x.mul b.v.y).sub ((a.v.y.mul (F a.u2 a.u1)).mul (b.v.x.mul (F b.u1 b.u2)))⟩

/-- magnitude, arithmetic.hpp l.294-322: the number; its unit is the first one. -/
def magnitude (a : QVec U) : Dbl := (a.inFirst F).magnitude

end QVec

end Astro
