import Verif.Model.AngDouble
import Verif.Model.FrameBuildDouble

/-
Sums and products of representations and differentials (coordinate/arithmetic.hpp, coordinate/rep/*.hpp, coordinate/diff/*.hpp) of `double` in IEEE arithmetic
whose operands have different units.  As in Model/QtyDouble the conversion factors of boost::units are a parameter, and the factor of two equal units is 1.

`QSph` with the system `cartesian` is a Cartesian representation or differential: three numbers, each in its own unit.  Coslat differentials are in Model/CosLatSum.
Simplified as in Model/RepDouble and Model/VecDouble.  `junk` is what the uninitialised point of a new object holds.
-/

namespace Astro.QSph

variable {U : Type} (F : Factors U) (rad : U)

/-- make_cartesian_representation(other), cartesian_representation.hpp l.307-326 (copy) and l.360-381; make_cartesian_differential(other),
cartesian_differential.hpp l.342-375 (copy) and l.414-435: all three quantities of a converted object have the unit of the distance. -/
def cartesian (T : Trig) (s : Coord.System) (a : QSph U) : QVec U :=
  match s with
  | .cartesian => ⟨a.p.toCartesian T .cartesian, a.u1, a.u2, a.u3⟩
  | s => ⟨a.p.toCartesian T s, a.u3, a.u3, a.u3⟩

/-- sum, arithmetic.hpp l.372-427: the numbers of the second operand are converted to the units of the first. -/
def sum (T : Trig) (I : InverseTrig) (junk : Dbl) (s s' : Coord.System) (a b : QSph U) : QSph U :=
  ⟨((a.cartesian T s).sum F (b.cartesian T s')).v.toAngular I junk s, a.u1, a.u2, a.u3⟩

/-- operator+, spherical_representation.hpp l.244-271 and spherical_differential.hpp l.228-256 (the same in the equatorial classes): the sum goes through
make_spherical_representation, which converts it twice and has angles in radians, and the conversion constructor.  operator+ of the Cartesian classes,
cartesian_representation.hpp l.194-237 and cartesian_differential.hpp l.185-228, has no conversion. -/
def plus (T : Trig) (I : InverseTrig) (junk : Dbl) (s s' : Coord.System) (a b : QSph U) : QSph U :=
  let temp := (a.cartesian T s).sum F (b.cartesian T s')
  match s with
  | .cartesian => ⟨⟨temp.v.x, temp.v.y, temp.v.z⟩, a.u1, a.u2, a.u3⟩
  | s => convert F rad a.u1 a.u2 a.u3 ⟨temp.v.makeAngular T I junk s, rad, rad, temp.u1⟩

/-- operator* of an angular differential, spherical_differential.hpp l.258-288 (the same in spherical_equatorial_differential.hpp): `temp(this->diff)` is the
constructor from a point; the angles are read in their units and stored in radians again.  `k` is the number of the factor and `w` the unit of the product,
the product of the units. -/
def times (T : Trig) (I : InverseTrig) (junk : Dbl) (s : Coord.System) (a : QSph U) (k : Dbl) (w : U) : QSph U :=
  let temp := DSph.ofPoint T I junk s s a.p
  ⟨⟨toRadians F rad a.u1 temp.c0, toRadians F rad a.u2 temp.c1, temp.c2.mul k⟩, a.u1, a.u2, w⟩

end Astro.QSph
