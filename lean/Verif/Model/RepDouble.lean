import Verif.Model.RotDouble
import Verif.Model.Rep

/-
Conversion between Cartesian and angular representations (coordinate/rep/*.hpp) of `double` in IEEE arithmetic: boost::geometry::transform, as written down in
Model/Rep, operation by operation.

The functions of <cmath> are parameters.  Simplified: one unit for all lengths and angles in radians, so that no conversion factor comes in; the sign of
zero is not kept; no fused operations.
-/

namespace Astro

/-- `std::acos`, `std::asin` and `std::atan2` of a C++ library. -/
structure InverseTrig where
  acos : Dbl → Dbl
  asin : Dbl → Dbl
  atan2 : Dbl → Dbl → Dbl

/-- The point of a spherical_representation<double> (spherical_representation.hpp l.57-79) or spherical_equatorial_representation<double>
(spherical_equatorial_representation.hpp l.51-72): get<0>, get<1>, get<2>. -/
structure DSph where
  c0 : Dbl
  c1 : Dbl
  c2 : Dbl
  deriving DecidableEq

/-- bg::transform(angular point, Cartesian point), in the constructor of cartesian_representation from a point, cartesian_representation.hpp l.81-93. -/
def DSph.toCartesian (T : Trig) : Coord.System → DSph → DVec
  | .cartesian, p => ⟨p.c0, p.c1, p.c2⟩
  | .spherical, p => ⟨(p.c2.mul (T.sin p.c1)).mul (T.cos p.c0), (p.c2.mul (T.sin p.c1)).mul (T.sin p.c0), p.c2.mul (T.cos p.c1)⟩
  | .equatorial, p => ⟨(p.c2.mul (T.cos p.c1)).mul (T.cos p.c0), (p.c2.mul (T.cos p.c1)).mul (T.sin p.c0), p.c2.mul (T.sin p.c1)⟩

/-- bg::transform(Cartesian point, angular point), in the constructors of spherical_representation from a point, spherical_representation.hpp l.104-117
(the same in spherical_equatorial_representation.hpp); `old` is what the second coordinate of the target held. -/
def DVec.toAngular (I : InverseTrig) (old : Dbl) : Coord.System → DVec → DSph
  | .cartesian, v => ⟨v.x, v.y, v.z⟩
  | s, v =>
    let r := (((v.x.mul v.x).add (v.y.mul v.y)).add (v.z.mul v.z)).sqrt
    ⟨I.atan2 v.y v.x, if (Dbl.num 0).less r then (if s = .spherical then I.acos (v.z.div r) else I.asin (v.z.div r)) else old, r⟩

/-- The constructors of spherical_representation and spherical_equatorial_representation from a point of system `s`, spherical_representation.hpp
l.104-117: always through a Cartesian point. -/
def DSph.ofPoint (T : Trig) (I : InverseTrig) (junk : Dbl) (target s : Coord.System) (p : DSph) : DSph := (p.toCartesian T s).toAngular I junk target

/-- make_spherical_representation(rep) and make_spherical_equatorial_representation(rep) of a Cartesian representation, spherical_representation.hpp
l.408-445: the result of the conversion goes through the constructor from a point once more. -/
def DVec.makeAngular (T : Trig) (I : InverseTrig) (junk : Dbl) (s : Coord.System) (v : DVec) : DSph := DSph.ofPoint T I junk s s (v.toAngular I (.num 0) s)

/-- make_cartesian_representation(rep) of an angular representation, cartesian_representation.hpp l.361-381. -/
def DSph.makeCartesian (T : Trig) (s : Coord.System) (p : DSph) : DVec := p.toCartesian T s

end Astro
