import Verif.Model.RepDouble

/-
coordinate/arithmetic.hpp on angular representations of `double` in IEEE arithmetic.  Every operation converts to Cartesian coordinates, and the
result back to the system of the first operand.  A Cartesian operand (system `cartesian`) is left as it is by both conversions.

Simplified as in Model/RepDouble and Model/VecDouble: one unit for all lengths, angles in radians.  `junk` is what the uninitialised point of the result
holds.
-/

namespace Astro.DSph

/-- sum, arithmetic.hpp l.374-427. -/
def sum (T : Trig) (I : InverseTrig) (junk : Dbl) (s s' : Coord.System) (p q : DSph) : DSph :=
  ((p.toCartesian T s).sum (q.toCartesian T s')).toAngular I junk s

/-- mean, arithmetic.hpp l.432-477. -/
def mean (T : Trig) (I : InverseTrig) (junk : Dbl) (s s' : Coord.System) (p q : DSph) : DSph :=
  ((p.toCartesian T s).mean (q.toCartesian T s')).toAngular I junk s

/-- cross, arithmetic.hpp l.41-140 and l.150-237. -/
def cross (T : Trig) (I : InverseTrig) (junk : Dbl) (s s' : Coord.System) (p q : DSph) : DSph :=
  ((p.toCartesian T s).cross (q.toCartesian T s')).toAngular I junk s

/-- dot, arithmetic.hpp l.242-283. -/
def dot (T : Trig) (s s' : Coord.System) (p q : DSph) : Dbl := (p.toCartesian T s).dot (q.toCartesian T s')

/-- operator+ of an angular representation, spherical_representation.hpp l.244-271, the same in spherical_equatorial_representation.hpp: the sum of the
Cartesian representations goes through make_spherical_representation, which converts it twice. -/
def plus (T : Trig) (I : InverseTrig) (junk : Dbl) (s s' : Coord.System) (p q : DSph) : DSph :=
  ((p.toCartesian T s).sum (q.toCartesian T s')).makeAngular T I junk s

end Astro.DSph
