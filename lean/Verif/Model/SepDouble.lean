import Verif.Model.RepDouble
import Verif.Model.VecDouble

/-
base_frame::get_angular_separation (coordinate/ref_frame/base_frame.hpp) and sky_point::positional_angle (coordinate/sky_point.hpp) for frames of `double`
in IEEE arithmetic.  The same unit for both distances; angles in radians.
-/

namespace Astro

/-- `std::acos` with its domain: NaN outside of [-1, 1]. -/
def InverseTrig.acosOf (I : InverseTrig) : Dbl → Dbl
  | .num c => if -1 ≤ c ∧ c ≤ 1 then I.acos (.num c) else .nan
  | _ => .nan

/-- The argument of `std::acos` in base_frame.hpp l.109-110: dot (arithmetic.hpp l.242-283) over the product of the magnitudes (arithmetic.hpp l.326-331:
the third coordinate). -/
def DSph.cosSeparation (T : Trig) (s : Coord.System) (p q : DSph) : Dbl := ((p.makeCartesian T s).dot (q.makeCartesian T s)).div (p.c2.mul q.c2)

/-- base_frame::get_angular_separation, base_frame.hpp l.106-112, of frames whose data are angular representations of system `s`. -/
def DSph.separation (T : Trig) (I : InverseTrig) (s : Coord.System) (p q : DSph) : Dbl := I.acosOf (p.cosSeparation T s q)

/-- `diff` in sky_point.hpp l.120, of frames with spherical data, for which make_spherical_representation is a copy (spherical_representation.hpp
l.347-372). -/
def DSph.lonDiff (p q : DSph) : Dbl := q.c1.sub p.c1

/-- `x` in sky_point.hpp l.131-132. -/
def DSph.bearingX (T : Trig) (p q : DSph) : Dbl :=
  ((T.sin q.c0).mul (T.cos p.c0)).sub (((T.cos q.c0).mul (T.sin p.c0)).mul (T.cos (p.lonDiff q)))

/-- `y` in sky_point.hpp l.133. -/
def DSph.bearingY (T : Trig) (p q : DSph) : Dbl := (T.sin (p.lonDiff q)).mul (T.cos q.c0)

/-- sky_point::positional_angle, sky_point.hpp l.114-136. -/
def DSph.positionalAngle (T : Trig) (I : InverseTrig) (p q : DSph) : Dbl := I.atan2 (p.bearingY T q) (p.bearingX T q)

end Astro
