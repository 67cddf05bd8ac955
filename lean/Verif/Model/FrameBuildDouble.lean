import Verif.Model.CosLatDouble
import Verif.Model.QtyDouble

/-
Frames made of representations and differentials (coordinate/ref_frame/*.hpp) of `double` in IEEE arithmetic, with any units.  As in Model/QtyDouble the
conversion factors of boost::units are a parameter, and the factor of two equal units is 1.  The members that are not coordinates (location, equinox and so on)
are not repeated here, see Model/Frame.
-/

namespace Astro

/-- A spherical_representation, spherical_equatorial_representation, spherical_differential, spherical_equatorial_differential or
spherical_coslat_differential with its units: spherical_representation.hpp l.57-79, spherical_coslat_differential.hpp l.36-66 and the like.  The two angles
are kept in radians, the third number in its own unit. -/
structure QSph (U : Type) where
  p : DSph
  u1 : U
  u2 : U
  u3 : U

variable {U : Type} (F : Factors U) (rad : U)

/-- get_lat of an angle kept in radians, static_cast to another unit, and set_lat in the new object: spherical_representation.hpp l.180-199, l.341-343 and
l.220-236; spherical_coslat_differential.hpp l.167-186, l.360-362 and l.206-224. -/
def castAngle (u w : U) (y : Dbl) : Dbl := ((y.mul (F rad u)).mul (F u w)).mul (F w rad)

/-- The same without the last step when the target is a point in radians, spherical_representation.hpp l.160-168, spherical_coslat_differential.hpp
l.146-154. -/
def toRadians (u : U) (y : Dbl) : Dbl := (y.mul (F rad u)).mul (F u rad)

namespace QSph

/-- make_spherical_representation<Type, Quantities...>(spherical), spherical_representation.hpp l.311-345, and
make_spherical_coslat_differential<Type, Quantities...>(coslat), spherical_coslat_differential.hpp l.329-364. -/
def changeUnits (w1 w2 w3 : U) (a : QSph U) : QSph U :=
  ⟨⟨castAngle F rad a.u1 w1 a.p.c0, castAngle F rad a.u2 w2 a.p.c1, a.p.c2.mul (F a.u3 w3)⟩, w1, w2, w3⟩

/-- The conversion constructor of an object that already has the right kind: spherical_representation.hpp l.146-170, spherical_coslat_differential.hpp
l.131-156. -/
def convert (u1 u2 u3 : U) (temp : QSph U) : QSph U :=
  ⟨⟨toRadians F rad temp.u1 temp.p.c0, toRadians F rad temp.u2 temp.p.c1, temp.p.c2.mul (F temp.u3 u3)⟩, u1, u2, u3⟩

/-- make_spherical_representation(other), spherical_representation.hpp l.347-375 (copy) and l.408-445; make_spherical_differential(other),
spherical_differential.hpp l.363-396 and l.436-472.  The result of a conversion has its angles in radians. -/
def makeSpherical (T : Trig) (I : InverseTrig) (junk : Dbl) (s : Coord.System) (a : QSph U) : QSph U :=
  match s with
  | .spherical => a
  | s => ⟨(a.p.toCartesian T s).makeAngular T I junk .spherical, rad, rad, a.u3⟩

/-- make_spherical_coslat_differential(other), spherical_coslat_differential.hpp l.440-462. -/
def makeCosLat (T : Trig) (I : InverseTrig) (junk : Dbl) (s : Coord.System) (a : QSph U) : QSph U :=
  let temp := a.makeSpherical rad T I junk s
  let dlon := (temp.p.c1.mul (F rad temp.u2)).mul (T.cos (toRadians F rad temp.u1 temp.p.c0))
  ⟨DSph.ofPoint T I junk .spherical .spherical ⟨temp.p.c0, dlon.mul (F temp.u2 rad), temp.p.c2⟩, rad, rad, temp.u3⟩

end QSph

/-- An object of a frame class: base_frame.hpp l.34-52. -/
structure QFrame (U : Type) where
  data : QSph U
  motion : QSph U

/-- A differential of any kind that a frame accepts. -/
inductive QMotion (U : Type)
  | coslat (a : QSph U)
  | plain (s : Coord.System) (a : QSph U)

namespace QFrame

/-- The constructor from a representation, base_equatorial_frame.hpp l.45-64 and the like; `f` is the uninitialised object.  All template arguments of
make_spherical_representation are given, so a representation of another kind is first converted to a spherical_representation with its own units. -/
def ofRep (T : Trig) (I : InverseTrig) (junk : Dbl) (f : QFrame U) (s : Coord.System) (a : QSph U) : QFrame U :=
  let b := match s with
    | .spherical => a
    | s => (a.makeSpherical rad T I junk s).convert F rad a.u1 a.u2 a.u3
  { f with data := b.changeUnits F rad f.data.u1 f.data.u2 f.data.u3 }

/-- The constructor from a representation and a differential, base_equatorial_frame.hpp l.94-135, base_ecliptic_frame.hpp l.96-137, alt_az.hpp l.114-154,
galactic.hpp l.91-131, supergalactic.hpp l.91-131: a differential of another kind is first converted to a spherical_coslat_differential with its own units. -/
def ofRepDiff (T : Trig) (I : InverseTrig) (junk : Dbl) (f : QFrame U) (s : Coord.System) (a : QSph U) (d : QMotion U) : QFrame U :=
  let b := match d with
    | .coslat b => b
    | .plain s b => (b.makeCosLat F rad T I junk s).convert F rad b.u1 b.u2 b.u3
  { ofRep F rad T I junk f s a with motion := b.changeUnits F rad f.motion.u1 f.motion.u2 f.motion.u3 }

end QFrame

end Astro
