import Verif.Model.AngDouble

/-
coordinate/diff/*.hpp: differentials of `double` in IEEE arithmetic.  The points of cartesian_differential, spherical_differential and
spherical_equatorial_differential are those of the representations (Model/Diff), so `DSph` is used for them, with the system as an argument.

Simplified as in Model/RepDouble and Model/VecDouble: one unit for all lengths, angles in radians, `std::pow(x, 2)` is the product `x * x` rounded once, the
sign of zero is not kept, no fused operations.  `junk` is what the uninitialised point of a new object holds.
-/

namespace Astro.DSph

/-- operator*, cartesian_differential.hpp l.232-268 and spherical_differential.hpp l.259-288 (the same in spherical_equatorial_differential.hpp):
`temp(this->diff)` is the constructor from a point, which goes through a Cartesian point. -/
def times (T : Trig) (I : InverseTrig) (junk : Dbl) (s : Coord.System) (p : DSph) (k : Dbl) : DSph :=
  let temp := DSph.ofPoint T I junk s s p
  match s with
  | .cartesian => ⟨temp.c0.mul k, temp.c1.mul k, temp.c2.mul k⟩
  | _ => ⟨temp.c0, temp.c1, temp.c2.mul k⟩

/-- base_differential::magnitude, base_differential.hpp l.78-103, for three dimensions. -/
def diffMagnitude (T : Trig) (s : Coord.System) (p : DSph) : Dbl :=
  let tempPoint := p.toCartesian T s
  let result := Dbl.num 0
  let result := result.add (tempPoint.x.mul tempPoint.x)
  let result := result.add (tempPoint.y.mul tempPoint.y)
  let result := result.add (tempPoint.z.mul tempPoint.z)
  result.sqrt

/-- base_differential::unit_vector, base_differential.hpp l.51-75, with a result of system `target`. -/
def diffUnit (T : Trig) (I : InverseTrig) (junk : Dbl) (target s : Coord.System) (p : DSph) : DSph :=
  let mag := p.diffMagnitude T s
  let tempPoint := p.toCartesian T s
  DSph.ofPoint T I junk target .cartesian ⟨tempPoint.x.div mag, tempPoint.y.div mag, tempPoint.z.div mag⟩

/-- make_cartesian_differential of a coslat differential, spherical_coslat_differential.hpp l.466-508. -/
def cosLatCartesian (T : Trig) (p : DSph) : DVec := DSph.toCartesian T .spherical ⟨p.c0, p.c1.div (T.cos p.c0), p.c2⟩

end Astro.DSph
