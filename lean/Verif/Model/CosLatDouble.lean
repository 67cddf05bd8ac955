import Verif.Model.DiffDouble

/-
spherical_coslat_differential of `double` in IEEE arithmetic: construction from other differentials and arithmetic.  Simplified as in Model/DiffDouble.
-/

namespace Astro.DSph

/-- make_spherical_differential(other), spherical_differential.hpp l.363-396 (copy) and l.436-472. -/
def makeSpherical (T : Trig) (I : InverseTrig) (junk : Dbl) (s : Coord.System) (p : DSph) : DSph :=
  match s with
  | .spherical => p
  | s => (p.toCartesian T s).makeAngular T I junk .spherical

/-- make_spherical_coslat_differential(other) of a differential of another kind, spherical_coslat_differential.hpp l.440-462. -/
def cosLatMake (T : Trig) (I : InverseTrig) (junk : Dbl) (s : Coord.System) (p : DSph) : DSph :=
  let temp := p.makeSpherical T I junk s
  let temp : DSph := ⟨temp.c0, temp.c1.mul (T.cos temp.c0), temp.c2⟩
  DSph.ofPoint T I junk .spherical .spherical temp

/-- operator+ with a differential that is not coslat, spherical_coslat_differential.hpp l.233-261: the stored point of the first operand is read as spherical. -/
def cosLatPlus (T : Trig) (I : InverseTrig) (junk : Dbl) (s : Coord.System) (p q : DSph) : DSph :=
  let cartesian1 := p.toCartesian T .spherical
  let cartesian2 := q.toCartesian T s
  let temp := cartesian1.sum cartesian2
  cosLatMake T I junk .cartesian ⟨temp.x, temp.y, temp.z⟩

/-- operator*, spherical_coslat_differential.hpp l.264-293. -/
def cosLatTimes (T : Trig) (I : InverseTrig) (junk : Dbl) (p : DSph) (k : Dbl) : DSph :=
  let temp := DSph.ofPoint T I junk .spherical .spherical p
  ⟨temp.c0, temp.c1, temp.c2.mul k⟩

end Astro.DSph
