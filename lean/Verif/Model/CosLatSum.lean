import Verif.Model.MixedSum

/-
Sums and products of coslat differentials (coordinate/diff/spherical_coslat_differential.hpp) of `double` in IEEE arithmetic whose operands have different units.
As in Model/MixedSum the conversion factors of boost::units are a parameter.
-/

namespace Astro

variable {U : Type} (F : Factors U) (rad : U)

/-- make_cartesian_differential(addend): cartesian_differential.hpp l.342-375 and l.414-435; of a coslat differential spherical_coslat_differential.hpp l.464-506. -/
def QMotion.cartesian (T : Trig) : QMotion U → QVec U
  | .plain s b => b.cartesian T s
  | .coslat b => ⟨b.p.cosLatCartesian T, b.u3, b.u3, b.u3⟩

/-- operator+, spherical_coslat_differential.hpp l.233-261: the stored point of the first operand is read as spherical, with the unit of its length for all three
quantities; the sum is converted by make_spherical_coslat_differential, l.440-462, and the conversion constructor, l.131-156. -/
def QSph.cosLatPlus (T : Trig) (I : InverseTrig) (junk : Dbl) (a : QSph U) (addend : QMotion U) : QSph U :=
  let cartesian1 := a.cartesian T .spherical
  let cartesian2 := addend.cartesian T
  let temp := cartesian1.sum F cartesian2
  ((⟨⟨temp.v.x, temp.v.y, temp.v.z⟩, temp.u1, temp.u2, temp.u3⟩ : QSph U).makeCosLat F rad T I junk .cartesian).convert F rad a.u1 a.u2 a.u3

/-- operator*, spherical_coslat_differential.hpp l.264-293; `k` is the number of the factor and `w` the product of the units. -/
def QSph.cosLatTimes (T : Trig) (I : InverseTrig) (junk : Dbl) (a : QSph U) (k : Dbl) (w : U) : QSph U :=
  let temp := DSph.ofPoint T I junk .spherical .spherical a.p
  ⟨⟨toRadians F rad a.u1 temp.c0, toRadians F rad a.u2 temp.c1, temp.c2.mul k⟩, a.u1, a.u2, w⟩

end Astro
