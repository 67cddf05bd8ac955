import Verif.Model.Rep

/-
coordinate/diff/*.hpp: differentials.

cartesian_differential, spherical_differential and spherical_equatorial_differential have the same fields and member functions as the
representations of the same systems, line by line, and `Rep` is used for them:
  construction from quantities and getters    Rep.ofQuantities, Rep.get    cartesian_differential.hpp l.63-66 and l.137-183,
                                                                           spherical_differential.hpp l.68-77 and l.157-225
  construction from a point                   Rep.ofPoint                  cartesian l.69-85, spherical l.80-99
  conversion constructors                     Rep.convert                  cartesian l.104-134, spherical l.117-154
  operator+                                   Rep.add                      cartesian l.186-228, spherical l.228-256
  make_*_differential                         make, changeUnits            cartesian l.271-436, spherical l.291-472
  operator==                                  Rep.eq                       base_differential.hpp l.127-161
  to_differential                             Rep.toRepresentation         base_differential.hpp l.106-115
(spherical_equatorial_differential.hpp: the same with the other system, on the same lines up to l.288 and on l.290-471 for l.291-472.)
-/

namespace Astro.Coord

/-- operator*, cartesian_differential.hpp l.232-268, spherical_differential.hpp l.259-288 (`temp(this->diff)` is the constructor from a point, which
goes through a Cartesian point), spherical_equatorial_differential.hpp l.259-288. -/
noncomputable def Rep.mul (junk : ℝ) (a : Rep) (k : Quantity) : Rep :=
  match a.sys with
  | .cartesian =>
    let temp := Rep.ofPoint junk a.type a.sys a.pt
    ⟨a.sys, ⟨temp.pt.c0 * k.value, temp.pt.c1 * k.value, temp.pt.c2 * k.value⟩, a.u1 * k.unit, a.u2 * k.unit, a.u3 * k.unit⟩
  | _ =>
    let temp := Rep.ofPoint junk a.type a.sys a.pt
    Rep.ofQuantities ⟨a.sys, a.u1, a.u2, a.u3 * k.unit⟩ ⟨temp.get.c0, temp.get.c1, temp.get.c2 * k.value⟩

/-- base_differential::magnitude, base_differential.hpp l.78-103, for three dimensions: a number without unit. -/
noncomputable def Rep.magnitude (a : Rep) : ℝ := (toCart a.sys a.pt).norm

/-- base_differential::unit_vector, base_differential.hpp l.51-75; `none` when it divides by zero. -/
noncomputable def Rep.unit (junk : ℝ) (t : RepType) (a : Rep) : Option Rep :=
  let mag := a.magnitude
  let p := toCart a.sys a.pt
  if mag = 0 then none else some (Rep.ofPoint junk t .cartesian ⟨p.c0 / mag, p.c1 / mag, p.c2 / mag⟩)

/-- spherical_coslat_differential, spherical_coslat_differential.hpp l.42-66: dlat, dlon·cos(dlat) and ddist; stored in a spherical point. -/
@[ext] structure CosLat where
  pt : Pt
  u1 : ℝ
  u2 : ℝ
  u3 : ℝ

/-- Construction from quantities, spherical_coslat_differential.hpp l.72-80 and l.191-229. -/
noncomputable def CosLat.ofQuantities (u1 u2 u3 : ℝ) (q : Pt) : CosLat := ⟨⟨unitCast u1 1 q.c0, unitCast u2 1 q.c1, q.c2⟩, u1, u2, u3⟩

/-- Getters, spherical_coslat_differential.hpp l.160-188. -/
noncomputable def CosLat.get (a : CosLat) : Pt := ⟨unitCast 1 a.u1 a.pt.c0, unitCast 1 a.u2 a.pt.c1, a.pt.c2⟩

/-- Construction from a point of system `s`, spherical_coslat_differential.hpp l.83-102. -/
noncomputable def CosLat.ofPoint (junk u1 u2 u3 : ℝ) (s : System) (p : Pt) : CosLat := ⟨fromCart junk .spherical (toCart s p), u1, u2, u3⟩

/-- make_spherical_coslat_differential(other) of a differential of another kind, spherical_coslat_differential.hpp l.440-462. -/
noncomputable def CosLat.make (junk : ℝ) (r : Rep) : CosLat :=
  let temp := makeAngular junk .spherical r
  let dlon := temp.get.c1 * Real.cos (unitCast temp.u1 1 temp.get.c0)
  CosLat.ofPoint junk 1 1 temp.u3 .spherical ⟨temp.pt.c0, unitCast temp.u2 1 dlon, temp.pt.c2⟩

/-- make_cartesian_differential(coslat), spherical_coslat_differential.hpp l.466-508; `none` when it divides by zero. -/
noncomputable def CosLat.toCartesian (a : CosLat) : Option Rep :=
  if Real.cos a.pt.c0 = 0 then none
  else some (Rep.ofPoint 0 ⟨.cartesian, a.u3, a.u3, a.u3⟩ .spherical ⟨a.pt.c0, a.pt.c1 / Real.cos a.pt.c0, a.pt.c2⟩)

/-- The conversion constructor, spherical_coslat_differential.hpp l.119-157, for a differential that has been made coslat. -/
noncomputable def CosLat.changeUnits (u1 u2 u3 : ℝ) (a : CosLat) : CosLat :=
  ⟨⟨unitCast a.u1 1 a.get.c0, unitCast a.u2 1 a.get.c1, unitCast a.u3 u3 a.get.c2⟩, u1, u2, u3⟩

/-- make_spherical_coslat_differential<Type, Quantities...>(coslat), spherical_coslat_differential.hpp l.329-364. -/
noncomputable def CosLat.makeUnits (u1 u2 u3 : ℝ) (a : CosLat) : CosLat :=
  CosLat.ofQuantities u1 u2 u3 ⟨unitCast a.u1 u1 a.get.c0, unitCast a.u2 u2 a.get.c1, unitCast a.u3 u3 a.get.c2⟩

/-- operator+ with a differential that is not coslat, spherical_coslat_differential.hpp l.233-261; the stored point is read as spherical. -/
noncomputable def CosLat.add (junk : ℝ) (a : CosLat) (b : Rep) : CosLat :=
  let cartesian1 := Rep.ofPoint 0 ⟨.cartesian, a.u3, a.u3, a.u3⟩ .spherical a.pt
  let temp := addCartesian cartesian1 (makeCartesian b)
  (CosLat.make junk temp).changeUnits a.u1 a.u2 a.u3

/-- operator+ with a coslat differential. -/
noncomputable def CosLat.addCosLat (junk : ℝ) (a b : CosLat) : Option CosLat := b.toCartesian.map (a.add junk)

/-- operator*, spherical_coslat_differential.hpp l.264-293. -/
noncomputable def CosLat.mul (junk : ℝ) (a : CosLat) (k : Quantity) : CosLat :=
  let temp := CosLat.ofPoint junk a.u1 a.u2 a.u3 .spherical a.pt
  CosLat.ofQuantities a.u1 a.u2 (a.u3 * k.unit) ⟨temp.get.c0, temp.get.c1, temp.get.c2 * k.value⟩

end Astro.Coord
