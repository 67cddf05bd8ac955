import Verif.Model.Rotation

/-
coordinate/rep/*.hpp and coordinate/arithmetic.hpp: representations of vectors and their arithmetic.

A unit is a positive scale factor to a fixed base unit; `quantity::value()` is the number, a cast from unit `a` to unit `b` multiplies by `a / b`
(boost::units::conversion_factor).  `double` is ℝ.  The template arguments of a class (coordinate system and units) are fields of `Rep`.

boost::geometry::transform is trusted to be:
  spherical -> cartesian:   x = r sin θ cos φ, y = r sin θ sin φ, z = r cos θ
  equatorial -> cartesian:  x = r cos δ cos α, y = r cos δ sin α, z = r sin δ
  cartesian -> spherical:   r = sqrt(x² + y² + z²), φ = atan2(y, x), θ = acos(z / r) (equatorial: δ = asin(z / r)), but the second coordinate
                            is not written when r = 0; it keeps what the target point held (`old`), which is indeterminate for a point that
                            has not been initialised.
-/

namespace Astro.Coord

/-- boost::geometry::cs::cartesian, cs::spherical<radian>, cs::spherical_equatorial<radian>. -/
inductive System
  | cartesian
  | spherical
  | equatorial
  deriving DecidableEq

/-- boost::geometry::model::point: get<0>, get<1>, get<2>. -/
@[ext] structure Pt where
  c0 : ℝ
  c1 : ℝ
  c2 : ℝ

/-- bg::transform(p, cartesian point), the source in system `s`. -/
noncomputable def toCart : System → Pt → Pt
  | .cartesian, p => p
  | .spherical, p => ⟨p.c2 * Real.sin p.c1 * Real.cos p.c0, p.c2 * Real.sin p.c1 * Real.sin p.c0, p.c2 * Real.cos p.c1⟩
  | .equatorial, p => ⟨p.c2 * Real.cos p.c1 * Real.cos p.c0, p.c2 * Real.cos p.c1 * Real.sin p.c0, p.c2 * Real.sin p.c1⟩

/-- The length of a Cartesian point. -/
noncomputable def Pt.norm (p : Pt) : ℝ := Real.sqrt (p.c0 * p.c0 + p.c1 * p.c1 + p.c2 * p.c2)

/-- bg::transform(cartesian point, target) with the target in system `s`; `old` is the second coordinate the target held before.
|z / r| ≤ 1 holds here, so the total `arccos` and `arcsin` are std::acos and std::asin. -/
noncomputable def fromCart (old : ℝ) : System → Pt → Pt
  | .cartesian, p => p
  | .spherical, p => ⟨atan2 p.c1 p.c0, if 0 < p.norm then Real.arccos (p.c2 / p.norm) else old, p.norm⟩
  | .equatorial, p => ⟨atan2 p.c1 p.c0, if 0 < p.norm then Real.arcsin (p.c2 / p.norm) else old, p.norm⟩

/-- cartesian_representation, spherical_representation and spherical_equatorial_representation with the units of their three quantities:
base_representation.hpp l.36-46, cartesian_representation.hpp l.29-60, spherical_representation.hpp l.57-79,
spherical_equatorial_representation.hpp l.51-72.  Angles are stored in radians whatever their unit is. -/
@[ext] structure Rep where
  sys : System
  pt : Pt
  u1 : ℝ
  u2 : ℝ
  u3 : ℝ

/-- The static type of a representation: coordinate system and units. -/
structure RepType where
  sys : System
  u1 : ℝ
  u2 : ℝ
  u3 : ℝ

def Rep.type (r : Rep) : RepType := ⟨r.sys, r.u1, r.u2, r.u3⟩

/-- static_cast of a quantity from unit `a` to unit `b`. -/
noncomputable def unitCast (a b v : ℝ) : ℝ := v * (a / b)

/-- The numbers the getters return: get_x, get_y, get_z (cartesian_representation.hpp l.151-166) and get_lat, get_lon, get_dist
(spherical_representation.hpp l.180-203, spherical_equatorial_representation.hpp l.174-197), each in the unit of its quantity.  The radian is 1. -/
noncomputable def Rep.get (r : Rep) : Pt :=
  match r.sys with
  | .cartesian => r.pt
  | _ => ⟨unitCast 1 r.u1 r.pt.c0, unitCast 1 r.u2 r.pt.c1, r.pt.c2⟩

/-- Construction from three quantities: cartesian_representation.hpp l.68-71 and l.169-192, spherical_representation.hpp l.87-95 and l.206-242,
spherical_equatorial_representation.hpp l.80-88 and l.200-236. -/
noncomputable def Rep.ofQuantities (t : RepType) (q : Pt) : Rep :=
  match t.sys with
  | .cartesian => ⟨t.sys, q, t.u1, t.u2, t.u3⟩
  | _ => ⟨t.sys, ⟨unitCast t.u1 1 q.c0, unitCast t.u2 1 q.c1, q.c2⟩, t.u1, t.u2, t.u3⟩

/-- Construction from a point of system `s`: cartesian_representation.hpp l.81-93, spherical_representation.hpp l.104-117 (through a Cartesian
point), spherical_equatorial_representation.hpp l.97-110.  `junk` is what the uninitialised point holds. -/
noncomputable def Rep.ofPoint (junk : ℝ) (t : RepType) (s : System) (p : Pt) : Rep :=
  ⟨t.sys, fromCart junk t.sys (toCart s p), t.u1, t.u2, t.u3⟩

/-- to_representation, base_representation.hpp l.54-63. -/
noncomputable def Rep.toRepresentation (junk : ℝ) (t : RepType) (r : Rep) : Rep := Rep.ofPoint junk t r.sys r.pt

/-- make_cartesian_representation(rep), cartesian_representation.hpp l.305-324 (copy) and l.361-381. -/
noncomputable def makeCartesian (r : Rep) : Rep :=
  match r.sys with
  | .cartesian => r
  | _ => Rep.ofPoint 0 ⟨.cartesian, r.u3, r.u3, r.u3⟩ r.sys r.pt

/-- make_spherical_representation(rep), spherical_representation.hpp l.347-372 (copy) and l.408-445; make_spherical_equatorial_representation
is the same with the other system, spherical_equatorial_representation.hpp l.342-375 and l.414-451; `s` is the system. -/
noncomputable def makeAngular (junk : ℝ) (s : System) (r : Rep) : Rep :=
  if r.sys = s then r
  else
    let temp := makeCartesian r
    let tempPoint : Pt := ⟨temp.pt.c0, unitCast temp.u2 temp.u1 temp.pt.c1, unitCast temp.u3 temp.u1 temp.pt.c2⟩
    let result := fromCart 0 s tempPoint
    Rep.ofPoint junk ⟨s, 1, 1, temp.u1⟩ s result

/-- make_*_representation(rep) of the three systems. -/
noncomputable def make (junk : ℝ) (s : System) (r : Rep) : Rep :=
  match s with
  | .cartesian => makeCartesian r
  | s => makeAngular junk s r

/-- make_*_representation<Type, Quantities...>(rep) of a representation of the same system: cartesian_representation.hpp l.277-302,
spherical_representation.hpp l.311-345, spherical_equatorial_representation.hpp l.306-340. -/
noncomputable def changeUnits (t : RepType) (r : Rep) : Rep :=
  let g := r.get
  Rep.ofQuantities t ⟨unitCast r.u1 t.u1 g.c0, unitCast r.u2 t.u2 g.c1, unitCast r.u3 t.u3 g.c2⟩

/-- Conversion constructors: cartesian_representation.hpp l.112-142, spherical_representation.hpp l.134-171,
spherical_equatorial_representation.hpp l.128-166.  The angles go through the unit of `tempRep` back to radians. -/
noncomputable def Rep.convert (junk : ℝ) (t : RepType) (r : Rep) : Rep :=
  let temp := make junk t.sys r
  let g := temp.get
  match t.sys with
  | .cartesian => ⟨t.sys, ⟨unitCast temp.u1 t.u1 g.c0, unitCast temp.u2 t.u2 g.c1, unitCast temp.u3 t.u3 g.c2⟩, t.u1, t.u2, t.u3⟩
  | _ => ⟨t.sys, ⟨unitCast temp.u1 1 g.c0, unitCast temp.u2 1 g.c1, unitCast temp.u3 t.u3 g.c2⟩, t.u1, t.u2, t.u3⟩

/-- operator==, base_representation.hpp l.76-104. -/
def Rep.eq (a b : Rep) : Prop :=
  let p := toCart a.sys a.pt
  let q := toCart b.sys b.pt
  p.c0 = q.c0 ∧ p.c1 = q.c1 ∧ p.c2 = q.c2

/-- cartesian_representation::operator+, cartesian_representation.hpp l.206-237. -/
noncomputable def addCartesian (a b : Rep) : Rep :=
  let cartesian := makeCartesian b
  ⟨.cartesian,
    ⟨a.pt.c0 + unitCast cartesian.u1 a.u1 cartesian.pt.c0, a.pt.c1 + unitCast cartesian.u2 a.u2 cartesian.pt.c1,
      a.pt.c2 + unitCast cartesian.u3 a.u3 cartesian.pt.c2⟩, a.u1, a.u2, a.u3⟩

/-- operator+: cartesian_representation.hpp l.206-237, spherical_representation.hpp l.244-271,
spherical_equatorial_representation.hpp l.239-265. -/
noncomputable def Rep.add (junk : ℝ) (a b : Rep) : Rep :=
  match a.sys with
  | .cartesian => addCartesian a b
  | _ =>
    let cartesian1 := Rep.ofPoint 0 ⟨.cartesian, a.u3, a.u3, a.u3⟩ a.sys a.pt
    let temp := addCartesian cartesian1 (makeCartesian b)
    Rep.convert junk a.type (make junk a.sys temp)

/-- sum, arithmetic.hpp l.374-427. -/
noncomputable def sum (junk : ℝ) (a b : Rep) : Rep :=
  let c1 := makeCartesian a
  let c2 := makeCartesian b
  Rep.ofPoint junk a.type .cartesian
    ⟨c1.pt.c0 + unitCast c2.u1 c1.u1 c2.pt.c0, c1.pt.c1 + unitCast c2.u2 c1.u2 c2.pt.c1, c1.pt.c2 + unitCast c2.u3 c1.u3 c2.pt.c2⟩

/-- mean, arithmetic.hpp l.432-477. -/
noncomputable def mean (junk : ℝ) (a b : Rep) : Rep :=
  let c1 := makeCartesian a
  let c2 := makeCartesian b
  Rep.ofPoint junk a.type .cartesian
    ⟨(c1.pt.c0 + unitCast c2.u1 c1.u1 c2.pt.c0) / 2, (c1.pt.c1 + unitCast c2.u2 c1.u2 c2.pt.c1) / 2,
      (c1.pt.c2 + unitCast c2.u3 c1.u3 c2.pt.c2) / 2⟩

/-- A number with its unit. -/
structure Quantity where
  value : ℝ
  unit : ℝ

/-- dot, arithmetic.hpp l.242-283. -/
noncomputable def dot (a b : Rep) : Quantity :=
  let c1 := makeCartesian a
  let c2 := makeCartesian b
  let p1 : Pt := ⟨c1.pt.c0, unitCast c1.u2 c1.u1 c1.pt.c1, unitCast c1.u3 c1.u1 c1.pt.c2⟩
  let p2 : Pt := ⟨c2.pt.c0, unitCast c2.u2 c2.u1 c2.pt.c1, unitCast c2.u3 c2.u1 c2.pt.c2⟩
  ⟨p1.c0 * p2.c0 + p1.c1 * p2.c1 + p1.c2 * p2.c2, c1.u1 * c2.u1⟩

/-- cross with a Cartesian first argument, arithmetic.hpp l.41-140; `unitCast a b` multiplies by conversion_factor(a, b). -/
noncomputable def crossCartesian (a b : Rep) : Rep :=
  let c2 := makeCartesian b
  let p1 := toCart a.sys a.pt
  let p2 := toCart b.sys b.pt
  ⟨.cartesian,
    ⟨p1.c1 * p2.c2 - unitCast a.u3 a.u2 p1.c2 * unitCast c2.u2 c2.u3 p2.c1,
      p1.c2 * p2.c0 - unitCast a.u1 a.u3 p1.c0 * unitCast c2.u3 c2.u1 p2.c2,
      p1.c0 * p2.c1 - unitCast a.u2 a.u1 p1.c1 * unitCast c2.u1 c2.u2 p2.c0⟩,
    a.u2 * c2.u3, a.u3 * c2.u1, a.u1 * c2.u2⟩

/-- cross, arithmetic.hpp l.41-140 and l.150-237. -/
noncomputable def cross (junk : ℝ) (a b : Rep) : Rep :=
  match a.sys with
  | .cartesian => crossCartesian a b
  | _ =>
    let c1 := makeCartesian a
    let c2 := makeCartesian b
    let p1 := c1.pt
    let p2 : Pt := ⟨unitCast c2.u1 c2.u1 c2.pt.c0, unitCast c2.u2 c2.u1 c2.pt.c1, unitCast c2.u3 c2.u1 c2.pt.c2⟩
    Rep.ofPoint junk ⟨a.sys, a.u1, a.u2, c1.u1 * c2.u1⟩ .cartesian
      ⟨p1.c1 * p2.c2 - p1.c2 * p2.c1, p1.c2 * p2.c0 - p1.c0 * p2.c2, p1.c0 * p2.c1 - p1.c1 * p2.c0⟩

/-- magnitude, arithmetic.hpp l.294-322 (Cartesian) and l.327-330. -/
noncomputable def magnitude (a : Rep) : Quantity :=
  match a.sys with
  | .cartesian => ⟨Pt.norm ⟨a.pt.c0, unitCast a.u2 a.u1 a.pt.c1, unitCast a.u3 a.u1 a.pt.c2⟩, a.u1⟩
  | _ => ⟨a.pt.c2, a.u3⟩

/-- unit_vector, arithmetic.hpp l.336-356 (Cartesian; `none` when it divides by zero) and l.360-369. -/
noncomputable def unitVector (a : Rep) : Option Rep :=
  match a.sys with
  | .cartesian =>
    let mag := magnitude a
    if mag.value = 0 then none
    else some ⟨a.sys, ⟨a.pt.c0 / mag.value, a.pt.c1 / unitCast mag.unit a.u2 mag.value, a.pt.c2 / unitCast mag.unit a.u3 mag.value⟩, a.u1, a.u2, a.u3⟩
  | _ => some (Rep.ofQuantities a.type ⟨a.get.c0, a.get.c1, 1⟩)

end Astro.Coord
