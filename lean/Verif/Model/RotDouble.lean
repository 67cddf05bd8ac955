import Verif.Model.VecDouble

/-
coordinate/utility/utility.hpp in IEEE double arithmetic: direction vectors, rotation matrices, their product and the latitude of the result.

`std::sin` and `std::cos` are parameters, because the C++ standard says nothing about their accuracy.  Angles are in radians.  The sign of zero is not
kept, so the longitude (`atan2`) is only determined up to a full turn.  No fused multiply-add is used.
-/

namespace Astro

/-- `std::sin` and `std::cos` of a C++ library. -/
structure Trig where
  sin : Dbl → Dbl
  cos : Dbl → Dbl

/-- A 3×3 matrix of doubles, by rows. -/
structure DMat where
  r0 : DVec
  r1 : DVec
  r2 : DVec

namespace DMat

/-- One element of `prod` of boost::numeric::ublas: `t = 0; t += m(i,j) * v(j)` for j = 0, 1, 2. -/
def row (r v : DVec) : Dbl := (((Dbl.num 0).add (r.x.mul v.x)).add (r.y.mul v.y)).add (r.z.mul v.z)

/-- `prod(m, v)`. -/
def prod (m : DMat) (v : DVec) : DVec := ⟨row m.r0 v, row m.r1 v, row m.r2 v⟩

/-- ha_dec_horizon(phi), utility.hpp l.91-103. -/
def haDecHorizon (T : Trig) (phi : Dbl) : DMat :=
  ⟨⟨(T.sin phi).neg, .num 0, T.cos phi⟩, ⟨.num 0, .num (-1), .num 0⟩, ⟨T.cos phi, .num 0, T.sin phi⟩⟩

/-- ha_dec_ra_dec(ST), utility.hpp l.127-139. -/
def haDecRaDec (T : Trig) (st : Dbl) : DMat :=
  ⟨⟨T.cos st, T.sin st, .num 0⟩, ⟨T.sin st, (T.cos st).neg, .num 0⟩, ⟨.num 0, .num 0, .num 1⟩⟩

/-- ecliptic_to_ra_dec(obliquity), utility.hpp l.163-175. -/
def eclipticToRaDec (T : Trig) (e : Dbl) : DMat :=
  ⟨⟨.num 1, .num 0, .num 0⟩, ⟨.num 0, T.cos e, (T.sin e).neg⟩, ⟨.num 0, T.sin e, T.cos e⟩⟩

/-- ra_dec_to_ecliptic(obliquity), utility.hpp l.199-211. -/
def raDecToEcliptic (T : Trig) (e : Dbl) : DMat :=
  ⟨⟨.num 1, .num 0, .num 0⟩, ⟨.num 0, T.cos e, T.sin e⟩, ⟨.num 0, (T.sin e).neg, T.cos e⟩⟩

/-- galactic_to_ra_dec(), utility.hpp l.229-239; the compiler rounds the decimal numbers. -/
def galacticToRaDec : DMat :=
  ⟨⟨(Dbl.round 0.0669887).neg, .round 0.8727558, (Dbl.round 0.4835389).neg⟩,
   ⟨(Dbl.round 0.4927285).neg, (Dbl.round 0.4503470).neg, (Dbl.round 0.7445846).neg⟩,
   ⟨(Dbl.round 0.8676008).neg, .round 0.1883746, .round 0.4601998⟩⟩

/-- ra_dec_to_galactic(), utility.hpp l.257-268. -/
def raDecToGalactic : DMat :=
  ⟨⟨(Dbl.round 0.0669887).neg, (Dbl.round 0.8727558).neg, (Dbl.round 0.4835389).neg⟩,
   ⟨.round 0.4927285, (Dbl.round 0.4503470).neg, .round 0.7445846⟩,
   ⟨(Dbl.round 0.8676008).neg, (Dbl.round 0.1883746).neg, .round 0.4601998⟩⟩

end DMat

/-- column_vector(u, v), utility.hpp l.60-67. -/
def DVec.column (T : Trig) (u v : Dbl) : DVec := ⟨(T.cos u).mul (T.cos v), (T.sin u).mul (T.cos v), T.sin v⟩

/-- extract_coordinates, utility.hpp l.292-300: the number whose arc sine is the latitude; nothing when `asin` gives NaN. -/
def DVec.latitude (v : DVec) : Option ℚ :=
  match v.z with
  | .num p => if -1 ≤ p ∧ p ≤ 1 then some p else none
  | _ => none

/-- extract_coordinates, utility.hpp l.292-299: the numbers `m`, `n` with which the longitude is `atan2(n, m)`; nothing unless both are finite. -/
def DVec.longitude (v : DVec) : Option (ℚ × ℚ) :=
  match v.x, v.y with
  | .num m, .num n => some (m, n)
  | _, _ => none

end Astro
