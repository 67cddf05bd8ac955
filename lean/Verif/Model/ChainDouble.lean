import Verif.Model.RepDouble

/-
Coordinate conversions of angles with coordinate/utility/utility.hpp in IEEE double arithmetic, one after the other: column_vector, prod,
extract_coordinates, and again.
-/

namespace Astro

/-- `std::asin` with its domain: NaN outside of [-1, 1]. -/
def InverseTrig.asinOf (I : InverseTrig) : Dbl → Dbl
  | .num c => if -1 ≤ c ∧ c ≤ 1 then I.asin (.num c) else .nan
  | _ => .nan

/-- extract_coordinates(v).get_coordinates(), utility.hpp l.292-304: the pair (theta, phi). -/
def DVec.extract (I : InverseTrig) (v : DVec) : Dbl × Dbl := (I.atan2 v.y v.x, I.asinOf v.z)

/-- One conversion of a pair of angles: `extract_coordinates(prod(D, column_vector(u, v).get())).get_coordinates()`. -/
def DMat.convert (T : Trig) (I : InverseTrig) (D : DMat) (p : Dbl × Dbl) : Dbl × Dbl := (D.prod (DVec.column T p.1 p.2)).extract I

/-- Conversions one after the other. -/
def DMat.chain (T : Trig) (I : InverseTrig) (l : List DMat) (p : Dbl × Dbl) : Dbl × Dbl := l.foldl (fun p D => D.convert T I p) p

end Astro
