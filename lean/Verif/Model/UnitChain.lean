import Verif.Model.ChainDouble
import Verif.Model.QtyDouble

/-
Coordinate conversions with coordinate/utility/utility.hpp in IEEE double arithmetic when the angles are quantities in degrees or other units.  Simplified as in
Model/RotDouble, Model/ChainDouble and Model/QtyDouble; the two angles of a column_vector, which have one type in the code, may have different units here.
-/

namespace Astro

/-- A quantity: the factor of its unit to radians, and its number. -/
structure DAngle where
  k : Dbl
  x : Dbl

/-- `static_cast<bu::quantity<bu::si::plane_angle>>(angle).value()`, utility.hpp l.61, 62, 92, 128, 164, 200. -/
def DAngle.radians (a : DAngle) : Dbl := storeAngle a.k a.x

/-- The structs of utility.hpp that are built from an angle. -/
inductive Conversion where
  | horizon
  | hourAngle
  | fromEcliptic
  | toEcliptic

/-- ha_dec_horizon(angle), ha_dec_ra_dec(angle), ecliptic_to_ra_dec(angle), ra_dec_to_ecliptic(angle), utility.hpp l.91-103, 127-139, 163-175, 199-211. -/
def Conversion.matrix (T : Trig) (c : Conversion) (a : DAngle) : DMat :=
  match c with
  | .horizon => DMat.haDecHorizon T a.radians
  | .hourAngle => DMat.haDecRaDec T a.radians
  | .fromEcliptic => DMat.eclipticToRaDec T a.radians
  | .toEcliptic => DMat.raDecToEcliptic T a.radians

/-- `column_vector(u, v)`, utility.hpp l.60-67, and conversions one after the other; between two of them the angles are in radians. -/
def Conversion.chain (T : Trig) (I : InverseTrig) (steps : List (Conversion × DAngle)) (u v : DAngle) : Dbl × Dbl :=
  DMat.chain T I (steps.map fun s => s.1.matrix T s.2) (u.radians, v.radians)

end Astro
