import Verif.Model.Basic
import Verif.Model.Float
import Verif.Model.Frame
import Verif.Model.Time

/-
The stream output operators: coordinate/io/io.hpp, coordinate/coord_sys/*_coord.hpp, time/parser.hpp.
-/

namespace Astro

namespace Coord

/-- How boost::units and the stream print a quantity (number, blank, symbol of the unit; not modelled further): the text of the number `v` with the unit
`u`. -/
abbrev ShowQuantity := ℝ → ℝ → Str

/-- operator<< of the three representations: io.hpp l.25-41, l.44-60 and l.63-79. -/
noncomputable def Rep.print (q : ShowQuantity) (r : Rep) : Str :=
  (match r.sys with
    | .cartesian => b!"Cartesian Representation ( "
    | .equatorial => b!"Spherical Equatorial Representation ( "
    | .spherical => b!"Spherical Representation ( ") ++
  q r.get.c0 r.u1 ++ b!" , " ++ q r.get.c1 r.u2 ++ b!" , " ++ q r.get.c2 r.u3 ++ b!" )"

/-- The classes of `TwoAngle`. -/
inductive TwoAngleKind
  | horizon
  | galactic
  | ecliptic
  | equatorialRa
  | equatorialHa
  deriving DecidableEq

/-- operator<< of horizon_coord (horizon_coord.hpp l.165-177), galactic_coord (galactic_coord.hpp l.175-187), ecliptic_coord (ecliptic_coord.hpp
l.176-188), equatorial_ra_coord (equatorial_ra_coord.hpp l.172-184) and equatorial_ha_coord (equatorial_ha_coord.hpp l.174-186). -/
noncomputable def TwoAngle.print (q : ShowQuantity) (k : TwoAngleKind) (p : TwoAngle) : Str :=
  match k with
  | .horizon => b!"Horizon Coordinate (Altitude: " ++ q p.get0 p.u1 ++ b!", Azimuth: " ++ q p.get1 p.u2 ++ b!")"
  | .galactic => b!"Galactic Coordinate (Galactic Latitude: " ++ q p.get0 p.u1 ++ b!", Galactic Longitude: " ++ q p.get1 p.u2 ++ b!")"
  | .ecliptic => b!"Ecliptic Coordinate (Ecliptic Latitude: " ++ q p.get0 p.u1 ++ b!", Ecliptic Longitude: " ++ q p.get1 p.u2 ++ b!")"
  | .equatorialRa => b!"Equatorial Coordinate (Right Ascension: " ++ q p.get0 p.u1 ++ b!", Declination: " ++ q p.get1 p.u2 ++ b!")"
  | .equatorialHa => b!"Equatorial Coordinate (Hour Angle: " ++ q p.get0 p.u1 ++ b!", Declination: " ++ q p.get1 p.u2 ++ b!")"

end Coord

namespace Time

/-- std::to_string(double), that is `%f`: six digits behind the point.  The number of millionths is rounded as glibc does in the default rounding mode.
Negative zero, infinities and NaN are not modelled. -/
def fixed6 (x : ℚ) : Str :=
  let n := (roundEven (|x| * 1000000)).toNat
  (if x < 0 then b!"-" else []) ++ showNat (n / 1000000) ++ b!"." ++ zeroPad 6 (n % 1000000)

/-- operator<< of decimal_hour, parser.hpp l.60-64. -/
def DecimalHour.print (d : DecimalHour) : Str :=
  b!"Hours: " ++ (showInt d.hours ++ b!"h " ++ showInt d.minutes ++ b!"m " ++ fixed6 d.seconds ++ b!"s ")

end Time

end Astro
