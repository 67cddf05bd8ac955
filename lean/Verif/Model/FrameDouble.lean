import Verif.Model.QtyDouble

/-
Setters and getters of the frame classes (coordinate/ref_frame/*.hpp, coordinate/coord_sys/*.hpp; the names in the classes are listed in Model/Frame) on
`double` in IEEE arithmetic, with angles in any unit.  A unit is its factor to radians, see Model/QtyDouble.  The attributes of alt_az and of the ecliptic
frames are stored as they are and not repeated here.
-/

namespace Astro

/-- An object of a frame class: base_frame.hpp l.34-52; `k0`, `k1` are the factors of the units of the two angles, `m0`, `m1` those of the proper motion. -/
structure DFrame where
  data : DSph
  motion : DSph
  k0 : Dbl
  k1 : Dbl
  m0 : Dbl
  m1 : Dbl

namespace DFrame

/-- A setter call. -/
inductive Call
  | lat (v : Dbl)
  | lon (v : Dbl)
  | dist (v : Dbl)
  | latLonDist (a b c : Dbl)
  | pmLat (v : Dbl)
  | pmLon (v : Dbl)
  | radial (v : Dbl)
  | pm (a b c : Dbl)

/-- set_lat, set_lon, set_dist, spherical_representation.hpp l.219-242. -/
def setLat (f : DFrame) (v : Dbl) : DFrame := { f with data := { f.data with c0 := storeAngle f.k0 v } }
def setLon (f : DFrame) (v : Dbl) : DFrame := { f with data := { f.data with c1 := storeAngle f.k1 v } }
def setDist (f : DFrame) (v : Dbl) : DFrame := { f with data := { f.data with c2 := v } }

/-- set_dlat, set_dlon_coslat, set_ddist, spherical_coslat_differential.hpp l.206-230. -/
def setDlat (f : DFrame) (v : Dbl) : DFrame := { f with motion := { f.motion with c0 := storeAngle f.m0 v } }
def setDlon (f : DFrame) (v : Dbl) : DFrame := { f with motion := { f.motion with c1 := storeAngle f.m1 v } }
def setDdist (f : DFrame) (v : Dbl) : DFrame := { f with motion := { f.motion with c2 := v } }

/-- The setters, base_equatorial_frame.hpp l.196-253 and the like in the other classes. -/
def apply (f : DFrame) : Call → DFrame
  | .lat v => f.setLat v
  | .lon v => f.setLon v
  | .dist v => f.setDist v
  | .latLonDist a b c => ((f.setLat a).setLon b).setDist c
  | .pmLat v => f.setDlat v
  | .pmLon v => f.setDlon v
  | .radial v => f.setDdist v
  | .pm a b c => ((f.setDlat a).setDlon b).setDdist c

def run (f : DFrame) (calls : List Call) : DFrame := calls.foldl apply f

/-- get_dec, get_ra, get_distance, base_equatorial_frame.hpp l.138-153 and the like: get_lat, get_lon, get_dist of spherical_representation.hpp l.180-203. -/
def lat (f : DFrame) : Dbl := readAngle f.k0 f.data.c0
def lon (f : DFrame) : Dbl := readAngle f.k1 f.data.c1
def dist (f : DFrame) : Dbl := f.data.c2

/-- get_pm_dec, get_pm_ra_cosdec, get_radial_velocity, base_equatorial_frame.hpp l.167-182 and the like: get_dlat, get_dlon_coslat, get_ddist of
spherical_coslat_differential.hpp l.167-190. -/
def pmLat (f : DFrame) : Dbl := readAngle f.m0 f.motion.c0
def pmLon (f : DFrame) : Dbl := readAngle f.m1 f.motion.c1
def radial (f : DFrame) : Dbl := f.motion.c2

/-- base_frame::get_proper_motion, base_frame.hpp l.55-66: the stored radians, with the units of the differential put on them. -/
def properMotion (f : DFrame) : Dbl × Dbl := (f.motion.c0, f.motion.c1)

end DFrame

end Astro
