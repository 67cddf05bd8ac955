import Verif.Model.Diff

/-
coordinate/ref_frame/*.hpp, coordinate/coord_sys/*.hpp and coordinate/sky_point.hpp: frames, points in the sky and two-angle coordinates.

The frame classes differ in the names of their accessors and in their attributes:
                               first angle   second angle  motion                           attributes              lines
  base_equatorial_frame        dec           ra            pm_dec, pm_ra_cosdec             -                       l.43-253
    icrs, cirs                 (inherited)                                                  cirs: obs_time          icrs.hpp, cirs.hpp
  base_ecliptic_frame          lat           lon           pm_lat, pm_lon_coslat            equinox                 l.44-265
    geocentric, heliocentric   (inherited)
  alt_az                       alt           az            pm_alt, pm_az_cosalt             location, pressure,     l.67-399
                                                                                            temperature, obs_time,
                                                                                            relative_humidity
  galactic                     b             l             pm_b, pm_l_cosb                  -                       l.34-254
  supergalactic                sgb           sgl           pm_sgb, pm_sgl_cossgb            -                       l.34-258
Not modelled because they cannot be instantiated: cirs::get_obs_time and set_obs_time (undeclared member `obstime`), supergalactic::set_sgl (a const
member function that modifies), alt_az::set_az (takes a distance for the azimuth).
-/

namespace Astro.Coord

/-- An object of a frame class: base_frame.hpp l.34-52, base_ecliptic_frame.hpp l.44, alt_az.hpp l.53-64.  A class has only some of the
attributes.  Times are counted in ticks of boost::posix_time::ptime. -/
@[ext] structure Frame where
  data : Rep
  motion : CosLat
  location : Rep
  pressure : ℝ
  temperature : ℝ
  obsTime : ℤ
  humidity : ℝ
  equinox : ℤ

/-- set_lat, spherical_representation.hpp l.219-226. -/
noncomputable def Rep.setLat (r : Rep) (v : ℝ) : Rep := { r with pt := { r.pt with c0 := unitCast r.u1 1 v } }

/-- set_lon, spherical_representation.hpp l.229-236. -/
noncomputable def Rep.setLon (r : Rep) (v : ℝ) : Rep := { r with pt := { r.pt with c1 := unitCast r.u2 1 v } }

/-- set_dist, spherical_representation.hpp l.239-242. -/
def Rep.setDist (r : Rep) (v : ℝ) : Rep := { r with pt := { r.pt with c2 := v } }

/-- set_lat_lon_dist, spherical_representation.hpp l.206-216. -/
noncomputable def Rep.setLatLonDist (r : Rep) (a b c : ℝ) : Rep := ((r.setLat a).setLon b).setDist c

/-- set_dlat, spherical_coslat_differential.hpp l.206-213. -/
noncomputable def CosLat.setDlat (a : CosLat) (v : ℝ) : CosLat := { a with pt := { a.pt with c0 := unitCast a.u1 1 v } }

/-- set_dlon_coslat, spherical_coslat_differential.hpp l.216-223. -/
noncomputable def CosLat.setDlonCosLat (a : CosLat) (v : ℝ) : CosLat := { a with pt := { a.pt with c1 := unitCast a.u2 1 v } }

/-- set_ddist, spherical_coslat_differential.hpp l.226-229. -/
def CosLat.setDdist (a : CosLat) (v : ℝ) : CosLat := { a with pt := { a.pt with c2 := v } }

/-- set_dlat_dlon_coslat_ddist, spherical_coslat_differential.hpp l.193-203. -/
noncomputable def CosLat.setAll (a : CosLat) (x y z : ℝ) : CosLat := ((a.setDlat x).setDlonCosLat y).setDdist z

namespace Frame

/-- get_dec, get_lat, get_alt, get_b, get_sgb: base_equatorial_frame.hpp l.138-141 and the like. -/
noncomputable def lat (f : Frame) : ℝ := f.data.get.c0

/-- get_ra, get_lon, get_az, get_l, get_sgl: base_equatorial_frame.hpp l.144-147 and the like. -/
noncomputable def lon (f : Frame) : ℝ := f.data.get.c1

/-- get_distance, base_equatorial_frame.hpp l.150-153 and the like. -/
noncomputable def dist (f : Frame) : ℝ := f.data.get.c2

/-- get_dec_ra_dist and the like, base_equatorial_frame.hpp l.156-164. -/
noncomputable def latLonDist (f : Frame) : Pt := f.data.get

/-- get_pm_dec and the like, base_equatorial_frame.hpp l.167-170. -/
noncomputable def pmLat (f : Frame) : ℝ := f.motion.get.c0

/-- get_pm_ra_cosdec and the like, base_equatorial_frame.hpp l.173-176. -/
noncomputable def pmLon (f : Frame) : ℝ := f.motion.get.c1

/-- get_radial_velocity, base_equatorial_frame.hpp l.179-182 and the like. -/
noncomputable def radial (f : Frame) : ℝ := f.motion.get.c2

/-- get_pm_dec_ra_radial and the like, base_equatorial_frame.hpp l.185-193. -/
noncomputable def pm (f : Frame) : Pt := f.motion.get

/-- base_frame::get_proper_motion, base_frame.hpp l.55-66: the stored radians, with the units of the differential put on them. -/
def properMotion (f : Frame) : ℝ × ℝ := (f.motion.pt.c0, f.motion.pt.c1)

/-- base_frame::get_radial_velocity, base_frame.hpp l.69-72. -/
def baseRadial (f : Frame) : ℝ := f.motion.pt.c2

/-- A setter call. -/
inductive Call
  | lat (v : ℝ)
  | lon (v : ℝ)
  | dist (v : ℝ)
  | latLonDist (a b c : ℝ)
  | pmLat (v : ℝ)
  | pmLon (v : ℝ)
  | radial (v : ℝ)
  | pm (a b c : ℝ)
  | differential (d : CosLat)
  | location (r : Rep)
  | pressure (v : ℝ)
  | temperature (v : ℝ)
  | obsTime (t : ℤ)
  | humidity (v : ℝ)
  | parameters (r : Rep) (p t : ℝ) (o : ℤ) (h : ℝ)
  | equinox (t : ℤ)

/-- The setters: base_equatorial_frame.hpp l.196-253 (and the like in the other classes; set_dec_ra_dist calls the three setters, the others
call set_lat_lon_dist, which does the same), base_frame.hpp l.82-85, alt_az.hpp l.279-399, base_ecliptic_frame.hpp l.262-265. -/
noncomputable def apply (f : Frame) : Call → Frame
  | .lat v => { f with data := f.data.setLat v }
  | .lon v => { f with data := f.data.setLon v }
  | .dist v => { f with data := f.data.setDist v }
  | .latLonDist a b c => { f with data := f.data.setLatLonDist a b c }
  | .pmLat v => { f with motion := f.motion.setDlat v }
  | .pmLon v => { f with motion := f.motion.setDlonCosLat v }
  | .radial v => { f with motion := f.motion.setDdist v }
  | .pm a b c => { f with motion := f.motion.setAll a b c }
  | .differential d => { f with motion := d }
  | .location r => { f with location := r }
  | .pressure v => { f with pressure := v }
  | .temperature v => { f with temperature := v }
  | .obsTime t => { f with obsTime := t }
  | .humidity v => { f with humidity := v }
  | .parameters r p t o h => { f with location := r, pressure := p, temperature := t, obsTime := o, humidity := h }
  | .equinox t => { f with equinox := t }

noncomputable def run (f : Frame) (calls : List Call) : Frame := calls.foldl apply f

/-- Constructors from three and six quantities, base_equatorial_frame.hpp l.66-91 and the like; `f` is the uninitialised object. -/
noncomputable def ofQuantities (f : Frame) (a b c : ℝ) : Frame := { f with data := f.data.setLatLonDist a b c }

noncomputable def ofQuantities6 (f : Frame) (a b c x y z : ℝ) : Frame :=
  { ofQuantities f a b c with motion := f.motion.setAll x y z }

/-- The constructor from a representation, base_equatorial_frame.hpp l.45-64 and the like: all template arguments of
make_spherical_representation are given, so the argument is converted to a spherical_representation with its own units and then its units are changed. -/
noncomputable def ofRep (junk : ℝ) (f : Frame) (r : Rep) : Frame :=
  { f with data := changeUnits f.data.type (if r.sys = .spherical then r else Rep.convert junk ⟨.spherical, r.u1, r.u2, r.u3⟩ r) }

/-- A differential of any kind. -/
inductive Motion
  | coslat (a : CosLat)
  | plain (r : Rep)

/-- The constructor from a representation and a differential, base_equatorial_frame.hpp l.94-135, base_ecliptic_frame.hpp l.96-137, alt_az.hpp
l.114-154, galactic.hpp l.91-131, supergalactic.hpp l.91-131: all template arguments of make_spherical_coslat_differential are given, so a differential
of another kind is converted to a spherical_coslat_differential with its own units first (the conversion constructor, spherical_coslat_differential.hpp
l.119-157).  A cartesian_differential does not compile. -/
noncomputable def ofRepDiff (junk : ℝ) (f : Frame) (r : Rep) (d : Motion) : Frame :=
  let coslat := match d with
    | .coslat a => a
    | .plain r => (CosLat.make junk r).changeUnits r.u1 r.u2 r.u3
  { ofRep junk f r with motion := coslat.makeUnits f.motion.u1 f.motion.u2 f.motion.u3 }

/-- The copy constructors of galactic and supergalactic, galactic.hpp l.133-138, supergalactic.hpp l.133-138. -/
def copyGalactic (f other : Frame) : Frame := { f with data := other.data, motion := other.motion }

/-- alt_az's copy constructor, alt_az.hpp l.156-165; equinox is not a member of alt_az. -/
def copyAltAz (f other : Frame) : Frame :=
  { data := other.data, motion := other.motion, location := other.location, pressure := other.pressure, temperature := other.temperature,
    obsTime := other.obsTime, humidity := other.humidity, equinox := f.equinox }

/-- base_frame::get_angular_separation, base_frame.hpp l.106-112.  `none` is NaN. -/
noncomputable def separation (f g : Frame) : Option ℝ :=
  let d := (dot f.data g.data).value
  let m := (magnitude f.data).value * (magnitude g.data).value
  if m = 0 then none else acos (d / m)

/-- sky_point::positional_angle, sky_point.hpp l.114-136. -/
noncomputable def positionalAngle (junk : ℝ) (f g : Frame) : ℝ :=
  let p1 := makeAngular junk .spherical f.data
  let p2 := makeAngular junk .spherical g.data
  let diff := p2.get.c1 - p1.get.c1
  let tempP1 := unitCast p1.u1 1 p1.get.c0
  let tempP2 := unitCast p2.u1 1 p2.get.c0
  let tempDiff := unitCast p1.u2 1 diff
  let coslat := Real.cos tempP2
  let x := Real.sin tempP2 * Real.cos tempP1 - coslat * Real.sin tempP1 * Real.cos tempDiff
  let y := Real.sin tempDiff * coslat
  atan2 y x

end Frame

/-- sky_point, sky_point.hpp l.28-43.  Its constructor from another system, its constructor from a name, get_constillation, from_name and transform_to
are declared and never defined. -/
structure SkyPoint where
  point : Frame

namespace SkyPoint

/-- The constructors, sky_point.hpp l.49, l.52-68, l.71-83 and l.89-97; `f` is the uninitialised frame object. -/
def ofFrame (f : Frame) : SkyPoint := ⟨f⟩

noncomputable def ofRepDiff (junk : ℝ) (f : Frame) (r : Rep) (d : Frame.Motion) : SkyPoint := ⟨Frame.ofRepDiff junk f r d⟩

noncomputable def ofQuantities6 (f : Frame) (a b c x y z : ℝ) : SkyPoint := ⟨Frame.ofQuantities6 f a b c x y z⟩

noncomputable def ofQuantities (f : Frame) (a b c : ℝ) : SkyPoint := ⟨Frame.ofQuantities f a b c⟩

/-- get_point and set_point, sky_point.hpp l.149-158. -/
def getPoint (p : SkyPoint) : Frame := p.point

def setPoint (_ : SkyPoint) (f : Frame) : SkyPoint := ⟨f⟩

/-- separation, sky_point.hpp l.107-111. -/
noncomputable def separation (p q : SkyPoint) : Option ℝ := p.point.separation q.getPoint

end SkyPoint

/-- horizon_coord (altitude, azimuth; horizon_coord.hpp l.42-131), equatorial_ha_coord (ha, dec; equatorial_ha_coord.hpp l.50-140),
equatorial_ra_coord (ra, dec; equatorial_ra_coord.hpp l.48-138), ecliptic_coord (lat, lon; ecliptic_coord.hpp l.52-142), galactic_coord
(lat, lon; galactic_coord.hpp l.50-140): two angles stored in radians, with the units of the template arguments. -/
@[ext] structure TwoAngle where
  c0 : ℝ
  c1 : ℝ
  u1 : ℝ
  u2 : ℝ

namespace TwoAngle

/-- set_altitude, set_ha, set_ra, set_lat: horizon_coord.hpp l.114-121. -/
noncomputable def set0 (p : TwoAngle) (v : ℝ) : TwoAngle := { p with c0 := unitCast p.u1 1 v }

/-- set_azimuth, set_dec, set_lon: horizon_coord.hpp l.124-131. -/
noncomputable def set1 (p : TwoAngle) (v : ℝ) : TwoAngle := { p with c1 := unitCast p.u2 1 v }

/-- set_altitude_azimuth and the like, horizon_coord.hpp l.103-111; the constructor (l.67-74) calls it. -/
noncomputable def set (p : TwoAngle) (a b : ℝ) : TwoAngle := (p.set0 a).set1 b

/-- get_altitude and the like, horizon_coord.hpp l.83-90. -/
noncomputable def get0 (p : TwoAngle) : ℝ := unitCast 1 p.u1 p.c0

/-- get_azimuth and the like, horizon_coord.hpp l.93-100. -/
noncomputable def get1 (p : TwoAngle) : ℝ := unitCast 1 p.u2 p.c1

/-- get_altitude_azimuth and the like, horizon_coord.hpp l.77-80. -/
noncomputable def get (p : TwoAngle) : ℝ × ℝ := (p.get0, p.get1)

/-- make_horizon_coord and the like, horizon_coord.hpp l.136-163: the constructor with the units of the arguments.
make_equatorial_ha_coord, make_equatorial_ra_coord and make_galactic_coord return the class with the two quantities swapped, so that they can be
instantiated only when both units are the same. -/
noncomputable def make (junk : TwoAngle) (u1 u2 a b : ℝ) : TwoAngle := set ⟨junk.c0, junk.c1, u1, u2⟩ a b

/-- A setter call. -/
inductive Call
  | first (v : ℝ)
  | second (v : ℝ)
  | both (a b : ℝ)

noncomputable def apply (p : TwoAngle) : Call → TwoAngle
  | .first v => p.set0 v
  | .second v => p.set1 v
  | .both a b => p.set a b

noncomputable def run (p : TwoAngle) (calls : List Call) : TwoAngle := calls.foldl apply p

end TwoAngle

end Astro.Coord
