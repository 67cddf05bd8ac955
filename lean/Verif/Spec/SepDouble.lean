import Verif.Model.SepDouble
import Verif.Spec.RepDouble

/-
The exact cosine of a separation.
-/

namespace Astro.Spec

/-- The cosine of the angle between two directions given by azimuth and polar angle (spherical) or azimuth and latitude (equatorial). -/
noncomputable def cosBetween (s : Coord.System) (a b a' b' : ℝ) : ℝ :=
  match s with
  | .equatorial => Real.cos b * Real.cos b' * Real.cos (a - a') + Real.sin b * Real.sin b'
  | _ => Real.sin b * Real.sin b' * Real.cos (a - a') + Real.cos b * Real.cos b'

end Astro.Spec
