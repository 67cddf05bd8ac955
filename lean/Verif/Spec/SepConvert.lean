import Verif.Spec.Frame
import Verif.Props.Rotation

/-
Places converted from one coordinate system to another.
-/

namespace Astro.Spec

open Coord

/-- Conversions of a pair (longitude, latitude) one after the other; `none` is NaN. -/
noncomputable def convertAll (ms : List Mat) (p : ℝ × ℝ) : Option (ℝ × ℝ) := ms.foldlM (fun p m => convert m p) p

/-- A base_frame with a spherical_equatorial_representation: azimuth and latitude; units positive. -/
def IsEquatorial (f : Frame) : Prop := f.data.sys = .equatorial ∧ Units f.data.type

end Astro.Spec
