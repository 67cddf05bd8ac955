import Mathlib.Analysis.InnerProductSpace.PiL2
import Mathlib.Geometry.Euclidean.Angle.Unoriented.Basic
import Verif.Spec.Diff
import Verif.Model.Frame

/-
What frames are supposed to do.
-/

namespace Astro.Spec

open Astro.Coord

/-- What can be read from a frame. -/
inductive FrameField
  | lat | lon | dist | pmLat | pmLon | radial | location | pressure | temperature | obsTime | humidity | equinox
  deriving DecidableEq

/-- The type of a value. -/
def FrameField.Val : FrameField → Type
  | .location => Rep
  | .obsTime => ℤ
  | .equinox => ℤ
  | _ => ℝ

/-- The value a setter call gives to a field, if it is the field's business. -/
noncomputable def written : Frame.Call → (x : FrameField) → Option x.Val
  | .lat v, .lat => some v
  | .lon v, .lon => some v
  | .dist v, .dist => some v
  | .latLonDist a _ _, .lat => some a
  | .latLonDist _ b _, .lon => some b
  | .latLonDist _ _ c, .dist => some c
  | .pmLat v, .pmLat => some v
  | .pmLon v, .pmLon => some v
  | .radial v, .radial => some v
  | .pm a _ _, .pmLat => some a
  | .pm _ b _, .pmLon => some b
  | .pm _ _ c, .radial => some c
  | .differential d, .pmLat => some d.get.c0
  | .differential d, .pmLon => some d.get.c1
  | .differential d, .radial => some d.get.c2
  | .location r, .location => some r
  | .pressure v, .pressure => some v
  | .temperature v, .temperature => some v
  | .obsTime t, .obsTime => some t
  | .humidity v, .humidity => some v
  | .parameters r _ _ _ _, .location => some r
  | .parameters _ p _ _ _, .pressure => some p
  | .parameters _ _ t _ _, .temperature => some t
  | .parameters _ _ _ o _, .obsTime => some o
  | .parameters _ _ _ _ h, .humidity => some h
  | .equinox t, .equinox => some t
  | _, _ => none

/-- The value the last call that concerns a field gave it. -/
noncomputable def lastWritten (calls : List Frame.Call) (x : FrameField) : Option x.Val := calls.reverse.findSome? (written · x)

/-- What the getters return. -/
noncomputable def observe (f : Frame) : (x : FrameField) → x.Val
  | .lat => f.lat
  | .lon => f.lon
  | .dist => f.dist
  | .pmLat => f.pmLat
  | .pmLon => f.pmLon
  | .radial => f.radial
  | .location => f.location
  | .pressure => f.pressure
  | .temperature => f.temperature
  | .obsTime => f.obsTime
  | .humidity => f.humidity
  | .equinox => f.equinox

/-- A frame object: a spherical representation, units positive. -/
def IsFrame (f : Frame) : Prop :=
  f.data.sys = .spherical ∧ Units f.data.type ∧ 0 < f.motion.u1 ∧ 0 < f.motion.u2 ∧ 0 < f.motion.u3

/-- The argument of set_differential has the frame's own differential type. -/
def Typed (f : Frame) : Frame.Call → Prop
  | .differential d => d.u1 = f.motion.u1 ∧ d.u2 = f.motion.u2 ∧ d.u3 = f.motion.u3
  | _ => True

/-- The direction with latitude `b` and longitude `l`. -/
noncomputable def direction (b l : ℝ) : EuclideanSpace ℝ (Fin 3) := !₂[Real.cos b * Real.cos l, Real.cos b * Real.sin l, Real.sin b]

/-- The angle between two directions. -/
noncomputable def angularDistance (b l b' l' : ℝ) : ℝ := InnerProductGeometry.angle (direction b l) (direction b' l')

/-- Unit vectors pointing east and north at a place of latitude `b` and longitude `l`. -/
noncomputable def east (l : ℝ) : EuclideanSpace ℝ (Fin 3) := !₂[-Real.sin l, Real.cos l, 0]
noncomputable def north (b l : ℝ) : EuclideanSpace ℝ (Fin 3) := !₂[-(Real.sin b * Real.cos l), -(Real.sin b * Real.sin l), Real.cos b]

/-- The bearing of a direction from a place: the angle from north over east. -/
noncomputable def bearing (b l : ℝ) (d : EuclideanSpace ℝ (Fin 3)) : ℝ := Complex.arg ⟨inner ℝ (north b l) d, inner ℝ (east l) d⟩

/-- The values of the last calls that concern the two angles. -/
def firstWritten : TwoAngle.Call → Option ℝ
  | .first v => some v
  | .second _ => none
  | .both a _ => some a

def secondWritten : TwoAngle.Call → Option ℝ
  | .first _ => none
  | .second v => some v
  | .both _ b => some b

end Astro.Spec
