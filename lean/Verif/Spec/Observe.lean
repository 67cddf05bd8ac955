import Verif.Spec.UnitChain
import Verif.Spec.Calendar
import Verif.Spec.Double

/-
A star over the horizon of a place at a moment: the calls a program makes, and the formulas of the textbook.
-/

namespace Astro.Spec

open Time

/-- The sidereal time of Greenwich at `t` is `s` hours, up to whole days. -/
def GreenwichHour (t : PTime) (s : ℚ) : Prop :=
  (Earlier lastJulian t.date → s = siderealFormula ((dayNumber gregorianLeap t.date - 730486.5) / 36525) (universalTime t)) ∧
  (¬ Earlier lastJulian t.date → s = siderealFormula ((dayNumber julianLeap t.date - 730488.5) / 36525) (universalTime t))

/-- The longitude counted to the east. -/
def eastward (l : ℚ) : Direction → ℚ
  | .east => l
  | .west => -l

/-- The direction (north, east, up) of a star of declination `δ` and hour angle `H`, seen from latitude `φ`. -/
noncomputable def overHorizon (φ H δ : ℝ) : Coord.Vec :=
  ![Real.cos φ * Real.sin δ - Real.sin φ * Real.cos δ * Real.cos H, -(Real.cos δ * Real.sin H), Real.sin φ * Real.sin δ + Real.cos φ * Real.cos δ * Real.cos H]

/-- What a program does that wants azimuth and altitude of a star at right ascension `α` and declination `δ`, at the moment `t`, in longitude `l` and latitude `φ`, all
in degrees: it asks for the local sidereal time (LST), multiplies the hours by 15 degrees, converts with ha_dec_ra_dec, and then with ha_dec_horizon. -/
def azimuthAltitude (T : Trig) (I : InverseTrig) (N : Nearest) (t : PTime) (l : ℚ) (dir : Direction) (φ α δ : ℚ) : Option (Dbl × Dbl) := do
  let r ← lst N.rounding l dir t
  some (Conversion.chain T I [(.hourAngle, inDegrees (N.rnd (15 * r.dh))), (.horizon, inDegrees φ)] (inDegrees α) (inDegrees δ))

end Astro.Spec
