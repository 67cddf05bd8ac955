import Verif.Model.FrameDouble

/-
What a sequence of setter calls leaves behind: for every quantity the value given last.
-/

namespace Astro.Spec

/-- The quantities of a frame. -/
inductive Part
  | lat | lon | dist | pmLat | pmLon | radial
  deriving DecidableEq

/-- The value that a call gives to a quantity. -/
def given : DFrame.Call → Part → Option Dbl
  | .lat v, .lat => some v
  | .lon v, .lon => some v
  | .dist v, .dist => some v
  | .latLonDist a _ _, .lat => some a
  | .latLonDist _ b _, .lon => some b
  | .latLonDist _ _ c, .dist => some c
  | .pmLat v, .pmLat => some v
  | .pmLon v, .pmLon => some v
  | .radial v, .radial => some v
  | .pm a _ _, .pmLat => some a
  | .pm _ b _, .pmLon => some b
  | .pm _ _ c, .radial => some c
  | _, _ => none

/-- `v` is the last value that the calls give to the quantity. -/
def LastGiven (calls : List DFrame.Call) (i : Part) (v : Dbl) : Prop :=
  ∃ before c after, calls = before ++ c :: after ∧ given c i = some v ∧ ∀ d ∈ after, given d i = none

/-- The getter of a quantity. -/
def readPart (f : DFrame) : Part → Dbl
  | .lat => f.lat
  | .lon => f.lon
  | .dist => f.dist
  | .pmLat => f.pmLat
  | .pmLon => f.pmLon
  | .radial => f.radial

/-- The factor of the unit of an angle. -/
def factor (f : DFrame) : Part → Option Dbl
  | .lat => some f.k0
  | .lon => some f.k1
  | .pmLat => some f.m0
  | .pmLon => some f.m1
  | _ => none

/-- The setter of one quantity. -/
def setPart : Part → Dbl → DFrame.Call
  | .lat => .lat
  | .lon => .lon
  | .dist => .dist
  | .pmLat => .pmLat
  | .pmLon => .pmLon
  | .radial => .radial

/-- A quantity is read and written back `n` times. -/
def rewritten (f : DFrame) (i : Part) : Nat → DFrame
  | 0 => f
  | n + 1 => (rewritten f i n).apply (setPart i (readPart (rewritten f i n) i))

end Astro.Spec
