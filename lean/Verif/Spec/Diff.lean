import Verif.Model.Diff
import Verif.Spec.Vector

/-
What a coslat differential means.
-/

namespace Astro.Spec

open Astro.Coord

/-- The vector a coslat differential stands for: azimuth c0, polar angle c1 / cos c0, distance c2. -/
noncomputable def coslatVec (a : CosLat) : Vec := vec ⟨.spherical, ⟨a.pt.c0, a.pt.c1 / Real.cos a.pt.c0, a.pt.c2⟩, a.u1, a.u2, a.u3⟩

/-- Half a turn about the third axis. -/
def halfTurn (v : Vec) : Vec := ![-v 0, -v 1, v 2]

/-- The components of a coslat differential as its operators expect them: azimuth and dlon·cos in the principal ranges of a spherical point. -/
def CosLatPrincipal (a : CosLat) : Prop := -Real.pi < a.pt.c0 ∧ a.pt.c0 ≤ Real.pi ∧ 0 < a.pt.c1 ∧ a.pt.c1 < Real.pi ∧ 0 < a.pt.c2

end Astro.Spec
