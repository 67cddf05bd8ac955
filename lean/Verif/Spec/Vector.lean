import Verif.Model.Rep

/-
What a representation means: a vector in base units.
-/

namespace Astro.Spec

open Astro.Coord

/-- The vector a representation stands for, in base units.  Spherical: azimuth, polar angle, distance.  Equatorial: azimuth, elevation, distance. -/
noncomputable def vec (r : Rep) : Vec :=
  match r.sys with
  | .cartesian => ![r.pt.c0 * r.u1, r.pt.c1 * r.u2, r.pt.c2 * r.u3]
  | .spherical =>
    ![r.pt.c2 * r.u3 * (Real.sin r.pt.c1 * Real.cos r.pt.c0), r.pt.c2 * r.u3 * (Real.sin r.pt.c1 * Real.sin r.pt.c0),
      r.pt.c2 * r.u3 * Real.cos r.pt.c1]
  | .equatorial =>
    ![r.pt.c2 * r.u3 * (Real.cos r.pt.c1 * Real.cos r.pt.c0), r.pt.c2 * r.u3 * (Real.cos r.pt.c1 * Real.sin r.pt.c0),
      r.pt.c2 * r.u3 * Real.sin r.pt.c1]

/-- The units of the three Cartesian axes of a representation: those of a spherical or equatorial one are its distance unit. -/
def axis (t : RepType) : Pt :=
  match t.sys with
  | .cartesian => ⟨t.u1, t.u2, t.u3⟩
  | _ => ⟨t.u3, t.u3, t.u3⟩

/-- Units are positive. -/
def Units (t : RepType) : Prop := 0 < t.u1 ∧ 0 < t.u2 ∧ 0 < t.u3

/-- Angles and distance of a representation are in their principal ranges, away from the poles and the origin. -/
def Principal (r : Rep) : Prop :=
  match r.sys with
  | .cartesian => True
  | .spherical => -Real.pi < r.pt.c0 ∧ r.pt.c0 ≤ Real.pi ∧ 0 < r.pt.c1 ∧ r.pt.c1 < Real.pi ∧ 0 < r.pt.c2
  | .equatorial => -Real.pi < r.pt.c0 ∧ r.pt.c0 ≤ Real.pi ∧ -(Real.pi / 2) < r.pt.c1 ∧ r.pt.c1 < Real.pi / 2 ∧ 0 < r.pt.c2

end Astro.Spec
