import Verif.Model.FrameBuildDouble
import Verif.Spec.QtyDouble
import Verif.Spec.RepDouble

/-
Frames made of representations and differentials: what their numbers stand for.
-/

namespace Astro.Spec

open Time

/-- The object holds the angles `x`, `y` (in radians) and the length `R`; `len` are the sizes of the units. -/
def Contains {U : Type} (len : U → ℝ) (a : QSph U) (x y R : ℝ) : Prop :=
  ∃ p q r : ℚ, a.p = ⟨.num p, .num q, .num r⟩ ∧ IsDouble p ∧ IsDouble q ∧ IsDouble r ∧ x = p ∧ y = q ∧ R = r * len a.u3

/-- The unit of an angle is neither huge nor tiny compared with a radian: degrees, arc seconds and milliarcseconds are such units. -/
def AngleUnit {U : Type} (len : U → ℝ) (u : U) : Prop := 2 ^ (-30 : ℤ) ≤ len u ∧ len u ≤ 2 ^ (30 : ℤ)

/-- A length whose number in the unit `u` is neither huge nor tiny. -/
def UsualLength {U : Type} (len : U → ℝ) (u : U) (R : ℝ) : Prop := 2 ^ (-390 : ℤ) * len u ≤ |R| ∧ |R| ≤ 2 ^ (390 : ℤ) * len u

/-- What `std::atan2` returns is less than 4 in absolute value. -/
def ShortAzimuth (I : InverseTrig) : Prop := ∀ (y x : Dbl) (q : ℚ), I.atan2 y x = .num q → |(q : ℝ)| ≤ 4

end Astro.Spec
