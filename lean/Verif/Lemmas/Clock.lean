import Verif.Spec.Clock
import Verif.Spec.Double
import Mathlib.Tactic.Linarith
import Mathlib.Tactic.Ring

/-
Lemmas for C136: differences of the polynomial of sidereal time.
-/

namespace Astro

open Astro.Spec Astro.Time

/-- The two polynomials, up to whole days. -/
theorem formula_difference (a b o us ut : ℚ) (ha : |a - o| ≤ 2930000) (hb : |b - o| ≤ 2930000) :
    |siderealFormula ((b - o) / 36525) ut - siderealFormula ((a - o) / 36525) us + 24 * (b - a) - 1.002737909 * (24 * (b - a) + (ut - us))| ≤
      1.3 / 10 ^ 7 * |b - a| := by
  have e : siderealFormula ((b - o) / 36525) ut - siderealFormula ((a - o) / 36525) us + 24 * (b - a) - 1.002737909 * (24 * (b - a) + (ut - us)) =
      (b - a) * (2400.051336 / 36525 - 0.065709816 + 0.000025862 / 36525 ^ 2 * ((a - o) + (b - o))) := by
    unfold siderealFormula
    norm_num
    ring
  rw [e, abs_mul, mul_comm]
  refine mul_le_mul_of_nonneg_right ?_ (abs_nonneg _)
  rw [abs_le] at *
  constructor
  · norm_num at *
    linarith [ha.1, hb.1]
  · norm_num at *
    linarith [ha.2, hb.2]

/-- Two hours near two values have a difference near the difference. -/
theorem hour_sub {x y a b ε δ : ℚ} (h : NearHour x a ε) (k : NearHour y b δ) : NearHour (y - x) (b - a) (ε + δ) := by
  obtain ⟨m, hm⟩ := h
  obtain ⟨n, hn⟩ := k
  refine ⟨n - m, ?_⟩
  rw [abs_le] at *
  push_cast
  constructor <;> linarith [hm.1, hm.2, hn.1, hn.2]

theorem hour_trans {x y z ε δ : ℚ} (h : NearHour x y ε) (k : NearHour y z δ) : NearHour x z (ε + δ) := by
  obtain ⟨m, hm⟩ := h
  obtain ⟨n, hn⟩ := k
  refine ⟨n + m, ?_⟩
  rw [abs_le] at *
  push_cast
  constructor <;> linarith [hm.1, hm.2, hn.1, hn.2]

theorem formula_near (a b : ℕ) (o us ut : ℚ) (ho : 730000 ≤ o) (ho' : o ≤ 731000) (ha : a ≤ 3660000) (hb : b ≤ 3660000) :
    NearHour (siderealFormula ((b - o) / 36525) ut - siderealFormula ((a - o) / 36525) us) (1.002737909 * (24 * ((b : ℚ) - a) + (ut - us)))
      (1.3 / 10 ^ 7 * |(b : ℚ) - a|) := by
  have ha' : (a : ℚ) ≤ 3660000 := by exact_mod_cast ha
  have hb' : (b : ℚ) ≤ 3660000 := by exact_mod_cast hb
  have a0 : (0 : ℚ) ≤ a := by positivity
  have b0 : (0 : ℚ) ≤ b := by positivity
  have := formula_difference a b o us ut (by rw [abs_le]; constructor <;> linarith) (by rw [abs_le]; constructor <;> linarith)
  refine ⟨(a : ℤ) - b, ?_⟩
  refine le_of_eq_of_le (congrArg _ ?_) this
  push_cast
  ring

end Astro
