import Verif.Lemmas.Obliquity

/-
C116: the obliquity of the ecliptic in floating point arithmetic.
-/

set_option exponentiation.threshold 3000

namespace Astro

open Spec Time

attribute [local irreducible] FloatFmt.nearest FloatFmt.value Dbl.round

/-- C116: from the first to the last day boost::gregorian knows (1 January 1400 to 31 December 9999) the obliquity in degrees is within 2^-47 of the
polynomial. -/
theorem C116_degrees (jd : ℤ) (h1 : 2232400 ≤ jd) (h2 : jd ≤ 5373484) : Near (Obliquity.degrees jd) (Coord.obliquityDegrees jd) (2 ^ (-47 : ℤ)) :=
  near_mono (obliquity_degrees jd h1 h2) (by norm_num [unit53])

/-- C116: and in radians within 2^-51, whatever `long double` is, if only it is not less precise than `double`. -/
theorem C116_radians {ext : ℚ → ℚ} (h : AtLeastDouble ext) (jd : ℤ) (h1 : 2232400 ≤ jd) (h2 : jd ≤ 5373484) :
    Near (Obliquity.radians ext jd) (Coord.obliquity jd) (2 ^ (-51 : ℤ)) := by
  have u0 := unit53_pos
  have u1 := unit53_small
  obtain ⟨q, hq, -, eq⟩ := obliquity_degrees jd h1 h2
  obtain ⟨d1, d2⟩ := obliquity_range jd h1 h2
  rw [radians_num hq, Coord.obliquity]
  clear hq
  generalize Coord.obliquityDegrees jd = d at *
  obtain ⟨e1, e2⟩ := abs_le.1 eq
  have q1 : 21 ≤ (q : ℝ) := by linarith
  have q2 : (q : ℝ) ≤ 26 := by linarith
  have p1 := Real.pi_gt_d20
  have p2 := Real.pi_lt_d20
  have hp : |(Obliquity.pi ext : ℝ) - Real.pi| ≤ (1 / 100 + 16 / 5) * unit53 := by
    refine ext_near h ?_ ?_ ?_ (by norm_num)
    · rw [abs_le]
      norm_num [unit53] at p1 p2 ⊢
      constructor <;> linarith
    · norm_num
    · norm_num
  generalize Obliquity.pi ext = P at *
  obtain ⟨e3, e4⟩ := abs_le.1 hp
  norm_num at p1 p2
  have P1 : 3 ≤ (P : ℝ) := by linarith
  have P2 : (P : ℝ) ≤ 16 / 5 := by linarith
  have m1 : |((q * P : ℚ) : ℝ) - d * Real.pi| ≤ 290 * unit53 := by
    have e : ((q * P : ℚ) : ℝ) - d * Real.pi = (q - d) * P + d * (P - Real.pi) := by push_cast; ring
    rw [e]
    refine (abs_add_le _ _).trans ?_
    rw [abs_mul, abs_mul, abs_of_nonneg (by linarith : 0 ≤ (P : ℝ)), abs_of_nonneg (by linarith : 0 ≤ d)]
    have k1 := mul_le_mul eq P2 (by linarith) (by positivity)
    have k2 := mul_le_mul d2 hp (abs_nonneg _) (by norm_num)
    linarith
  have b1 : ((q * P : ℚ) : ℝ) ≤ 84 := by
    push_cast
    have := mul_le_mul q2 P2 (by linarith) (by norm_num)
    linarith
  have b2 : 63 ≤ ((q * P : ℚ) : ℝ) := by
    push_cast
    have := mul_le_mul q1 P1 (by norm_num) (by linarith)
    linarith
  have m2 := ext_near h m1 (by linarith) b1 (by norm_num)
  generalize ext (q * P) = x at *
  obtain ⟨e5, e6⟩ := abs_le.1 m1
  obtain ⟨e7, e8⟩ := abs_le.1 m2
  have x1 : (x : ℝ) ≤ 85 := by linarith
  have x2 : 62 ≤ (x : ℝ) := by linarith
  have m3 : |((x / 180 : ℚ) : ℝ) - d * Real.pi / 180.0| ≤ 21 / 10 * unit53 := by
    have e : ((x / 180 : ℚ) : ℝ) - d * Real.pi / 180.0 = (x - d * Real.pi) / 180 := by push_cast; norm_num; ring
    rw [e, abs_div, abs_of_pos (by norm_num : (0 : ℝ) < 180), div_le_iff₀ (by norm_num)]
    linarith
  have c1 : ((x / 180 : ℚ) : ℝ) ≤ 1 / 2 := by push_cast; linarith
  have c2 : 1 / 1000 ≤ ((x / 180 : ℚ) : ℝ) := by push_cast; linarith
  have m4 := ext_near h m3 c2 c1 (by norm_num)
  have b3 : |d * Real.pi / 180.0| ≤ 1 / 2 := by
    have k := mul_le_mul d2 p2.le Real.pi_pos.le (by norm_num)
    have k0 : 0 ≤ d * Real.pi := mul_nonneg (by linarith) Real.pi_pos.le
    rw [abs_of_nonneg (by positivity), div_le_iff₀ (by norm_num)]
    norm_num at k ⊢
    linarith
  refine near_mono (near_round m4 b3 (by norm_num) (by norm_num) (by norm_num)) ?_
  norm_num [unit53]

/-- There is such a format: `double` itself. -/
example : AtLeastDouble ieee.rnd := by
  intro q h1 h2
  have := near_rel ieee (z := q) (le_trans (zpow_le_zpow_right₀ (by norm_num) (by norm_num)) h1) (h2.trans (pow_le_top (by norm_num)))
  exact this

end Astro
