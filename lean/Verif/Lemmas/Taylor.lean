import Mathlib.Analysis.Complex.Trigonometric
import Mathlib.Analysis.Complex.Basic
import Mathlib.Tactic.Linarith
import Mathlib.Tactic.Ring
import Mathlib.Tactic.NormNum

/-
Sine and cosine from the first terms of their series.
-/

namespace Astro

open Complex in
theorem exp_series (x : ℝ) :
    ∑ m ∈ Finset.range 13, ((x : ℂ) * I) ^ m / (m.factorial : ℂ) =
      ((1 - x ^ 2 / 2 + x ^ 4 / 24 - x ^ 6 / 720 + x ^ 8 / 40320 - x ^ 10 / 3628800 + x ^ 12 / 479001600 : ℝ) : ℂ) +
      ((x - x ^ 3 / 6 + x ^ 5 / 120 - x ^ 7 / 5040 + x ^ 9 / 362880 - x ^ 11 / 39916800 : ℝ) : ℂ) * I := by
  have h2 : I ^ 2 = -1 := I_sq
  simp only [Finset.sum_range_succ, Finset.sum_range_zero, Nat.factorial, mul_pow]
  have h3 : I ^ 3 = -I := by rw [pow_succ, h2]; ring
  have h4 : I ^ 4 = 1 := by rw [pow_succ, h3]; rw [neg_mul, ← sq, h2]; ring
  have h5 : I ^ 5 = I := by rw [pow_succ, h4]; ring
  have h6 : I ^ 6 = -1 := by rw [pow_succ, h5, ← sq, h2]
  have h7 : I ^ 7 = -I := by rw [pow_succ, h6]; ring
  have h8 : I ^ 8 = 1 := by rw [pow_succ, h7]; rw [neg_mul, ← sq, h2]; ring
  have h9 : I ^ 9 = I := by rw [pow_succ, h8]; ring
  have h10 : I ^ 10 = -1 := by rw [pow_succ, h9, ← sq, h2]
  have h11 : I ^ 11 = -I := by rw [pow_succ, h10]; ring
  have h12 : I ^ 12 = 1 := by rw [pow_succ, h11]; rw [neg_mul, ← sq, h2]; ring
  rw [h2, h3, h4, h5, h6, h7, h8, h9, h10, h11, h12]
  push_cast
  ring

open Complex in
theorem exp_near (x : ℝ) (h : |x| ≤ 1) :
    ‖Complex.exp ((x : ℂ) * I) - (((1 - x ^ 2 / 2 + x ^ 4 / 24 - x ^ 6 / 720 + x ^ 8 / 40320 - x ^ 10 / 3628800 + x ^ 12 / 479001600 : ℝ) : ℂ) +
      ((x - x ^ 3 / 6 + x ^ 5 / 120 - x ^ 7 / 5040 + x ^ 9 / 362880 - x ^ 11 / 39916800 : ℝ) : ℂ) * I)‖ ≤ |x| ^ 13 / 5000000000 := by
  have hn : ‖(x : ℂ) * I‖ = |x| := by rw [norm_mul, norm_I, mul_one, norm_real, Real.norm_eq_abs]
  have := Complex.exp_bound (x := (x : ℂ) * I) (by rw [hn]; exact h) (n := 13) (by norm_num)
  rw [exp_series, hn] at this
  refine this.trans ?_
  rw [div_eq_mul_inv]
  apply mul_le_mul_of_nonneg_left _ (by positivity)
  norm_num [Nat.factorial]

/-- The sine of a number in [-1,1]. -/
theorem sin_near (x : ℝ) (h : |x| ≤ 1) :
    |Real.sin x - (x - x ^ 3 / 6 + x ^ 5 / 120 - x ^ 7 / 5040 + x ^ 9 / 362880 - x ^ 11 / 39916800)| ≤ |x| ^ 13 / 5000000000 := by
  refine le_trans ?_ (exp_near x h)
  refine le_trans (le_of_eq ?_) (Complex.abs_im_le_norm _)
  congr 1
  rw [Complex.sub_im, Complex.exp_ofReal_mul_I_im]
  simp only [Complex.add_im, Complex.ofReal_im, Complex.mul_im, Complex.ofReal_re, Complex.I_im, Complex.I_re]
  ring

/-- The cosine of a number in [-1,1]. -/
theorem cos_near (x : ℝ) (h : |x| ≤ 1) :
    |Real.cos x - (1 - x ^ 2 / 2 + x ^ 4 / 24 - x ^ 6 / 720 + x ^ 8 / 40320 - x ^ 10 / 3628800 + x ^ 12 / 479001600)| ≤ |x| ^ 13 / 5000000000 := by
  refine le_trans ?_ (exp_near x h)
  refine le_trans (le_of_eq ?_) (Complex.abs_re_le_norm _)
  congr 1
  rw [Complex.sub_re, Complex.exp_ofReal_mul_I_re]
  simp only [Complex.add_re, Complex.ofReal_im, Complex.mul_re, Complex.ofReal_re, Complex.I_im, Complex.I_re]
  ring

/-- The sine of the double closest to 8°. -/
theorem sin_eight : |Real.sin (5030569068109113 / 2 ^ 55) - 5014239404989977 / 2 ^ 55| < 3 / 2 ^ 59 := by
  have := sin_near (5030569068109113 / 2 ^ 55) (by rw [abs_of_pos (by norm_num)]; norm_num)
  rw [abs_of_pos (a := (5030569068109113 / 2 ^ 55 : ℝ)) (by norm_num)] at this
  rw [abs_le] at this
  rw [abs_lt]
  constructor <;> norm_num at this ⊢ <;> linarith

/-- The cosine of the double closest to 8°. -/
theorem cos_eight : |Real.cos (5030569068109113 / 2 ^ 55) - 4459770905381437 / 2 ^ 52| < 27 / 2 ^ 59 := by
  have := cos_near (5030569068109113 / 2 ^ 55) (by rw [abs_of_pos (by norm_num)]; norm_num)
  rw [abs_of_pos (a := (5030569068109113 / 2 ^ 55 : ℝ)) (by norm_num)] at this
  rw [abs_le] at this
  rw [abs_lt]
  constructor <;> norm_num at this ⊢ <;> linarith

end Astro
