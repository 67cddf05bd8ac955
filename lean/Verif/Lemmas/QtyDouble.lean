import Verif.Spec.QtyDouble
import Verif.Lemmas.AngDouble
import Mathlib.Analysis.Real.Pi.Bounds

/-
Helper lemmas: relative errors.
-/

set_option exponentiation.threshold 3000

namespace Astro

open Spec Time

attribute [local irreducible] FloatFmt.nearest FloatFmt.value Dbl.round

/-- `q` is `r` up to the fraction `e`. -/
def Rel (q : ℚ) (r e : ℝ) : Prop := |(q : ℝ) - r| ≤ |r| * e

theorem rel_self (q : ℚ) : Rel q q 0 := by simp [Rel]

theorem rel_mono {q : ℚ} {r e f : ℝ} (h : Rel q r e) (hf : e ≤ f) : Rel q r f := h.trans (mul_le_mul_of_nonneg_left hf (abs_nonneg _))

theorem rel_trans {q : ℚ} {r s e f : ℝ} (h : |(q : ℝ) - s| ≤ |s| * f) (h' : |s - r| ≤ |r| * e) (hf : 0 ≤ f) : Rel q r ((1 + e) * (1 + f) - 1) := by
  have h1 : |s| ≤ |r| + |r| * e := by
    have : s = r + (s - r) := by ring
    rw [this]
    exact (abs_add_le _ _).trans (add_le_add le_rfl h')
  have h2 : |s| * f ≤ (|r| + |r| * e) * f := mul_le_mul_of_nonneg_right h1 hf
  have h3 : (q : ℝ) - r = (q - s) + (s - r) := by ring
  unfold Rel
  rw [h3]
  refine (abs_add_le _ _).trans ((add_le_add (h.trans h2) h').trans (le_of_eq ?_))
  ring

/-- Exact product of two approximations. -/
theorem rel_product {a b : ℝ} {r s e f : ℝ} (ha : |a - r| ≤ |r| * e) (hb : |b - s| ≤ |s| * f) :
    |a * b - r * s| ≤ |r * s| * ((1 + e) * (1 + f) - 1) := by
  have h3 : a * b - r * s = (a - r) * (b - s) + (a - r) * s + r * (b - s) := by ring
  rw [h3]
  refine (abs_add_three _ _ _).trans ?_
  rw [abs_mul, abs_mul, abs_mul, abs_mul]
  have e1 : |a - r| * |b - s| ≤ |r| * e * (|s| * f) := mul_le_mul ha hb (abs_nonneg _) ((abs_nonneg _).trans ha)
  have e2 : |a - r| * |s| ≤ |r| * e * |s| := mul_le_mul_of_nonneg_right ha (abs_nonneg _)
  have e3 : |r| * |b - s| ≤ |r| * (|s| * f) := mul_le_mul_of_nonneg_left hb (abs_nonneg _)
  calc _ ≤ |r| * e * (|s| * f) + |r| * e * |s| + |r| * (|s| * f) := add_le_add (add_le_add e1 e2) e3
    _ = _ := by ring

theorem zpow_cast (n : ℤ) : (((2 : ℚ) ^ n : ℚ) : ℝ) = 2 ^ n := by push_cast; rfl

theorem cast_le_zpow {q : ℚ} {n : ℤ} (h : |q| ≤ 2 ^ n) : |(q : ℝ)| ≤ 2 ^ n := by
  have := (Rat.cast_le (K := ℝ)).2 h
  rwa [zpow_cast, Rat.cast_abs] at this

theorem cast_zpow_le {q : ℚ} {n : ℤ} (h : 2 ^ n ≤ |q|) : 2 ^ n ≤ |(q : ℝ)| := by
  have := (Rat.cast_le (K := ℝ)).2 h
  rwa [zpow_cast, Rat.cast_abs] at this

/-- Rounding of a number that is neither huge nor tiny. -/
theorem round_rel {t : ℚ} (h : t = 0 ∨ 2 ^ (-1021 : ℤ) ≤ |t|) (h' : |t| ≤ 2 ^ (1023 : ℤ)) : ∃ p, Dbl.round t = .num p ∧ IsDouble p ∧ |(p : ℝ) - t| ≤ |(t : ℝ)| * unit53 := by
  rcases h with rfl | h
  · exact ⟨0, round_zero, isDouble_zero, by simp⟩
  · refine ⟨_, round_top h', ieee.isDouble _, ?_⟩
    have := (Rat.cast_le (K := ℝ)).2 (near_rel ieee h h')
    rw [unit53]
    push_cast at this
    exact this

theorem abs_between {a r e : ℝ} (h : |a - r| ≤ |r| * e) (he : e ≤ 1 / 2) : |r| / 2 ≤ |a| ∧ |a| ≤ 2 * |r| := by
  have h1 : |r| * e ≤ |r| * (1 / 2) := mul_le_mul_of_nonneg_left he (abs_nonneg _)
  have h2 := abs_sub_abs_le_abs_sub r a
  have h3 := abs_sub_abs_le_abs_sub a r
  rw [abs_sub_comm] at h2
  constructor <;> linarith [abs_nonneg r]

/-- The product of two approximations, rounded. -/
theorem rel_mul {a b : ℚ} {r s e f : ℝ} (ha : Rel a r e) (hb : Rel b s f) (he : 0 ≤ e) (_hf : 0 ≤ f) (he' : e ≤ 1 / 8) (hf' : f ≤ 1 / 8)
    (hlo : r * s = 0 ∨ 2 ^ (-1000 : ℤ) ≤ |r * s|) (hhi : |r * s| ≤ 2 ^ (1000 : ℤ)) :
    ∃ p, (Dbl.num a).mul (.num b) = .num p ∧ IsDouble p ∧ Rel p (r * s) ((1 + e) * (1 + f) * (1 + unit53) - 1) := by
  have h := rel_product ha hb
  have hef : (1 + e) * (1 + f) - 1 ≤ 1 / 2 := by nlinarith
  obtain ⟨b1, b2⟩ := abs_between h hef
  have hh : |a * b| ≤ 2 ^ (1023 : ℤ) := by
    have : ((|a * b| : ℚ) : ℝ) ≤ ((2 ^ (1023 : ℤ) : ℚ) : ℝ) := by
      rw [zpow_cast]
      push_cast
      refine b2.trans ((mul_le_mul_of_nonneg_left hhi (by norm_num)).trans ?_)
      rw [show (2 : ℝ) ^ (1023 : ℤ) = 2 ^ (1000 : ℤ) * 2 ^ (23 : ℤ) from by rw [← zpow_add₀ (by norm_num)]; norm_num]
      have := two_zpow_real 1000
      generalize (2 : ℝ) ^ (1000 : ℤ) = t at *
      norm_num
      linarith
    exact (Rat.cast_le (K := ℝ)).1 this
  have hl : a * b = 0 ∨ 2 ^ (-1021 : ℤ) ≤ |a * b| := by
    rcases hlo with h0 | h0
    · left
      rw [h0] at h
      simp only [abs_zero, zero_mul] at h
      have := abs_nonpos_iff.1 h
      have h2 : ((a * b : ℚ) : ℝ) = 0 := by push_cast; linarith
      exact_mod_cast h2
    · right
      have : ((2 ^ (-1021 : ℤ) : ℚ) : ℝ) ≤ ((|a * b| : ℚ) : ℝ) := by
        rw [zpow_cast]
        push_cast
        refine le_trans ?_ b1
        refine le_trans ?_ (div_le_div_of_nonneg_right h0 (by norm_num))
        rw [show (2 : ℝ) ^ (-1021 : ℤ) = 2 ^ (-1000 : ℤ) * 2 ^ (-21 : ℤ) from by rw [← zpow_add₀ (by norm_num)]; norm_num]
        have := two_zpow_real (-1000)
        generalize (2 : ℝ) ^ (-1000 : ℤ) = t at *
        norm_num
        linarith
      exact (Rat.cast_le (K := ℝ)).1 this
  obtain ⟨p, h1, h2, h3⟩ := round_rel hl hh
  refine ⟨p, by rw [mul_num, h1], h2, ?_⟩
  push_cast at h3
  have := rel_trans h3 h unit53_pos.le
  refine rel_mono this (le_of_eq (by ring))

theorem cube_small {u : ℝ} (h0 : 0 < u) (h1 : u ≤ 1 / 2 ^ 20) : (1 + u) * (1 + u) * (1 + u) - 1 ≤ 4 * u := by
  have h2 : u * u ≤ u * (1 / 2 ^ 20) := mul_le_mul_of_nonneg_left h1 h0.le
  have h3 : u * u * u ≤ u * (1 / 2 ^ 20) * 1 := mul_le_mul h2 (h1.trans (by norm_num)) h0.le (by positivity)
  have e : (1 + u) * (1 + u) * (1 + u) - 1 = 3 * u + 3 * (u * u) + u * u * u := by ring
  rw [e]
  norm_num at h2 h3
  linarith

/-- The double that boost::units multiplies degrees with. -/
theorem degree_num : degreeFactor = .num (5030569068109444 * 2 ^ (-58 : ℤ)) := by decide +kernel

theorem degree_double : IsDouble (5030569068109444 * 2 ^ (-58 : ℤ)) := ⟨5030569068109444, -58, by norm_num, by norm_num, by norm_num, by norm_num⟩

/-- It is larger than π/180. -/
theorem degree_close : Real.pi / 180 * (65 / 10 ^ 15) ≤ ((5030569068109444 * 2 ^ (-58 : ℤ) : ℚ) : ℝ) - Real.pi / 180 ∧
    ((5030569068109444 * 2 ^ (-58 : ℤ) : ℚ) : ℝ) - Real.pi / 180 ≤ Real.pi / 180 * (66 / 10 ^ 15) := by
  have h1 := Real.pi_gt_d20
  have h2 := Real.pi_lt_d20
  have e : ((5030569068109444 * 2 ^ (-58 : ℤ) : ℚ) : ℝ) = 5030569068109444 / 2 ^ 58 := by norm_num
  rw [e]
  norm_num at h1 h2 ⊢
  constructor <;> linarith

theorem sin_close (x y : ℝ) : |Real.sin x - Real.sin y| ≤ |x - y| := by
  have h := exp_close x y
  have h2 := Complex.abs_im_le_norm (Complex.exp (x * Complex.I) - Complex.exp (y * Complex.I))
  rw [Complex.sub_im, Complex.exp_ofReal_mul_I_im, Complex.exp_ofReal_mul_I_im] at h2
  exact h2.trans h

theorem cos_close (x y : ℝ) : |Real.cos x - Real.cos y| ≤ |x - y| := by
  have h := exp_close x y
  have h2 := Complex.abs_re_le_norm (Complex.exp (x * Complex.I) - Complex.exp (y * Complex.I))
  rw [Complex.sub_re, Complex.exp_ofReal_mul_I_re, Complex.exp_ofReal_mul_I_re] at h2
  exact h2.trans h

theorem product_close {a b c d e f : ℝ} (h1 : |a - c| ≤ e) (h2 : |b - d| ≤ f) (ha : |a| ≤ 1) (hd : |d| ≤ 1) : |a * b - c * d| ≤ e + f := by
  have h3 : a * b - c * d = a * (b - d) + (a - c) * d := by ring
  rw [h3]
  refine (abs_add_le _ _).trans ?_
  rw [abs_mul, abs_mul]
  have e1 : |a| * |b - d| ≤ 1 * f := mul_le_mul ha h2 (abs_nonneg _) zero_le_one
  have e2 : |a - c| * |d| ≤ e * 1 := mul_le_mul h1 hd (abs_nonneg _) ((abs_nonneg _).trans h1)
  linarith

/-- Moving both angles moves a position by at most the sum of the angles. -/
theorem position_close {s : Coord.System} (hs : s ≠ .cartesian) {a b a' b' r e f : ℝ} (h1 : |a - a'| ≤ e) (h2 : |b - b'| ≤ f) (i : Fin 3) :
    |position s a b r i - position s a' b' r i| ≤ |r| * (e + f) := by
  have e0 : 0 ≤ e := (abs_nonneg _).trans h1
  have key : ∀ x y : ℝ, |x - y| ≤ e + f → |r * x - r * y| ≤ |r| * (e + f) := by
    intro x y h
    rw [← mul_sub, abs_mul]
    exact mul_le_mul_of_nonneg_left h (abs_nonneg _)
  have sa := (sin_close a a').trans h1
  have ca := (cos_close a a').trans h1
  have sb := (sin_close b b').trans h2
  have cb := (cos_close b b').trans h2
  cases s with
  | cartesian => exact absurd rfl hs
  | spherical =>
    unfold position
    fin_cases i
    · show |r * Real.sin b * Real.cos a - r * Real.sin b' * Real.cos a'| ≤ _
      rw [mul_assoc, mul_assoc, add_comm]
      rw [add_comm] at key
      exact key _ _ (product_close sb ca (Real.abs_sin_le_one _) (Real.abs_cos_le_one _))
    · show |r * Real.sin b * Real.sin a - r * Real.sin b' * Real.sin a'| ≤ _
      rw [mul_assoc, mul_assoc, add_comm]
      rw [add_comm] at key
      exact key _ _ (product_close sb sa (Real.abs_sin_le_one _) (Real.abs_sin_le_one _))
    · exact key _ _ (cb.trans (by linarith))
  | equatorial =>
    unfold position
    fin_cases i
    · show |r * Real.cos b * Real.cos a - r * Real.cos b' * Real.cos a'| ≤ _
      rw [mul_assoc, mul_assoc, add_comm]
      rw [add_comm] at key
      exact key _ _ (product_close cb ca (Real.abs_cos_le_one _) (Real.abs_cos_le_one _))
    · show |r * Real.cos b * Real.sin a - r * Real.cos b' * Real.sin a'| ≤ _
      rw [mul_assoc, mul_assoc, add_comm]
      rw [add_comm] at key
      exact key _ _ (product_close cb sa (Real.abs_cos_le_one _) (Real.abs_sin_le_one _))
    · exact key _ _ (sb.trans (by linarith))

end Astro
