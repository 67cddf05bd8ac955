import Verif.Lemmas.RotDouble

/-
Helper lemmas: error propagation for numbers of any moderate size; errors are multiples of 2^-53.
-/

set_option exponentiation.threshold 3000

namespace Astro

open Spec Time

attribute [local irreducible] FloatFmt.nearest FloatFmt.value Dbl.round

theorem unit_sq {c d : ℝ} (hc : 0 ≤ c) (hd : 0 ≤ d) (h : c * d ≤ 2 ^ 32) : (c * unit53) * (d * unit53) ≤ 1 / 10000 * unit53 := by
  have u0 := unit53_pos
  have : (c * unit53) * (d * unit53) = (c * d * unit53) * unit53 := by ring
  rw [this]
  refine mul_le_mul_of_nonneg_right ?_ u0.le
  calc c * d * unit53 ≤ 2 ^ 32 * unit53 := mul_le_mul_of_nonneg_right h u0.le
    _ ≤ 1 / 10000 := by norm_num [unit53]

theorem cast_top {q : ℚ} (h : |(q : ℝ)| ≤ 2 ^ 100) : |q| ≤ 2 ^ (1023 : ℤ) := by
  have h1 : |q| ≤ 2 ^ 100 := by
    have : ((|q| : ℚ) : ℝ) ≤ ((2 ^ 100 : ℚ) : ℝ) := by push_cast; exact h
    exact (Rat.cast_le (K := ℝ)).1 this
  exact h1.trans (pow_le_top (by norm_num))

/-- Rounding a number near `r`. -/
theorem near_round {q : ℚ} {r R c : ℝ} (hq : |(q : ℝ) - r| ≤ c * unit53) (hr : |r| ≤ R) (hc : 0 ≤ c) (hc' : c ≤ 2 ^ 32) (hR : R ≤ 2 ^ 99) :
    Near (Dbl.round q) r ((c + R + 1 / 1000) * unit53) := by
  have u0 := unit53_pos
  have hcu : c * unit53 ≤ 1 / 10000 := (mul_le_mul_of_nonneg_right hc' u0.le).trans (by norm_num [unit53])
  have nq : |(q : ℝ)| ≤ R + c * unit53 := by
    have : (q : ℝ) = r + (q - r) := by ring
    rw [this]
    exact (abs_add_le _ _).trans (by linarith)
  have h1 := cast_top (nq.trans (by linarith [show (2 : ℝ) ^ 99 + 1 / 10000 ≤ 2 ^ 100 by norm_num]))
  refine ⟨ieee.rnd q, round_top h1, ieee.isDouble _, ?_⟩
  have h2 := (Rat.cast_le (K := ℝ)).2 (near_rel_abs ieee h1)
  have h3 : |((ieee.rnd q : ℚ) : ℝ) - q| ≤ |(q : ℝ)| * unit53 + speck := by
    rw [Rat.cast_abs, Rat.cast_sub, Rat.cast_add, Rat.cast_mul, Rat.cast_abs] at h2
    have e : (((2 : ℚ) ^ (-53 : ℤ) : ℚ) : ℝ) = unit53 := by rw [Rat.cast_zpow, Rat.cast_ofNat]; rfl
    rw [e] at h2
    exact h2
  have h4 : |(q : ℝ)| * unit53 ≤ (R + c * unit53) * unit53 := mul_le_mul_of_nonneg_right nq u0.le
  have h5 : c * unit53 * unit53 ≤ 1 / 10000 * unit53 := mul_le_mul_of_nonneg_right hcu u0.le
  have h6 := speck_unit
  have : ((ieee.rnd q : ℚ) : ℝ) - r = (ieee.rnd q - q) + (q - r) := by ring
  rw [this]
  refine (abs_add_le _ _).trans ?_
  linarith

theorem near_constant {q : ℚ} {r R : ℝ} (hq : (q : ℝ) = r) (hr : |r| ≤ R) (hR : R ≤ 2 ^ 99) : Near (Dbl.round q) r ((R + 1 / 1000) * unit53) := by
  have := near_round (q := q) (r := r) (c := 0) (by rw [hq]; simp) hr le_rfl (by norm_num) hR
  rwa [zero_add] at this

theorem near_mul_gen {a b : Dbl} {r s c d R S : ℝ} (ha : Near a r (c * unit53)) (hb : Near b s (d * unit53)) (hr : |r| ≤ R) (hs : |s| ≤ S)
    (hc : c ≤ 2 ^ 14) (hd : d ≤ 2 ^ 14) (hR : R ≤ 2 ^ 14) (hS : S ≤ 2 ^ 14) :
    Near (a.mul b) (r * s) ((c * S + d * R + R * S + 1 / 100) * unit53) := by
  obtain ⟨x, rfl, -, ex⟩ := ha
  obtain ⟨y, rfl, -, ey⟩ := hb
  have u0 := unit53_pos
  have R0 := (abs_nonneg _).trans hr
  have S0 := (abs_nonneg _).trans hs
  have c0 : 0 ≤ c := by
    by_contra h
    have := mul_neg_of_neg_of_pos (not_le.1 h) u0
    linarith [(abs_nonneg _).trans ex]
  have d0 : 0 ≤ d := by
    by_contra h
    have := mul_neg_of_neg_of_pos (not_le.1 h) u0
    linarith [(abs_nonneg _).trans ey]
  have hxy : |((x * y : ℚ) : ℝ) - r * s| ≤ (c * S + d * R + 1 / 10000) * unit53 := by
    have e : ((x * y : ℚ) : ℝ) - r * s = (x - r) * (y - s) + (x - r) * s + r * (y - s) := by push_cast; ring
    rw [e]
    refine (abs_add_three _ _ _).trans ?_
    rw [abs_mul, abs_mul, abs_mul]
    have h1 := mul_le_mul ex ey (abs_nonneg _) (by positivity)
    have h2 := mul_le_mul ex hs (abs_nonneg _) (by positivity)
    have h3 := mul_le_mul hr ey (abs_nonneg _) R0
    have h4 := unit_sq c0 d0 ((mul_le_mul hc hd d0 (by norm_num)).trans (by norm_num))
    linarith
  have k1 : c * S ≤ 2 ^ 14 * 2 ^ 14 := mul_le_mul hc hS S0 (by norm_num)
  have k2 : d * R ≤ 2 ^ 14 * 2 ^ 14 := mul_le_mul hd hR R0 (by norm_num)
  have k3 : R * S ≤ 2 ^ 14 * 2 ^ 14 := mul_le_mul hR hS S0 (by norm_num)
  have hrs : |r * s| ≤ R * S := by rw [abs_mul]; exact mul_le_mul hr hs (abs_nonneg _) R0
  refine near_mono (near_round hxy hrs (by positivity) ?_ ?_) ?_
  · norm_num at k1 k2 ⊢; linarith
  · norm_num at k3 ⊢; linarith
  · exact mul_le_mul_of_nonneg_right (by linarith) u0.le

theorem near_add_gen {a b : Dbl} {r s c d Q : ℝ} (ha : Near a r (c * unit53)) (hb : Near b s (d * unit53)) (hrs : |r + s| ≤ Q)
    (h0 : 0 ≤ c + d) (hcd : c + d ≤ 2 ^ 32) (hQ : Q ≤ 2 ^ 99) : Near (a.add b) (r + s) ((c + d + Q + 1 / 1000) * unit53) := by
  obtain ⟨x, rfl, -, ex⟩ := ha
  obtain ⟨y, rfl, -, ey⟩ := hb
  refine near_round ?_ hrs h0 hcd hQ
  have e : ((x + y : ℚ) : ℝ) - (r + s) = (x - r) + (y - s) := by push_cast; ring
  rw [e]
  refine (abs_add_le _ _).trans ?_
  linarith

theorem near_sub_gen {a b : Dbl} {r s c d Q : ℝ} (ha : Near a r (c * unit53)) (hb : Near b s (d * unit53)) (hrs : |r - s| ≤ Q)
    (h0 : 0 ≤ c + d) (hcd : c + d ≤ 2 ^ 32) (hQ : Q ≤ 2 ^ 99) : Near (a.sub b) (r - s) ((c + d + Q + 1 / 1000) * unit53) := by
  rw [sub_eq_add_neg] at hrs ⊢
  exact near_add_gen ha (near_neg hb) hrs h0 hcd hQ

/-- Division by a positive integer constant. -/
theorem near_div_gen {a : Dbl} {r c R : ℝ} (ha : Near a r (c * unit53)) {k : ℚ} (hk : 1 ≤ k) (hr : |r| ≤ R * k)
    (h0 : 0 ≤ c) (hc : c / k ≤ 2 ^ 32) (hR : R ≤ 2 ^ 99) : Near (a.div (.num k)) (r / k) ((c / k + R + 1 / 1000) * unit53) := by
  obtain ⟨x, rfl, -, ex⟩ := ha
  have k0 : (0 : ℚ) < k := by linarith
  have k0' : (0 : ℝ) < k := by exact_mod_cast k0
  rw [div_num k0.ne']
  refine near_round ?_ ?_ (by positivity) hc hR
  · have e : ((x / k : ℚ) : ℝ) - r / k = (x - r) / k := by push_cast; ring
    rw [e, abs_div, abs_of_pos k0', div_mul_eq_mul_div]
    exact div_le_div_of_nonneg_right ex k0'.le
  · rw [abs_div, abs_of_pos k0', div_le_iff₀ k0']
    exact hr

end Astro
