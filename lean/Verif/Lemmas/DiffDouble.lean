import Verif.Model.DiffDouble
import Verif.Props.AngDouble
import Verif.Lemmas.QtyVec

/-
Lemmas for C128.
-/

set_option exponentiation.threshold 3000

namespace Astro

open Spec Time

attribute [local irreducible] FloatFmt.nearest FloatFmt.value Dbl.round

theorem size_smul (k : ℝ) (v : Coord.Vec) : size (k • v) = |k| * size v := by
  rw [size_eq, size_eq, ← Real.sqrt_sq_eq_abs, ← Real.sqrt_mul (sq_nonneg k)]
  congr 1
  simp
  ring

theorem chord_smul (k : ℝ) (v w : Coord.Vec) : chord (k • v) (k • w) = |k| * chord v w := by
  unfold chord
  rw [← Real.sqrt_sq_eq_abs, ← Real.sqrt_mul (sq_nonneg k)]
  congr 1
  simp
  ring

theorem axis_smul (k : ℝ) (v : Coord.Vec) : √((k • v) 0 ^ 2 + (k • v) 1 ^ 2) = |k| * √(v 0 ^ 2 + v 1 ^ 2) := by
  rw [← Real.sqrt_sq_eq_abs, ← Real.sqrt_mul (sq_nonneg k)]
  congr 1
  simp
  ring

theorem position_smul (s : Coord.System) (hs : s ≠ .cartesian) (a b r k : ℝ) : k • position s a b r = position s a b (k * r) := by
  cases s with
  | cartesian => exact absurd rfl hs
  | spherical => funext i; fin_cases i <;> simp [position] <;> ring
  | equatorial => funext i; fin_cases i <;> simp [position] <;> ring

theorem position_chord (s : Coord.System) (hs : s ≠ .cartesian) (a b r r' : ℝ) : chord (position s a b r) (position s a b r') = |r - r'| := by
  rw [← position_size s hs a b (r - r'), size_eq]
  unfold chord
  congr 1
  cases s with
  | cartesian => exact absurd rfl hs
  | spherical => simp [position]; ring
  | equatorial => simp [position]; ring

/-- The product of two doubles of ordinary size. -/
theorem scaled_near {x k : ℚ} (hb : |(x : ℝ) * k| ≤ 2 ^ (1000 : ℤ)) :
    ∃ p, (Dbl.num x).mul (.num k) = .num p ∧ IsDouble p ∧ |(p : ℝ) - x * k| ≤ |(x : ℝ) * k| * unit53 + 2 ^ (-1075 : ℤ) := by
  have h : |x * k| ≤ 2 ^ (1023 : ℤ) := (rat_le_of_real (by push_cast; exact hb)).trans (zpow_le_zpow_right₀ (by norm_num) (by norm_num))
  obtain ⟨p, h1, h2, h3, -⟩ := mul_err h
  refine ⟨p, h1, h2, ?_⟩
  have := (Rat.cast_le (K := ℝ)).2 h3
  rw [Rat.cast_abs, Rat.cast_add, Rat.cast_mul, Rat.cast_abs] at this
  push_cast at this
  have e1 : ((ulp : ℚ) : ℝ) = unit53 := by norm_num [ulp, unit53]
  have e2 : ((speck : ℚ) : ℝ) = 2 ^ (-1075 : ℤ) := by rw [speck, zpow_cast]
  rw [e1, e2] at this
  exact this

/-- The magnitude of base_differential is that of arithmetic.hpp. -/
theorem diffMagnitude_eq {T : Trig} {s : Coord.System} {p : DSph} {x y z : ℚ} (h : Coords (p.toCartesian T s) x y z) :
    p.diffMagnitude T s = (p.toCartesian T s).magnitude := by
  have dr : ∀ t q : ℚ, Dbl.round t = .num q → IsDouble q := fun t q h => round_double h
  unfold DSph.diffMagnitude DVec.magnitude
  rw [h.1]
  dsimp only
  rw [mul_num, mul_num, mul_num, zero_add' (dr _)]
  rw [zero_add' (a := ((Dbl.round (x * x)).add (Dbl.round (y * y))).add (Dbl.round (z * z)))]
  intro q hq
  exact add_double hq

/-- The quotient of a coslat angle by the cosine. -/
theorem cosLat_angle {T : Trig} (hT : Accurate T) {φ w : ℚ} (h0 : IsDouble φ) (hc : 2 ^ (-20 : ℤ) ≤ |Real.cos φ|) (hw : |(w : ℝ)| ≤ 4) :
    ∃ q, (Dbl.num w).div (T.cos (.num φ)) = .num q ∧ IsDouble q ∧ |(q : ℝ) - w / Real.cos φ| ≤ 10 * unit53 / Real.cos φ ^ 2 := by
  have u0 := unit53_pos
  obtain ⟨c, hcc, dc, ec⟩ := (hT φ h0).2
  have ec' : |(c : ℝ) - Real.cos φ| ≤ unit53 := ec
  have C1 : |Real.cos (φ : ℝ)| ≤ 1 := Real.abs_cos_le_one _
  have C0 : 0 < |Real.cos (φ : ℝ)| := lt_of_lt_of_le (by positivity) hc
  have small : unit53 ≤ |Real.cos (φ : ℝ)| * (1 / 1000) := by
    have : unit53 ≤ 2 ^ (-20 : ℤ) * (1 / 1000) := by norm_num [unit53]
    exact this.trans (mul_le_mul_of_nonneg_right hc (by norm_num))
  have cl : |Real.cos (φ : ℝ)| * (999 / 1000) ≤ |(c : ℝ)| := by
    have := abs_sub_abs_le_abs_sub (Real.cos (φ : ℝ)) c
    rw [abs_sub_comm] at this
    linarith
  have c0 : 0 < |(c : ℝ)| := lt_of_lt_of_le (by positivity) cl
  have cne : c ≠ 0 := by
    rintro rfl
    simp at c0
  have cner : (c : ℝ) ≠ 0 := by exact_mod_cast cne
  have Cne : Real.cos (φ : ℝ) ≠ 0 := abs_pos.1 C0
  have hq : |(w : ℝ) / c| ≤ 41 / 10 / |Real.cos (φ : ℝ)| := by
    rw [abs_div, div_le_div_iff₀ c0 C0]
    have h1 := mul_le_mul_of_nonneg_right hw C0.le
    linarith
  have big : |w / c| ≤ 2 ^ (1023 : ℤ) := by
    apply rat_le_of_real
    push_cast
    refine hq.trans ((div_le_iff₀ C0).2 ?_)
    refine le_trans ?_ (mul_le_mul_of_nonneg_left hc (by positivity))
    rw [← zpow_add₀ (by norm_num)]
    refine le_trans ?_ (zpow_le_zpow_right₀ (by norm_num) (show (3 : ℤ) ≤ 1023 + -20 by norm_num))
    norm_num
  have er := (Rat.cast_le (K := ℝ)).2 (near_rel_abs ieee big)
  rw [Rat.cast_abs, Rat.cast_add, Rat.cast_mul, Rat.cast_abs] at er
  push_cast at er
  rw [show (2 : ℝ) ^ (-53 : ℤ) = unit53 by norm_num [unit53]] at er
  refine ⟨_, by rw [hcc, div_num cne, round_top big], ieee.isDouble _, ?_⟩
  have e1 : |(w : ℝ) / c - w / Real.cos φ| ≤ 41 / 10 * unit53 / Real.cos φ ^ 2 := by
    have : (w : ℝ) / c - w / Real.cos φ = w / c * ((Real.cos φ - c) / Real.cos φ) := by field_simp
    rw [this, abs_mul, abs_div (Real.cos (φ : ℝ) - c), abs_sub_comm (Real.cos (φ : ℝ))]
    refine (mul_le_mul hq (div_le_div_of_nonneg_right ec' C0.le) (by positivity) (by positivity)).trans (le_of_eq ?_)
    rw [← sq_abs (Real.cos (φ : ℝ))]
    field_simp
  have e2 : |(w : ℝ) / c| * unit53 ≤ 41 / 10 * unit53 / Real.cos φ ^ 2 := by
    refine (mul_le_mul_of_nonneg_right hq u0.le).trans ?_
    rw [← sq_abs (Real.cos (φ : ℝ)), div_mul_eq_mul_div]
    refine div_le_div_of_nonneg_left (by positivity) (by positivity) ?_
    rw [sq]
    exact mul_le_of_le_one_left C0.le C1
  have s0 : 0 < Real.cos (φ : ℝ) ^ 2 := by rw [← sq_abs]; positivity
  have e3 : (2 : ℝ) ^ (-1075 : ℤ) ≤ 1 * unit53 / Real.cos φ ^ 2 := by
    rw [le_div_iff₀ s0]
    have h1 : Real.cos (φ : ℝ) ^ 2 ≤ 1 := Real.cos_sq_le_one _
    have h2 : (2 : ℝ) ^ (-1075 : ℤ) ≤ unit53 := by norm_num [unit53]
    have h3 := mul_le_mul h2 h1 s0.le u0.le
    linarith
  have e4 : 41 / 10 * unit53 / Real.cos (φ : ℝ) ^ 2 + 1 * unit53 / Real.cos φ ^ 2 + 41 / 10 * unit53 / Real.cos φ ^ 2 ≤ 10 * unit53 / Real.cos φ ^ 2 := by
    rw [← add_div, ← add_div]
    exact div_le_div_of_nonneg_right (by linarith) s0.le
  refine (abs_sub_le _ ((w : ℝ) / c) _).trans ?_
  exact (add_le_add (er.trans (add_le_add e2 e3)) e1).trans e4

end Astro
