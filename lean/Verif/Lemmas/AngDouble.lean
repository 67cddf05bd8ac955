import Verif.Spec.AngDouble
import Verif.Lemmas.ChainDouble
import Verif.Lemmas.SepDouble
import Verif.Props.VecDouble

/-
Helper lemmas: arithmetic on angular representations in doubles.
-/

set_option exponentiation.threshold 3000

namespace Astro

open Spec Time

attribute [local irreducible] FloatFmt.nearest FloatFmt.value Dbl.round

/-- Coordinates as a vector. -/
noncomputable def vec (x y z : ℚ) : Coord.Vec := ![x, y, z]

theorem chord_comm (v w : Coord.Vec) : chord v w = chord w v := by rw [chord_dist, chord_dist, dist_comm]

theorem chord_nonneg (v w : Coord.Vec) : 0 ≤ chord v w := Real.sqrt_nonneg _

theorem size_nonneg (v : Coord.Vec) : 0 ≤ size v := chord_nonneg _ _

theorem size_sub (v w : Coord.Vec) : size v ≤ size w + chord v w := by
  unfold size
  have := chord_triangle v w 0
  linarith

theorem size_eq (v : Coord.Vec) : size v = √(v 0 ^ 2 + v 1 ^ 2 + v 2 ^ 2) := by
  unfold size chord
  simp

theorem coord_le_size (v : Coord.Vec) : |v 0| ≤ size v ∧ |v 1| ≤ size v ∧ |v 2| ≤ size v := by
  rw [size_eq]
  refine ⟨?_, ?_, ?_⟩ <;>
  · apply Real.abs_le_sqrt
    nlinarith [sq_nonneg (v 0), sq_nonneg (v 1), sq_nonneg (v 2)]

theorem chord_le_of {v w : Coord.Vec} {e : ℝ} (h0 : |v 0 - w 0| ≤ e) (h1 : |v 1 - w 1| ≤ e) (h2 : |v 2 - w 2| ≤ e) : chord v w ≤ 7 / 4 * e := by
  have e0 : 0 ≤ e := (abs_nonneg _).trans h0
  unfold chord
  apply Real.sqrt_le_iff.2
  refine ⟨by positivity, ?_⟩
  have a0 := sq_le_sq' (abs_le.1 h0).1 (abs_le.1 h0).2
  have a1 := sq_le_sq' (abs_le.1 h1).1 (abs_le.1 h1).2
  have a2 := sq_le_sq' (abs_le.1 h2).1 (abs_le.1 h2).2
  nlinarith [sq_nonneg e]

theorem position_size (s : Coord.System) (hs : s ≠ .cartesian) (a b r : ℝ) : size (position s a b r) = |r| := by
  rw [size_eq, ← Real.sqrt_sq_eq_abs]
  congr 1
  have h1 := Real.sin_sq_add_cos_sq a
  have h2 := Real.sin_sq_add_cos_sq b
  cases s with
  | cartesian => exact absurd rfl hs
  | spherical =>
    show (r * Real.sin b * Real.cos a) ^ 2 + (r * Real.sin b * Real.sin a) ^ 2 + (r * Real.cos b) ^ 2 = r ^ 2
    linear_combination r ^ 2 * (Real.sin b) ^ 2 * h1 + r ^ 2 * h2
  | equatorial =>
    show (r * Real.cos b * Real.cos a) ^ 2 + (r * Real.cos b * Real.sin a) ^ 2 + (r * Real.sin b) ^ 2 = r ^ 2
    linear_combination r ^ 2 * (Real.cos b) ^ 2 * h1 + r ^ 2 * h2

theorem vec_size (x y z : ℚ) : size (vec x y z) = √(x * x + y * y + z * z : ℝ) := by
  rw [size_eq]
  congr 1
  show (x : ℝ) ^ 2 + (y : ℝ) ^ 2 + (z : ℝ) ^ 2 = _
  ring

/-- Cartesian coordinates of what is stored. -/
theorem stored_near {T : Trig} (hT : Accurate T) {s : Coord.System} {p : DSph} {w : Coord.Vec} (h : Stands3 s p w) (hlo : (2 : ℝ) ^ (-900 : ℤ) ≤ size w)
    (hhi : size w ≤ 2 ^ (900 : ℤ)) :
    ∃ x y z : ℚ, Coords (p.toCartesian T s) x y z ∧ |(x : ℝ) - w 0| ≤ size w * (5 * unit53) ∧ |(y : ℝ) - w 1| ≤ size w * (5 * unit53) ∧
      |(z : ℝ) - w 2| ≤ size w * (5 * unit53) := by
  obtain ⟨a, b, r, rfl, da, db, dr, rfl⟩ := h
  have u0 := unit53_pos
  by_cases hs : s = .cartesian
  · subst hs
    have := size_nonneg (position .cartesian (a : ℝ) b r)
    refine ⟨a, b, r, ⟨rfl, da, db, dr⟩, ?_, ?_, ?_⟩
    · show |(a : ℝ) - a| ≤ _
      rw [sub_self, abs_zero]; positivity
    · show |(b : ℝ) - b| ≤ _
      rw [sub_self, abs_zero]; positivity
    · show |(r : ℝ) - r| ≤ _
      rw [sub_self, abs_zero]; positivity
  · rw [position_size s hs] at hlo hhi ⊢
    have hr : Moderate r := by
      constructor
      · have : (((2 : ℚ) ^ (-900 : ℤ) : ℚ) : ℝ) ≤ ((|r| : ℚ) : ℝ) := by
          rw [Rat.cast_zpow, Rat.cast_ofNat, Rat.cast_abs]; exact hlo
        exact (Rat.cast_le (K := ℝ)).1 this
      · have : ((|r| : ℚ) : ℝ) ≤ (((2 : ℚ) ^ (900 : ℤ) : ℚ) : ℝ) := by
          rw [Rat.cast_zpow, Rat.cast_ofNat, Rat.cast_abs]; exact hhi
        exact (Rat.cast_le (K := ℝ)).1 this
    obtain ⟨x, y, z, A, B, hc, -, eA, eB, ex, ey, ez⟩ := direction_parts hT hs da db hr
    refine ⟨x, y, z, hc, ?_⟩
    cases s with
    | cartesian => exact absurd rfl hs
    | spherical =>
      rw [if_neg (by decide)] at eA eB
      subst eA eB
      refine ⟨?_, ?_, ez⟩
      · show |(x : ℝ) - r * Real.sin b * Real.cos a| ≤ _
        rwa [mul_assoc]
      · show |(y : ℝ) - r * Real.sin b * Real.sin a| ≤ _
        rwa [mul_assoc]
    | equatorial =>
      rw [if_pos rfl] at eA eB
      subst eA eB
      refine ⟨?_, ?_, ez⟩
      · show |(x : ℝ) - r * Real.cos b * Real.cos a| ≤ _
        rwa [mul_assoc]
      · show |(y : ℝ) - r * Real.cos b * Real.sin a| ≤ _
        rwa [mul_assoc]

/-- The position that the result of a conversion stands for. -/
theorem back_near {I : InverseTrig} (hI : AccurateInverse I) (old : Dbl) {s : Coord.System} {v : DVec}
    {x y z : ℚ} (h : Coords v x y z) (hlo : 2 ^ (-960 : ℤ) ≤ x * x + y * y + z * z) (hhi : x * x + y * y + z * z ≤ 2 ^ (1000 : ℤ)) :
    ∃ (w : Coord.Vec) (S : ℝ), Stands3 s (v.toAngular I old s) w ∧ S ^ 2 ≤ 18 * unit53 ∧ 0 ≤ S ∧
      S * √(x * x + y * y : ℝ) ≤ size (vec x y z) * (17 * unit53) ∧ chord w (vec x y z) ≤ size (vec x y z) * (2 * S + 37 * unit53) := by
  have u0 := unit53_pos
  have u1 := unit53_small
  by_cases hs : s = .cartesian
  · subst hs
    have := size_nonneg (vec x y z)
    refine ⟨vec x y z, 0, ⟨x, y, z, ?_, h.2.1, h.2.2.1, h.2.2.2, rfl⟩, by rw [zero_pow two_ne_zero]; positivity, le_rfl, by rw [zero_mul]; positivity, ?_⟩
    · rw [h.1]
      rfl
    · rw [chord_self]
      positivity
  generalize hL : size (vec x y z) = L
  rw [vec_size] at hL
  obtain ⟨m, c, k, p, q, hform, dp, dq, dm, mm, em, c1, ec, ep, eq⟩ := angular_parts hI old hs h hlo hhi L hL.symm
  have hS0 : 0 < x * x + y * y + z * z := lt_of_lt_of_le (two_zpow_pos _) hlo
  have hSr : (0 : ℝ) < (x * x + y * y + z * z : ℝ) := by exact_mod_cast hS0
  have hLL : L * L = x * x + y * y + z * z := by rw [← hL]; exact Real.mul_self_sqrt hSr.le
  have hLp : 0 < L := by rw [← hL]; exact Real.sqrt_pos.2 hSr
  obtain ⟨hz, hrho, hx, hy⟩ := polar_parts hLp hLL
  obtain ⟨r1, r2⟩ := root_spread c1 hz ec
  have d1 : |√(1 - (z : ℝ) / L * (z / L))| ≤ 1 := by
    rw [abs_of_nonneg (Real.sqrt_nonneg _)]
    apply Real.sqrt_le_one.2
    linarith [mul_self_nonneg ((z : ℝ) / L)]
  have hcp : |Real.cos p - Real.cos (Coord.atan2 y x)| ≤ 2 * unit53 := by
    have e : Real.cos (Coord.atan2 y x) = Real.cos (Coord.atan2 y x + 2 * Real.pi * k) := by
      rw [show 2 * Real.pi * (k : ℝ) = k * (2 * Real.pi) by ring, Real.cos_add_int_mul_two_pi]
    rw [e]
    exact (Real.abs_cos_sub_cos_le _ _).trans ep
  have hsp : |Real.sin p - Real.sin (Coord.atan2 y x)| ≤ 2 * unit53 := by
    have e : Real.sin (Coord.atan2 y x) = Real.sin (Coord.atan2 y x + 2 * Real.pi * k) := by
      rw [show 2 * Real.pi * (k : ℝ) = k * (2 * Real.pi) by ring, Real.sin_add_int_mul_two_pi]
    rw [e]
    exact (Real.abs_sin_sub_sin_le _ _).trans ep
  obtain ⟨lo, hi⟩ := abs_le.1 c1
  obtain ⟨A, B, A1, B1, eA, eB, hpos⟩ : ∃ (A B : ℝ), |A| ≤ 1 ∧ |B| ≤ 1 ∧ |A - √(1 - (c : ℝ) * c)| ≤ 2 * unit53 ∧ |B - c| ≤ 2 * unit53 ∧
      position s p q m = ![m * (A * Real.cos p), m * (A * Real.sin p), m * B] := by
    cases s with
    | cartesian => exact absurd rfl hs
    | spherical =>
      rw [if_pos rfl] at eq
      refine ⟨_, _, Real.abs_sin_le_one q, Real.abs_cos_le_one q, ?_, ?_, by simp only [position, mul_assoc]⟩
      · have := (Real.abs_sin_sub_sin_le _ _).trans eq
        rwa [Real.sin_arccos, sq] at this
      · have := (Real.abs_cos_sub_cos_le _ _).trans eq
        rwa [Real.cos_arccos lo hi] at this
    | equatorial =>
      rw [if_neg (by decide)] at eq
      refine ⟨_, _, Real.abs_cos_le_one q, Real.abs_sin_le_one q, ?_, ?_, by simp only [position, mul_assoc]⟩
      · have := (Real.abs_cos_sub_cos_le _ _).trans eq
        rwa [Real.cos_arcsin, sq] at this
      · have := (Real.abs_sin_sub_sin_le _ _).trans eq
        rwa [Real.sin_arcsin lo hi] at this
  have eS : |A - √(1 - (z : ℝ) / L * (z / L))| ≤ |√(1 - (c : ℝ) * c) - √(1 - (z : ℝ) / L * (z / L))| + 2 * unit53 := by
    have e : A - √(1 - (z : ℝ) / L * (z / L)) = (A - √(1 - (c : ℝ) * c)) + (√(1 - (c : ℝ) * c) - √(1 - (z : ℝ) / L * (z / L))) := by ring
    rw [e]
    exact (abs_add_le _ _).trans (by linarith)
  have e3 : |B - z / L| ≤ 11 * unit53 := by
    have e : B - z / L = (B - c) + (c - z / L) := by ring
    rw [e]
    exact (abs_add_le _ _).trans (by linarith)
  have m0 := abs_nonneg (m : ℝ)
  have zero : ∀ t : ℝ, |t - t| ≤ |(m : ℝ)| * (5 * unit53) := fun t => by rw [sub_self, abs_zero]; positivity
  refine ⟨position s p q m, |√(1 - (c : ℝ) * c) - √(1 - (z : ℝ) / L * (z / L))|, ⟨p, q, m, hform, dp, dq, dm, rfl⟩, ?_, abs_nonneg _, ?_, ?_⟩
  · rw [sq_abs]
    linarith
  · rw [← hrho]
    have e : ∀ t w : ℝ, t * (L * w) = L * (t * w) := fun t w => by ring
    rw [e]
    exact mul_le_mul_of_nonneg_left (by linarith) hLp.le
  · have hx' := product_near hLp em d1 A1 (Real.abs_cos_le_one _) eS hcp (zero _)
    rw [hx] at hx'
    have hy' := product_near hLp em d1 A1 (Real.abs_sin_le_one _) eS hsp (zero _)
    rw [hy] at hy'
    have hz' := third_near hLp em B1 e3 (zero _)
    rw [mul_div_cancel₀ _ hLp.ne'] at hz'
    rw [hpos]
    have S0 := abs_nonneg (√(1 - (c : ℝ) * c) - √(1 - (z : ℝ) / L * (z / L)))
    generalize |√(1 - (c : ℝ) * c) - √(1 - (z : ℝ) / L * (z / L))| = S at *
    refine (chord_le_of (e := L * (S + 21 * unit53)) (hx'.trans ?_) (hy'.trans ?_) (hz'.trans ?_)).trans ?_
    · exact mul_le_mul_of_nonneg_left (by linarith) hLp.le
    · exact mul_le_mul_of_nonneg_left (by linarith) hLp.le
    · exact mul_le_mul_of_nonneg_left (by linarith) hLp.le
    · have e : 7 / 4 * (L * (S + 21 * unit53)) = L * (7 / 4 * S + 147 / 4 * unit53) := by ring
      rw [e]
      exact mul_le_mul_of_nonneg_left (by linarith) hLp.le

/-- Squares of lengths. -/
theorem vec_square (x y z : ℚ) : size (vec x y z) * size (vec x y z) = ((x * x + y * y + z * z : ℚ) : ℝ) := by
  rw [vec_size]
  push_cast
  apply Real.mul_self_sqrt
  nlinarith [mul_self_nonneg (x : ℝ), mul_self_nonneg (y : ℝ), mul_self_nonneg (z : ℝ)]

theorem vec_range {x y z : ℚ} (hlo : (2 : ℝ) ^ (-480 : ℤ) ≤ size (vec x y z)) (hhi : size (vec x y z) ≤ 2 ^ (500 : ℤ)) :
    2 ^ (-960 : ℤ) ≤ x * x + y * y + z * z ∧ x * x + y * y + z * z ≤ 2 ^ (1000 : ℤ) := by
  have s0 := size_nonneg (vec x y z)
  constructor
  · have h := mul_le_mul hlo hlo (by positivity) s0
    rw [vec_square, ← zpow_add₀ (by norm_num), show (-480 + -480 : ℤ) = -960 by norm_num] at h
    have e : (((2 : ℚ) ^ (-960 : ℤ) : ℚ) : ℝ) ≤ ((x * x + y * y + z * z : ℚ) : ℝ) := by
      rw [Rat.cast_zpow, Rat.cast_ofNat]; exact h
    exact (Rat.cast_le (K := ℝ)).1 e
  · have h := mul_le_mul hhi hhi s0 (by positivity)
    rw [vec_square, ← zpow_add₀ (by norm_num), show (500 + 500 : ℤ) = 1000 by norm_num] at h
    have e : ((x * x + y * y + z * z : ℚ) : ℝ) ≤ (((2 : ℚ) ^ (1000 : ℤ) : ℚ) : ℝ) := by
      rw [Rat.cast_zpow, Rat.cast_ofNat]; exact h
    exact (Rat.cast_le (K := ℝ)).1 e

theorem spread_small {S : ℝ} (h : S ^ 2 ≤ 18 * unit53) : S ≤ 3 / 8 * 2 ^ (-23 : ℤ) := by
  apply le_of_sq_le_sq _ (by positivity)
  refine h.trans (le_of_eq ?_)
  norm_num [unit53]

/-- A vector near a position, read back in angles. -/
theorem back_close {I : InverseTrig} (hI : AccurateInverse I) (old : Dbl) {s : Coord.System} {v : DVec}
    {x y z : ℚ} (h : Coords v x y z) (hlo : (2 : ℝ) ^ (-480 : ℤ) ≤ size (vec x y z)) (hhi : size (vec x y z) ≤ 2 ^ (500 : ℤ)) :
    ∃ w, Stands3 s (v.toAngular I old s) w ∧ chord w (vec x y z) ≤ size (vec x y z) * (7 / 8 * 2 ^ (-23 : ℤ)) ∧
      (size (vec x y z) / 4 ≤ √(x * x + y * y : ℝ) → chord w (vec x y z) ≤ size (vec x y z) * (180 * unit53)) := by
  obtain ⟨r1, r2⟩ := vec_range hlo hhi
  obtain ⟨w, S, hw, h1, h2, h3, h4⟩ := back_near hI old (s := s) h r1 r2
  have s0 := size_nonneg (vec x y z)
  have u0 := unit53_pos
  have sp : 0 < size (vec x y z) := lt_of_lt_of_le (by positivity) hlo
  refine ⟨w, hw, h4.trans (mul_le_mul_of_nonneg_left ?_ s0), fun ha => h4.trans (mul_le_mul_of_nonneg_left ?_ s0)⟩
  · have := spread_small h1
    have e : 37 * unit53 ≤ 1 / 8 * 2 ^ (-23 : ℤ) := by norm_num [unit53]
    linarith
  · have h5 := (mul_le_mul_of_nonneg_left ha h2).trans h3
    have h6 : S / 4 ≤ 17 * unit53 := by
      have e : S * (size (vec x y z) / 4) = size (vec x y z) * (S / 4) := by ring
      rw [e] at h5
      exact le_of_mul_le_mul_left h5 sp
    linarith

theorem rat_le_of_real {x : ℚ} {n : ℤ} (h : |(x : ℝ)| ≤ 2 ^ n) : |x| ≤ 2 ^ n := by
  have e : ((|x| : ℚ) : ℝ) ≤ (((2 : ℚ) ^ n : ℚ) : ℝ) := by
    rw [Rat.cast_zpow, Rat.cast_ofNat, Rat.cast_abs]; exact h
  exact (Rat.cast_le (K := ℝ)).1 e

theorem near_size {x : ℚ} {t R : ℝ} (ex : |(x : ℝ) - t| ≤ R * (5 * unit53)) (ht : |t| ≤ R) : |(x : ℝ)| ≤ R * (101 / 100) := by
  have u1 := unit53_small
  have R0 : 0 ≤ R := (abs_nonneg _).trans ht
  have := abs_sub_abs_le_abs_sub (x : ℝ) t
  have : R * (5 * unit53) ≤ R * (1 / 100) := mul_le_mul_of_nonneg_left (by linarith) R0
  linarith

theorem plus_near {x x' : ℚ} {t t' R R' : ℝ} (dx : IsDouble x) (dx' : IsDouble x') (ex : |(x : ℝ) - t| ≤ R * (5 * unit53)) (ht : |t| ≤ R)
    (ex' : |(x' : ℝ) - t'| ≤ R' * (5 * unit53)) (ht' : |t'| ≤ R') (hR : R + R' ≤ 2 ^ (1000 : ℤ)) :
    ∃ p, (Dbl.num x).add (.num x') = .num p ∧ IsDouble p ∧ |(p : ℝ) - (t + t')| ≤ (R + R') * (7 * unit53) := by
  have u0 := unit53_pos
  have u1 := unit53_small
  have a1 := near_size ex ht
  have a2 := near_size ex' ht'
  have a3 := abs_add_le (x : ℝ) x'
  have R0 : 0 ≤ R := (abs_nonneg _).trans ht
  have R0' : 0 ≤ R' := (abs_nonneg _).trans ht'
  have top : |x + x'| ≤ 2 ^ (1023 : ℤ) := by
    apply rat_le_of_real
    push_cast
    have : (2 : ℝ) ^ (1000 : ℤ) * 2 ≤ 2 ^ (1023 : ℤ) := by norm_num
    linarith
  obtain ⟨p, hp, dp, ep, -⟩ := add_err dx dx' top
  refine ⟨p, hp, dp, ?_⟩
  have ep' := (Rat.cast_le (K := ℝ)).2 ep
  have eu : ((ulp : ℚ) : ℝ) = unit53 := by norm_num [ulp, unit53]
  rw [Rat.cast_mul, Rat.cast_abs, Rat.cast_abs, Rat.cast_sub, Rat.cast_add, eu] at ep'
  have e : (p : ℝ) - (t + t') = (p - (x + x')) + (x - t) + (x' - t') := by ring
  rw [e]
  have b1 := abs_add_le ((p : ℝ) - (x + x') + (x - t)) (x' - t')
  have b2 := abs_add_le ((p : ℝ) - (x + x')) (x - t)
  have b3 : |(x : ℝ) + x'| * unit53 ≤ (R + R') * (101 / 100) * unit53 := mul_le_mul_of_nonneg_right (by linarith) u0.le
  nlinarith [mul_nonneg R0 u0.le, mul_nonneg R0' u0.le]

theorem halfway_near {x x' : ℚ} {t t' R R' : ℝ} (dx : IsDouble x) (dx' : IsDouble x') (ex : |(x : ℝ) - t| ≤ R * (5 * unit53)) (ht : |t| ≤ R)
    (ex' : |(x' : ℝ) - t'| ≤ R' * (5 * unit53)) (ht' : |t'| ≤ R') (hlo : (2 : ℝ) ^ (-900 : ℤ) ≤ R) (hR : R + R' ≤ 2 ^ (1000 : ℤ)) :
    ∃ p, ((Dbl.num x).add (.num x')).div (.num 2) = .num p ∧ IsDouble p ∧ |(p : ℝ) - (t + t') / 2| ≤ (R + R') * (7 / 2 * unit53) := by
  have u0 := unit53_pos
  have u1 := unit53_small
  have a1 := near_size ex ht
  have a2 := near_size ex' ht'
  have a3 := abs_add_le (x : ℝ) x'
  have R0 : 0 ≤ R := (abs_nonneg _).trans ht
  have R0' : 0 ≤ R' := (abs_nonneg _).trans ht'
  have big : (2 : ℝ) ^ (1000 : ℤ) * 2 ≤ 2 ^ (1022 : ℤ) := by norm_num
  have top : |x| ≤ 2 ^ (1022 : ℤ) := rat_le_of_real (by linarith)
  have top' : |x'| ≤ 2 ^ (1022 : ℤ) := rat_le_of_real (by linarith)
  obtain ⟨p, hp, dp, -, -, ep⟩ := half_sum dx dx' (by exact_mod_cast top) (by exact_mod_cast top')
  refine ⟨p, hp, dp, ?_⟩
  have ep' := (Rat.cast_le (K := ℝ)).2 ep
  have eu : ((ulp : ℚ) : ℝ) = unit53 := by norm_num [ulp, unit53]
  rw [Rat.cast_add, Rat.cast_mul, Rat.cast_abs, Rat.cast_abs, Rat.cast_sub, Rat.cast_div, Rat.cast_add, eu, Rat.cast_ofNat, abs_div, abs_two] at ep'
  have es : (speck : ℝ) ≤ R * unit53 / 1000 := by
    have h1 : (speck : ℝ) ≤ 2 ^ (-900 : ℤ) * (2 : ℝ) ^ (-63 : ℤ) := by
      unfold speck
      rw [← zpow_add₀ (by norm_num)]
      rw [Rat.cast_zpow, Rat.cast_ofNat]
      exact zpow_le_zpow_right₀ (by norm_num) (by norm_num)
    refine h1.trans ?_
    have h2 : (2 : ℝ) ^ (-63 : ℤ) ≤ unit53 / 1000 := by norm_num [unit53]
    have := mul_le_mul hlo h2 (by positivity) R0
    linarith
  have e : (p : ℝ) - (t + t') / 2 = (p - (x + x') / 2) + (x - t) / 2 + (x' - t') / 2 := by ring
  rw [e]
  have b1 := abs_add_le ((p : ℝ) - (x + x') / 2 + (x - t) / 2) ((x' - t') / 2)
  have b2 := abs_add_le ((p : ℝ) - (x + x') / 2) ((x - t) / 2)
  rw [abs_div, abs_two] at b1 b2
  have b3 : |(x : ℝ) + x'| / 2 * unit53 ≤ (R + R') / 2 * (101 / 100) * unit53 := mul_le_mul_of_nonneg_right (by linarith) u0.le
  nlinarith [mul_nonneg R0 u0.le, mul_nonneg R0' u0.le]

/-- A product of two coordinates. -/
theorem times_near {x x' : ℚ} {t t' R R' : ℝ} (ex : |(x : ℝ) - t| ≤ R * (5 * unit53)) (ht : |t| ≤ R)
    (ex' : |(x' : ℝ) - t'| ≤ R' * (5 * unit53)) (ht' : |t'| ≤ R') : |(x : ℝ) * x' - t * t'| ≤ R * R' * (11 * unit53) ∧ |(x : ℝ) * x'| ≤ R * R' * (103 / 100) := by
  have u0 := unit53_pos
  have u1 := unit53_small
  have a1 := near_size ex ht
  have a2 := near_size ex' ht'
  have R0 : 0 ≤ R := (abs_nonneg _).trans ht
  have R0' : 0 ≤ R' := (abs_nonneg _).trans ht'
  constructor
  · have e : (x : ℝ) * x' - t * t' = (x - t) * x' + t * (x' - t') := by ring
    rw [e]
    refine (abs_add_le _ _).trans ?_
    rw [abs_mul, abs_mul]
    have b1 := mul_le_mul ex a2 (abs_nonneg _) (by positivity)
    have b2 := mul_le_mul ht ex' (abs_nonneg _) R0
    nlinarith [mul_nonneg (mul_nonneg R0 R0') u0.le]
  · rw [abs_mul]
    have := mul_le_mul a1 a2 (abs_nonneg _) (by positivity)
    nlinarith [mul_nonneg R0 R0']

/-- The distance from the axis. -/
theorem axis_near (v w : Coord.Vec) : √(w 0 ^ 2 + w 1 ^ 2) ≤ √(v 0 ^ 2 + v 1 ^ 2) + chord v w := by
  have h := chord_triangle ![w 0, w 1, 0] ![v 0, v 1, 0] 0
  have e1 : chord ![w 0, w 1, 0] 0 = √(w 0 ^ 2 + w 1 ^ 2) := by simp [chord]
  have e2 : chord ![v 0, v 1, 0] 0 = √(v 0 ^ 2 + v 1 ^ 2) := by simp [chord]
  have e3 : chord ![w 0, w 1, 0] ![v 0, v 1, 0] ≤ chord v w := by
    rw [chord_comm]
    unfold chord
    apply Real.sqrt_le_sqrt
    simp
    positivity
  rw [e1, e2] at h
  linarith

/-- A computed vector near an exact one, read back in angles. -/
theorem back_exact_near {I : InverseTrig} (hI : AccurateInverse I) (old : Dbl) {s : Coord.System} {v : DVec} {x y z : ℚ} (h : Coords v x y z) {W : Coord.Vec} {E : ℝ}
    (hE : chord (vec x y z) W ≤ E) (hs : 15 * E ≤ size W) (hlo : (2 : ℝ) ^ (-470 : ℤ) ≤ size W) (hhi : size W ≤ 2 ^ (490 : ℤ)) :
    ∃ w, Stands3 s (v.toAngular I old s) w ∧ chord w W ≤ size W * (7 / 8 * 2 ^ (-23 : ℤ)) + 9 / 8 * E ∧
      (size W / 3 ≤ √(W 0 ^ 2 + W 1 ^ 2) → chord w W ≤ size W * (180 * unit53) + 9 / 8 * E) := by
  have E0 : 0 ≤ E := (chord_nonneg _ _).trans hE
  have u0 := unit53_pos
  have u1 := unit53_small
  have l1 := size_sub (vec x y z) W
  have l2 := size_sub W (vec x y z)
  rw [chord_comm] at l2
  have b1 : (2 : ℝ) ^ (-480 : ℤ) ≤ size (vec x y z) := by
    have : (2 : ℝ) ^ (-480 : ℤ) ≤ 2 ^ (-470 : ℤ) * (1 / 2) := by norm_num
    generalize (2 : ℝ) ^ (-480 : ℤ) = ε at *
    generalize (2 : ℝ) ^ (-470 : ℤ) = δ at *
    linarith
  have b2 : size (vec x y z) ≤ 2 ^ (500 : ℤ) := by
    have : (2 : ℝ) ^ (490 : ℤ) * 2 ≤ 2 ^ (500 : ℤ) := by norm_num
    linarith
  obtain ⟨w, hw, h1, h2⟩ := back_close hI old (s := s) h b1 b2
  have tri := chord_triangle w (vec x y z) W
  refine ⟨w, hw, ?_, fun ha => ?_⟩
  · have e1 : size (vec x y z) * (7 / 8 * 2 ^ (-23 : ℤ)) ≤ (size W + E) * (7 / 8 * 2 ^ (-23 : ℤ)) := mul_le_mul_of_nonneg_right (by linarith) (by positivity)
    have e2 : (0 : ℝ) < 2 ^ (-23 : ℤ) := by positivity
    have e3 : (2 : ℝ) ^ (-23 : ℤ) ≤ 1 / 8 := by norm_num
    have s0 := size_nonneg W
    generalize (2 : ℝ) ^ (-23 : ℤ) = ε at *
    nlinarith [mul_nonneg s0 e2.le, mul_nonneg E0 e2.le, mul_le_mul_of_nonneg_left e3 E0]
  · have a1 := axis_near (vec x y z) W
    have e0 : √((vec x y z) 0 ^ 2 + (vec x y z) 1 ^ 2) = √(x * x + y * y : ℝ) := by
      congr 1
      show (x : ℝ) ^ 2 + (y : ℝ) ^ 2 = _
      ring
    rw [e0] at a1
    have h3 := h2 (by linarith)
    have e1 : size (vec x y z) * (180 * unit53) ≤ (size W + E) * (180 * unit53) := mul_le_mul_of_nonneg_right (by linarith) (by positivity)
    have e4 : E * (180 * unit53) ≤ E * (1 / 8) := mul_le_mul_of_nonneg_left (by linarith) E0
    linarith

theorem size_add (v w : Coord.Vec) : size (v + w) ≤ size v + size w := by
  unfold size
  rw [chord_dist, chord_dist, chord_dist, WithLp.toLp_add, WithLp.toLp_zero, dist_zero_right, dist_zero_right, dist_zero_right]
  exact norm_add_le _ _

/-- The sum of the Cartesian coordinates. -/
theorem sum_coords {T : Trig} (hT : Accurate T) {s s' : Coord.System} {p q : DSph} {v w : Coord.Vec} (hp : Stands3 s p v) (hq : Stands3 s' q w)
    (v1 : (2 : ℝ) ^ (-900 : ℤ) ≤ size v) (v2 : size v ≤ 2 ^ (900 : ℤ)) (w1 : (2 : ℝ) ^ (-900 : ℤ) ≤ size w) (w2 : size w ≤ 2 ^ (900 : ℤ)) :
    (∃ a b c, Coords ((p.toCartesian T s).sum (q.toCartesian T s')) a b c ∧ chord (vec a b c) (v + w) ≤ 7 / 4 * ((size v + size w) * (7 * unit53))) ∧
      ∃ a b c, Coords ((p.toCartesian T s).mean (q.toCartesian T s')) a b c ∧
        chord (vec a b c) ((1 / 2 : ℝ) • (v + w)) ≤ 7 / 4 * ((size v + size w) * (7 / 2 * unit53)) := by
  obtain ⟨x, y, t, hxyz, ex, ey, et⟩ := stored_near hT hp v1 v2
  obtain ⟨x', y', t', hxyz', ex', ey', et'⟩ := stored_near hT hq w1 w2
  obtain ⟨c0, c1, c2⟩ := coord_le_size v
  obtain ⟨d0, d1, d2⟩ := coord_le_size w
  have top : size v + size w ≤ 2 ^ (1000 : ℤ) := by
    have : (2 : ℝ) ^ (900 : ℤ) + 2 ^ (900 : ℤ) ≤ 2 ^ (1000 : ℤ) := by norm_num
    linarith
  constructor
  · obtain ⟨a, ha, da, ea⟩ := plus_near hxyz.2.1 hxyz'.2.1 ex c0 ex' d0 top
    obtain ⟨b, hb, db, eb⟩ := plus_near hxyz.2.2.1 hxyz'.2.2.1 ey c1 ey' d1 top
    obtain ⟨c, hcc, dc, ec⟩ := plus_near hxyz.2.2.2 hxyz'.2.2.2 et c2 et' d2 top
    refine ⟨a, b, c, ⟨?_, da, db, dc⟩, chord_le_of ea eb ec⟩
    rw [hxyz.1, hxyz'.1]
    unfold DVec.sum
    dsimp only
    rw [ha, hb, hcc]
  · obtain ⟨a, ha, da, ea⟩ := halfway_near hxyz.2.1 hxyz'.2.1 ex c0 ex' d0 v1 top
    obtain ⟨b, hb, db, eb⟩ := halfway_near hxyz.2.2.1 hxyz'.2.2.1 ey c1 ey' d1 v1 top
    obtain ⟨c, hcc, dc, ec⟩ := halfway_near hxyz.2.2.2 hxyz'.2.2.2 et c2 et' d2 v1 top
    have h (i : Fin 3) : ((1 / 2 : ℝ) • (v + w)) i = (v i + w i) / 2 := by simp; ring
    refine ⟨a, b, c, ⟨?_, da, db, dc⟩, chord_le_of (by rw [h]; exact ea) (by rw [h]; exact eb) (by rw [h]; exact ec)⟩
    rw [hxyz.1, hxyz'.1]
    unfold DVec.mean
    dsimp only
    rw [ha, hb, hcc]

/-- One coordinate of a cross product. -/
theorem minus_part {p y z z' y' : ℚ} {t t' K : ℝ} (e : |p - (y * z' - z * y')| ≤ 2 ^ (-51 : ℤ) * (|y * z'| + |z * y'|) + 2 ^ (-1073 : ℤ))
    (m : |(y : ℝ) * z' - t| ≤ K * (11 * unit53) ∧ |(y : ℝ) * z'| ≤ K * (103 / 100)) (m' : |(z : ℝ) * y' - t'| ≤ K * (11 * unit53) ∧ |(z : ℝ) * y'| ≤ K * (103 / 100))
    (hK : (2 : ℝ) ^ (-400 : ℤ) ≤ K) : |(p : ℝ) - (t - t')| ≤ K * (31 * unit53) := by
  have e' := (Rat.cast_le (K := ℝ)).2 e
  push_cast at e'
  have a1 : (2 : ℝ) ^ (-51 : ℤ) = 4 * unit53 := by norm_num [unit53]
  have a2 : (2 : ℝ) ^ (-1073 : ℤ) ≤ 2 ^ (-400 : ℤ) * (1 / 2 * unit53) := by norm_num [unit53]
  have u0 := unit53_pos
  have a3 := mul_le_mul_of_nonneg_right hK (show 0 ≤ 1 / 2 * unit53 by positivity)
  rw [a1] at e'
  have a4 := mul_le_mul_of_nonneg_left (add_le_add m.2 m'.2) (show 0 ≤ 4 * unit53 by positivity)
  have e2 : (p : ℝ) - (t - t') = (p - (y * z' - z * y')) + ((y * z' - t) - (z * y' - t')) := by ring
  rw [e2]
  refine (abs_add_le _ _).trans ?_
  have h3 := abs_sub (y * z' - t : ℝ) (z * y' - t')
  have h4 := m.1
  have h5 := m'.1
  have K0 : 0 < K * unit53 := mul_pos (lt_of_lt_of_le (by positivity) hK) u0
  generalize (2 : ℝ) ^ (-1073 : ℤ) = δ at *
  generalize (2 : ℝ) ^ (-400 : ℤ) * (1 / 2 * unit53) = η at *
  nlinarith

/-- The cross and dot products of the Cartesian coordinates. -/
theorem product_coords {T : Trig} (hT : Accurate T) {s s' : Coord.System} {p q : DSph} {v w : Coord.Vec} (hp : Stands3 s p v) (hq : Stands3 s' q w)
    (v1 : (2 : ℝ) ^ (-200 : ℤ) ≤ size v) (v2 : size v ≤ 2 ^ (200 : ℤ)) (w1 : (2 : ℝ) ^ (-200 : ℤ) ≤ size w) (w2 : size w ≤ 2 ^ (200 : ℤ)) :
    (∃ a b c, Coords ((p.toCartesian T s).cross (q.toCartesian T s')) a b c ∧ chord (vec a b c) (crossed v w) ≤ 7 / 4 * (size v * size w * (31 * unit53))) ∧
      ∃ d : ℚ, (p.toCartesian T s).dot (q.toCartesian T s') = .num d ∧ |(d : ℝ) - (v 0 * w 0 + v 1 * w 1 + v 2 * w 2)| ≤ size v * size w * (64 * unit53) := by
  have z1 : (2 : ℝ) ^ (-900 : ℤ) ≤ 2 ^ (-200 : ℤ) := by norm_num
  have z2 : (2 : ℝ) ^ (200 : ℤ) ≤ 2 ^ (900 : ℤ) := by norm_num
  obtain ⟨x, y, t, hxyz, ex, ey, et⟩ := stored_near hT hp (z1.trans v1) (v2.trans z2)
  obtain ⟨x', y', t', hxyz', ex', ey', et'⟩ := stored_near hT hq (z1.trans w1) (w2.trans z2)
  obtain ⟨c0, c1, c2⟩ := coord_le_size v
  obtain ⟨d0, d1, d2⟩ := coord_le_size w
  have K0 : (2 : ℝ) ^ (-400 : ℤ) ≤ size v * size w := by
    have := mul_le_mul v1 w1 (by positivity) (size_nonneg v)
    rwa [← zpow_add₀ (by norm_num)] at this
  have K1 : size v * size w ≤ 2 ^ (400 : ℤ) := by
    have := mul_le_mul v2 w2 (size_nonneg w) (by positivity)
    rwa [← zpow_add₀ (by norm_num)] at this
  have top : size v * size w * (103 / 100) ≤ 2 ^ (1000 : ℤ) := by
    have : (2 : ℝ) ^ (400 : ℤ) * (103 / 100) ≤ 2 ^ (1000 : ℤ) := by norm_num
    linarith
  have big {q : ℚ} (h : |(q : ℝ)| ≤ size v * size w * (103 / 100)) : |q| ≤ 2 ^ (1000 : ℤ) := rat_le_of_real (h.trans top)
  have m00 := times_near ex c0 ex' d0
  have m01 := times_near ex c0 ey' d1
  have m02 := times_near ex c0 et' d2
  have m10 := times_near ey c1 ex' d0
  have m11 := times_near ey c1 ey' d1
  have m12 := times_near ey c1 et' d2
  have m20 := times_near et c2 ex' d0
  have m21 := times_near et c2 ey' d1
  have m22 := times_near et c2 et' d2
  have sum2 {q q' : ℚ} (h : |q| ≤ 2 ^ (1000 : ℤ)) (h' : |q'| ≤ 2 ^ (1000 : ℤ)) : |q| + |q'| ≤ 2 ^ 1022 := by
    refine (add_le_add h h').trans ?_
    norm_num
  have sum3 {q q' q'' : ℚ} (h : |q| ≤ 2 ^ (1000 : ℤ)) (h' : |q'| ≤ 2 ^ (1000 : ℤ)) (h'' : |q''| ≤ 2 ^ (1000 : ℤ)) : |q| + |q'| + |q''| ≤ 2 ^ 1022 := by
    refine (add_le_add (add_le_add h h') h'').trans ?_
    norm_num
  have bg {q q' : ℚ} (h : |(q : ℝ) * q'| ≤ size v * size w * (103 / 100)) : |q * q'| ≤ 2 ^ (1000 : ℤ) := big (by push_cast; exact h)
  constructor
  · obtain ⟨a, b, c, hc, ea, eb, ec⟩ := C105_error _ _ x y t x' y' t' hxyz hxyz' (sum2 (bg m12.2) (bg m21.2)) (sum2 (bg m20.2) (bg m02.2))
      (sum2 (bg m01.2) (bg m10.2))
    exact ⟨a, b, c, hc, chord_le_of (minus_part ea m12 m21 K0) (minus_part eb m20 m02 K0) (minus_part ec m01 m10 K0)⟩
  · obtain ⟨d, hd, ed⟩ := C104_error _ _ x y t x' y' t' hxyz hxyz' (sum3 (bg m00.2) (bg m11.2) (bg m22.2))
    refine ⟨d, hd, ?_⟩
    have e' := (Rat.cast_le (K := ℝ)).2 ed
    push_cast at e'
    have a1 : (2 : ℝ) ^ (-51 : ℤ) = 4 * unit53 := by norm_num [unit53]
    have a2 : (2 : ℝ) ^ (-1073 : ℤ) ≤ 2 ^ (-400 : ℤ) * (1 / 2 * unit53) := by norm_num [unit53]
    have u0 := unit53_pos
    have a3 := mul_le_mul_of_nonneg_right K0 (show 0 ≤ 1 / 2 * unit53 by positivity)
    rw [a1] at e'
    have a4 := mul_le_mul_of_nonneg_left (add_le_add (add_le_add m00.2 m11.2) m22.2) (show 0 ≤ 4 * unit53 by positivity)
    have e2 : (d : ℝ) - (v 0 * w 0 + v 1 * w 1 + v 2 * w 2) =
      (d - (x * x' + y * y' + t * t')) + ((x * x' - v 0 * w 0) + (y * y' - v 1 * w 1) + (t * t' - v 2 * w 2)) := by ring
    rw [e2]
    refine (abs_add_le _ _).trans ?_
    have h3 := abs_add_three (x * x' - v 0 * w 0 : ℝ) (y * y' - v 1 * w 1) (t * t' - v 2 * w 2)
    have h4 := m00.1
    have h5 := m11.1
    have h6 := m22.1
    have K2 : 0 < size v * size w * unit53 := mul_pos (lt_of_lt_of_le (by positivity) K0) u0
    generalize (2 : ℝ) ^ (-1073 : ℤ) = δ at *
    generalize (2 : ℝ) ^ (-400 : ℤ) * (1 / 2 * unit53) = η at *
    linarith

end Astro
