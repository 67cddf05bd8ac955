import Verif.Spec.ChainDouble
import Verif.Lemmas.RepDouble
import Verif.Props.RotDouble
import Mathlib.Analysis.InnerProductSpace.PiL2

/-
Helper lemmas: chains of conversions in doubles.
-/

set_option exponentiation.threshold 3000

namespace Astro

open Spec Time Matrix

attribute [local irreducible] FloatFmt.nearest FloatFmt.value Dbl.round

theorem chord_dist (v w : Coord.Vec) : chord v w = dist (WithLp.toLp 2 v : EuclideanSpace ℝ (Fin 3)) (WithLp.toLp 2 w) := by
  rw [EuclideanSpace.dist_eq, chord, Fin.sum_univ_three]
  simp [Real.dist_eq, sq_abs]

theorem chord_triangle (u v w : Coord.Vec) : chord u w ≤ chord u v + chord v w := by
  rw [chord_dist, chord_dist, chord_dist]
  exact dist_triangle _ _ _

theorem chord_self (v : Coord.Vec) : chord v v = 0 := by rw [chord_dist, dist_self]

theorem chord_rotate {M : Coord.Mat} (h : AngleMatrix M) (v w : Coord.Vec) : chord (M *ᵥ v) (M *ᵥ w) = chord v w := by
  have key := C53_isometry M h (v - w) (v - w)
  rw [mulVec_sub] at key
  unfold chord
  congr 1
  simp only [dotProduct, Fin.sum_univ_three, Pi.sub_apply] at key
  linarith

theorem chord_rotated {T : Trig} (l : List (Rotation T)) (v w : Coord.Vec) : chord (rotated l v) (rotated l w) = chord v w := by
  induction l generalizing v w with
  | nil => rfl
  | cons r l ih =>
    unfold rotated at *
    rw [List.foldl_cons, List.foldl_cons, ih, chord_rotate r.rotates]

/-- The straight line is not longer than the way along the equator and up. -/
theorem chord_le (v w : Coord.Vec) : chord v w ≤ ‖(⟨v 0, v 1⟩ : ℂ) - ⟨w 0, w 1⟩‖ + |v 2 - w 2| := by
  unfold chord
  have e : ‖(⟨v 0, v 1⟩ : ℂ) - ⟨w 0, w 1⟩‖ ^ 2 = (v 0 - w 0) ^ 2 + (v 1 - w 1) ^ 2 := by
    rw [Complex.sq_norm, Complex.normSq_apply]
    simp
    ring
  rw [← e]
  apply Real.sqrt_le_iff.2
  refine ⟨by positivity, ?_⟩
  have h1 := _root_.norm_nonneg ((⟨v 0, v 1⟩ : ℂ) - ⟨w 0, w 1⟩)
  have h2 := abs_nonneg (v 2 - w 2)
  nlinarith [sq_abs (v 2 - w 2), mul_nonneg h1 h2]

/-- Rotating the direction of a nearby number. -/
theorem arg_swap (w z : ℂ) : ‖(‖z‖ : ℂ) * Complex.exp (w.arg * Complex.I) - z‖ ≤ 2 * ‖w - z‖ := by
  have e : (‖z‖ : ℂ) * Complex.exp (w.arg * Complex.I) - z = ((‖z‖ : ℂ) - ‖w‖) * Complex.exp (w.arg * Complex.I) + (w - z) := by
    have := Complex.norm_mul_exp_arg_mul_I w
    linear_combination this
  rw [e]
  refine (norm_add_le _ _).trans ?_
  rw [norm_mul, Complex.norm_exp_ofReal_mul_I, mul_one, ← Complex.ofReal_sub, Complex.norm_real, Real.norm_eq_abs]
  have := abs_norm_sub_norm_le z w
  rw [norm_sub_rev] at this
  linarith

theorem exp_close (x y : ℝ) : ‖Complex.exp (x * Complex.I) - Complex.exp (y * Complex.I)‖ ≤ |x - y| := by
  have e : Complex.exp (x * Complex.I) - Complex.exp (y * Complex.I) = Complex.exp (y * Complex.I) * (Complex.exp (Complex.I * ((x - y : ℝ) : ℂ)) - 1) := by
    rw [mul_sub, mul_one, ← Complex.exp_add]
    congr 2
    push_cast
    ring
  rw [e, norm_mul, Complex.norm_exp_ofReal_mul_I, one_mul]
  exact Real.norm_exp_I_mul_ofReal_sub_one_le

theorem polar_mk (r x : ℝ) : (⟨Real.cos x * r, Real.sin x * r⟩ : ℂ) = (r : ℂ) * Complex.exp (x * Complex.I) := by
  rw [Complex.exp_mul_I]
  apply Complex.ext <;> simp [Complex.cos_ofReal_re, Complex.sin_ofReal_re, Complex.cos_ofReal_im, Complex.sin_ofReal_im] <;> ring

/-- The first two coordinates of a direction. -/
theorem equator_norm {z : Coord.Vec} (h : z ⬝ᵥ z = 1) : ‖(⟨z 0, z 1⟩ : ℂ)‖ = √(1 - z 2 * z 2) := by
  rw [Complex.norm_def, Complex.normSq_mk]
  congr 1
  simp only [dotProduct, Fin.sum_univ_three] at h
  linarith

/-- One conversion: the error is that of the distance from the axis, and little more. -/
theorem convert_step {T : Trig} {I : InverseTrig} (hT : Accurate T) (hI : AccurateInverse I) (r : Rotation T) {u v : ℚ} (hu : IsDouble u) (hv : IsDouble v)
    (hn : (r.computed.convert T I (.num u, .num v)).2 ≠ .nan) :
    ∃ u' v' p : ℚ, r.computed.convert T I (.num u, .num v) = (.num u', .num v') ∧ IsDouble u' ∧ IsDouble v' ∧ |(p : ℝ)| ≤ 1 ∧
      |(p : ℝ) - (r.exact *ᵥ Coord.columnVector u v) 2| ≤ 2 ^ (-49 : ℤ) ∧
      chord (Coord.columnVector u' v') (r.exact *ᵥ Coord.columnVector u v) ≤
        |√(1 - p * p) - √(1 - (r.exact *ᵥ Coord.columnVector u v) 2 * (r.exact *ᵥ Coord.columnVector u v) 2)| + 6 * 2 ^ (-49 : ℤ) := by
  obtain ⟨⟨m, hm, dm, em⟩, ⟨n, hn', dn, en⟩, ⟨p, hp, dp, ep⟩⟩ := C112_error hT r.double hu hv r.same
  have hz : (r.exact *ᵥ Coord.columnVector u v) ⬝ᵥ (r.exact *ᵥ Coord.columnVector u v) = 1 := by
    rw [C53_isometry _ r.rotates, C57_unit]
  have hz2 := equator_norm hz
  generalize r.exact *ᵥ Coord.columnVector u v = z at *
  unfold DMat.convert at *
  dsimp only at *
  generalize r.computed.prod (DVec.column T (.num u) (.num v)) = w at *
  unfold DVec.extract at *
  rw [hp] at hn ⊢
  rw [hm, hn'] at *
  by_cases hin : -1 ≤ p ∧ p ≤ 1
  · have ha : I.asinOf (.num p) = I.asin (.num p) := if_pos hin
    have hp1 : |(p : ℝ)| ≤ 1 := by exact_mod_cast abs_le.2 hin
    obtain ⟨v', hv', dv', ev'⟩ := hI.asin p dp (abs_le.2 hin)
    obtain ⟨k, u', hu', du', eu'⟩ := hI.atan2 n m dn dm
    refine ⟨u', v', p, by rw [ha, hu', hv'], du', dv', hp1, ep, ?_⟩
    refine (chord_le _ _).trans ?_
    have c0 : Coord.columnVector u' v' 0 = Real.cos u' * Real.cos v' := rfl
    have c1 : Coord.columnVector u' v' 1 = Real.sin u' * Real.cos v' := rfl
    have c2 : Coord.columnVector u' v' 2 = Real.sin v' := rfl
    rw [c0, c1, c2, polar_mk]
    -- the angle
    set A : ℝ := Coord.atan2 n m + 2 * Real.pi * k with hA
    have hexp : Complex.exp (A * Complex.I) = Complex.exp (((⟨m, n⟩ : ℂ).arg : ℂ) * Complex.I) := by
      have e1 : (A : ℂ) * Complex.I = ((⟨m, n⟩ : ℂ).arg : ℂ) * Complex.I + k * (2 * Real.pi * Complex.I) := by
        rw [hA, Coord.atan2]
        push_cast
        ring
      rw [e1, Complex.exp_periodic.int_mul k]
    have w1 : ‖(⟨m, n⟩ : ℂ) - ⟨z 0, z 1⟩‖ ≤ 2 ^ (-49 : ℤ) + 2 ^ (-49 : ℤ) := (Complex.norm_le_abs_re_add_abs_im _).trans (add_le_add em en)
    have w2 := arg_swap ⟨m, n⟩ ⟨z 0, z 1⟩
    rw [← hexp, hz2] at w2
    have w3 := exp_close u' A
    have w4 : |Real.cos v' - √(1 - p * p)| ≤ 2 ^ (-52 : ℤ) := by
      have := Real.abs_cos_sub_cos_le (v' : ℝ) (Real.arcsin p)
      rw [Real.cos_arcsin, sq] at this
      exact this.trans ev'
    have w5 : |Real.sin v' - p| ≤ 2 ^ (-52 : ℤ) := by
      have := Real.abs_sin_sub_sin_le (v' : ℝ) (Real.arcsin p)
      rw [Real.sin_arcsin (abs_le.1 hp1).1 (abs_le.1 hp1).2] at this
      exact this.trans ev'
    have w6 : |Real.sin v' - z 2| ≤ 2 ^ (-52 : ℤ) + 2 ^ (-49 : ℤ) := by
      have e : Real.sin v' - z 2 = (Real.sin v' - p) + (p - z 2) := by ring
      rw [e]
      exact (abs_add_le _ _).trans (add_le_add w5 ep)
    set Q := √(1 - (p : ℝ) * p) with hQ
    set Z := √(1 - z 2 * z 2) with hZ
    have w7 : ‖((Real.cos v' : ℝ) : ℂ) * Complex.exp ((u' : ℝ) * Complex.I) - ⟨z 0, z 1⟩‖ ≤ |Real.cos v' - Q| + |Q - Z| + |(u' : ℝ) - A| + 2 * ‖(⟨m, n⟩ : ℂ) - ⟨z 0, z 1⟩‖ := by
      have Z1 : |Z| ≤ 1 := by
        rw [hZ, abs_of_nonneg (Real.sqrt_nonneg _)]
        exact Real.sqrt_le_one.2 (by linarith [mul_self_nonneg (z 2)])
      have e : ((Real.cos v' : ℝ) : ℂ) * Complex.exp ((u' : ℝ) * Complex.I) - ⟨z 0, z 1⟩ =
          ((Real.cos v' - Q : ℝ) : ℂ) * Complex.exp ((u' : ℝ) * Complex.I) + ((Q - Z : ℝ) : ℂ) * Complex.exp ((u' : ℝ) * Complex.I) +
          (Z : ℂ) * (Complex.exp ((u' : ℝ) * Complex.I) - Complex.exp (A * Complex.I)) + ((Z : ℂ) * Complex.exp (A * Complex.I) - ⟨z 0, z 1⟩) := by
        push_cast
        ring
      rw [e]
      refine (norm_add_le _ _).trans (add_le_add ((norm_add_le _ _).trans (add_le_add ((norm_add_le _ _).trans (add_le_add ?_ ?_)) ?_)) w2)
      · rw [norm_mul, Complex.norm_exp_ofReal_mul_I, mul_one, Complex.norm_real, Real.norm_eq_abs]
      · rw [norm_mul, Complex.norm_exp_ofReal_mul_I, mul_one, Complex.norm_real, Real.norm_eq_abs]
      · rw [norm_mul, Complex.norm_real, Real.norm_eq_abs]
        have := mul_le_mul Z1 w3 (_root_.norm_nonneg _) zero_le_one
        rwa [one_mul] at this
    have e52 : (2 : ℝ) ^ (-52 : ℤ) = 1 / 8 * 2 ^ (-49 : ℤ) := by norm_num
    rw [e52] at w4 w6 eu'
    clear_value Q Z
    generalize (2 : ℝ) ^ (-49 : ℤ) = ε at *
    linarith [abs_nonneg (Real.sin v' - p)]
  · exact absurd (if_neg hin) hn

/-- A latitude that is NaN stays NaN. -/
theorem chain_nan {T : Trig} (I : InverseTrig) (hP : PassesNaN T) (l : List DMat) (u : Dbl) : (DMat.chain T I l (u, .nan)).2 = .nan := by
  induction l generalizing u with
  | nil => rfl
  | cons D l ih =>
    have h : D.convert T I (u, .nan) = (I.atan2 (D.prod (DVec.column T u .nan)).y (D.prod (DVec.column T u .nan)).x, .nan) := by
      unfold DMat.convert DVec.extract
      refine Prod.ext rfl ?_
      have : (D.prod (DVec.column T u .nan)).z = .nan := by
        unfold DMat.prod DMat.row DVec.column
        dsimp only
        rw [hP.1]
        have h1 : ∀ d : Dbl, d.mul .nan = .nan := fun d => by cases d <;> rfl
        have h2 : ∀ d : Dbl, d.add .nan = .nan := fun d => by cases d <;> rfl
        rw [h1, h2]
      dsimp only
      rw [this]
      rfl
    unfold DMat.chain at *
    rw [List.foldl_cons, h, ih]

theorem third_le_chord (v w : Coord.Vec) : |v 2 - w 2| ≤ chord v w := by
  unfold chord
  apply Real.le_sqrt_of_sq_le
  rw [sq_abs]
  nlinarith [sq_nonneg (v 0 - w 0), sq_nonneg (v 1 - w 1)]

/-- Away from the poles there is a latitude. -/
theorem convert_exists {T : Trig} {I : InverseTrig} (hT : Accurate T) (hI : AccurateInverse I) (r : Rotation T) {u v : ℚ} (hu : IsDouble u) (hv : IsDouble v)
    (h : |(r.exact *ᵥ Coord.columnVector u v) 2| ≤ 9 / 10) : (r.computed.convert T I (.num u, .num v)).2 ≠ .nan := by
  obtain ⟨-, -, ⟨p, hp, dp, ep⟩⟩ := C112_error hT r.double hu hv r.same
  have e49 : (2 : ℝ) ^ (-49 : ℤ) ≤ 1 / 10 := by norm_num
  have hin' : |(p : ℝ)| ≤ 1 := by
    have := abs_sub_abs_le_abs_sub (p : ℝ) ((r.exact *ᵥ Coord.columnVector u v) 2)
    generalize (2 : ℝ) ^ (-49 : ℤ) = ε at *
    linarith
  have hin : |p| ≤ 1 := by exact_mod_cast hin'
  obtain ⟨v', hv', -⟩ := hI.asin p dp hin
  have ha : I.asinOf (.num p) = I.asin (.num p) := if_pos (abs_le.1 hin)
  unfold DMat.convert DVec.extract
  dsimp only
  rw [hp, ha, hv']
  exact Dbl.noConfusion

end Astro
