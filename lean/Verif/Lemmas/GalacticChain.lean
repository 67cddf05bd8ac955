import Verif.Spec.GalacticChain
import Verif.Lemmas.ChainDouble

/-
Helper lemmas: chains of conversions with the galactic matrices in doubles.
-/

set_option exponentiation.threshold 3000

namespace Astro

open Spec Time Matrix

attribute [local irreducible] FloatFmt.nearest FloatFmt.value Dbl.round

/-- The galactic matrices change the square of a length by at most two parts in ten millions. -/
theorem galactic_length {M : Coord.Mat} (h : M = Coord.galacticToRaDec ∨ M = Coord.raDecToGalactic) (v : Coord.Vec) :
    |(M *ᵥ v) ⬝ᵥ (M *ᵥ v) - v ⬝ᵥ v| ≤ 19 / 10 ^ 8 * (v ⬝ᵥ v) := by
  have s1 := sq_nonneg (v 0 - v 1)
  have s2 := sq_nonneg (v 0 + v 1)
  have s3 := sq_nonneg (v 0 - v 2)
  have s4 := sq_nonneg (v 0 + v 2)
  have s5 := sq_nonneg (v 1 - v 2)
  have s6 := sq_nonneg (v 1 + v 2)
  have s7 := sq_nonneg (v 0)
  have s8 := sq_nonneg (v 1)
  have s9 := sq_nonneg (v 2)
  rcases h with rfl | rfl <;> rw [abs_le] <;>
    simp [Coord.galacticToRaDec, Coord.raDecToGalactic, mulVec, dotProduct, Fin.sum_univ_three] <;>
    generalize v 0 = x at * <;> generalize v 1 = y at * <;> generalize v 2 = z at * <;> norm_num <;> constructor <;> nlinarith

theorem chord_sq (v w : Coord.Vec) : chord v w ^ 2 = (v - w) ⬝ᵥ (v - w) := by
  unfold chord
  rw [Real.sq_sqrt (by positivity)]
  simp only [dotProduct, Fin.sum_univ_three, Pi.sub_apply]
  ring

theorem chord_nonneg (v w : Coord.Vec) : 0 ≤ chord v w := Real.sqrt_nonneg _

theorem chord_galactic {M : Coord.Mat} (h : M = Coord.galacticToRaDec ∨ M = Coord.raDecToGalactic) (v w : Coord.Vec) :
    chord (M *ᵥ v) (M *ᵥ w) ≤ (1 + 1 / 10 ^ 7) * chord v w := by
  apply le_of_sq_le_sq _ (mul_nonneg (by norm_num) (chord_nonneg _ _))
  rw [mul_pow, chord_sq, chord_sq, ← mulVec_sub]
  have := (abs_le.1 (galactic_length h (v - w))).2
  have h0 : 0 ≤ (v - w) ⬝ᵥ (v - w) := by rw [← chord_sq]; positivity
  norm_num at *
  linarith

theorem Leg.cases {T : Trig} (g : Leg T) : (∃ r, g = .turn r) ∨ g.galactic = true ∧ (g.exact = Coord.galacticToRaDec ∨ g.exact = Coord.raDecToGalactic) := by
  cases g with
  | turn r => exact Or.inl ⟨r, rfl⟩
  | toGalactic => exact Or.inr ⟨rfl, Or.inr rfl⟩
  | fromGalactic => exact Or.inr ⟨rfl, Or.inl rfl⟩

/-- How much a leg may stretch a distance. -/
noncomputable def stretch {T : Trig} (g : Leg T) : ℝ := if g.galactic then 1 + 1 / 10 ^ 7 else 1

theorem chord_leg {T : Trig} (g : Leg T) (v w : Coord.Vec) : chord (g.exact *ᵥ v) (g.exact *ᵥ w) ≤ stretch g * chord v w := by
  rcases Leg.cases g with ⟨r, rfl⟩ | ⟨h, hm⟩
  · have : stretch (.turn r) = 1 := rfl
    rw [this, one_mul]
    exact (chord_rotate r.rotates v w).le
  · have : stretch g = 1 + 1 / 10 ^ 7 := if_pos h
    rw [this]
    exact chord_galactic hm v w

theorem chord_followed {T : Trig} (l : List (Leg T)) (v w : Coord.Vec) :
    chord (followed l v) (followed l w) ≤ (1 + 1 / 10 ^ 7) ^ galacticLegs l * chord v w := by
  induction l generalizing v w with
  | nil => simp [followed, galacticLegs]
  | cons g l ih =>
    have h1 := ih (g.exact *ᵥ v) (g.exact *ᵥ w)
    have h2 := chord_leg g v w
    refine (h1.trans (mul_le_mul_of_nonneg_left h2 (by positivity))).trans (le_of_eq ?_)
    unfold galacticLegs stretch
    rw [List.countP_cons]
    split
    · rw [pow_succ]; ring
    · rw [add_zero]; ring

theorem leg_same {T : Trig} (g : Leg T) : ∃ a, IsDouble a ∧ SameMatrix T a g.computed g.exact := by
  cases g with
  | turn r => exact ⟨r.angle, r.double, r.same⟩
  | toGalactic => exact ⟨0, isDouble_zero, .toGalactic⟩
  | fromGalactic => exact ⟨0, isDouble_zero, .fromGalactic⟩

theorem leg_length {T : Trig} (g : Leg T) (u v : ℝ) : |(g.exact *ᵥ Coord.columnVector u v) ⬝ᵥ (g.exact *ᵥ Coord.columnVector u v) - 1| ≤ 19 / 10 ^ 8 := by
  rcases Leg.cases g with ⟨r, rfl⟩ | ⟨-, hm⟩
  · have : (Leg.turn r).exact = r.exact := rfl
    rw [this, C53_isometry _ r.rotates, C57_unit]
    norm_num
  · have := galactic_length hm (Coord.columnVector u v)
    rwa [C57_unit, mul_one] at this

/-- One conversion of any kind: the error is that of the distance from the axis, and little more. -/
theorem leg_step {T : Trig} {I : InverseTrig} (hT : Accurate T) (hI : AccurateInverse I) (g : Leg T) {u v : ℚ} (hu : IsDouble u) (hv : IsDouble v)
    (hn : (g.computed.convert T I (.num u, .num v)).2 ≠ .nan) :
    ∃ u' v' p : ℚ, g.computed.convert T I (.num u, .num v) = (.num u', .num v') ∧ IsDouble u' ∧ IsDouble v' ∧ |(p : ℝ)| ≤ 1 ∧
      |(p : ℝ) - (g.exact *ᵥ Coord.columnVector u v) 2| ≤ 2 ^ (-49 : ℤ) ∧
      chord (Coord.columnVector u' v') (g.exact *ᵥ Coord.columnVector u v) ≤
        |√(1 - p * p) - ‖(⟨(g.exact *ᵥ Coord.columnVector u v) 0, (g.exact *ᵥ Coord.columnVector u v) 1⟩ : ℂ)‖| + 6 * 2 ^ (-49 : ℤ) := by
  obtain ⟨a, da, same⟩ := leg_same g
  obtain ⟨⟨m, hm, dm, em⟩, ⟨n, hn', dn, en⟩, ⟨p, hp, dp, ep⟩⟩ := C112_error hT da hu hv same
  have hz := leg_length g u v
  generalize g.exact *ᵥ Coord.columnVector u v = z at *
  have hZ2 : ‖(⟨z 0, z 1⟩ : ℂ)‖ ≤ 2 := by
    apply le_of_sq_le_sq _ (by norm_num)
    rw [Complex.sq_norm, Complex.normSq_mk]
    simp only [dotProduct, Fin.sum_univ_three] at hz
    have := (abs_le.1 hz).2
    have := mul_self_nonneg (z 2)
    norm_num at *
    linarith
  unfold DMat.convert at *
  dsimp only at *
  generalize g.computed.prod (DVec.column T (.num u) (.num v)) = w at *
  unfold DVec.extract at *
  rw [hp] at hn ⊢
  rw [hm, hn'] at *
  by_cases hin : -1 ≤ p ∧ p ≤ 1
  · have ha : I.asinOf (.num p) = I.asin (.num p) := if_pos hin
    have hp1 : |(p : ℝ)| ≤ 1 := by exact_mod_cast abs_le.2 hin
    obtain ⟨v', hv', dv', ev'⟩ := hI.asin p dp (abs_le.2 hin)
    obtain ⟨k, u', hu', du', eu'⟩ := hI.atan2 n m dn dm
    refine ⟨u', v', p, by rw [ha, hu', hv'], du', dv', hp1, ep, ?_⟩
    refine (chord_le _ _).trans ?_
    have c0 : Coord.columnVector u' v' 0 = Real.cos u' * Real.cos v' := rfl
    have c1 : Coord.columnVector u' v' 1 = Real.sin u' * Real.cos v' := rfl
    have c2 : Coord.columnVector u' v' 2 = Real.sin v' := rfl
    rw [c0, c1, c2, polar_mk]
    set A : ℝ := Coord.atan2 n m + 2 * Real.pi * k with hA
    have hexp : Complex.exp (A * Complex.I) = Complex.exp (((⟨m, n⟩ : ℂ).arg : ℂ) * Complex.I) := by
      have e1 : (A : ℂ) * Complex.I = ((⟨m, n⟩ : ℂ).arg : ℂ) * Complex.I + k * (2 * Real.pi * Complex.I) := by
        rw [hA, Coord.atan2]
        push_cast
        ring
      rw [e1, Complex.exp_periodic.int_mul k]
    have w1 : ‖(⟨m, n⟩ : ℂ) - ⟨z 0, z 1⟩‖ ≤ 2 ^ (-49 : ℤ) + 2 ^ (-49 : ℤ) := (Complex.norm_le_abs_re_add_abs_im _).trans (add_le_add em en)
    have w2 := arg_swap ⟨m, n⟩ ⟨z 0, z 1⟩
    rw [← hexp] at w2
    have w3 := exp_close u' A
    have w4 : |Real.cos v' - √(1 - p * p)| ≤ 2 ^ (-52 : ℤ) := by
      have := Real.abs_cos_sub_cos_le (v' : ℝ) (Real.arcsin p)
      rw [Real.cos_arcsin, sq] at this
      exact this.trans ev'
    have w5 : |Real.sin v' - p| ≤ 2 ^ (-52 : ℤ) := by
      have := Real.abs_sin_sub_sin_le (v' : ℝ) (Real.arcsin p)
      rw [Real.sin_arcsin (abs_le.1 hp1).1 (abs_le.1 hp1).2] at this
      exact this.trans ev'
    have w6 : |Real.sin v' - z 2| ≤ 2 ^ (-52 : ℤ) + 2 ^ (-49 : ℤ) := by
      have e : Real.sin v' - z 2 = (Real.sin v' - p) + (p - z 2) := by ring
      rw [e]
      exact (abs_add_le _ _).trans (add_le_add w5 ep)
    set Q := √(1 - (p : ℝ) * p) with hQ
    set Z := ‖(⟨z 0, z 1⟩ : ℂ)‖ with hZ
    have w7 : ‖((Real.cos v' : ℝ) : ℂ) * Complex.exp ((u' : ℝ) * Complex.I) - ⟨z 0, z 1⟩‖ ≤ |Real.cos v' - Q| + |Q - Z| + 2 * |(u' : ℝ) - A| + 2 * ‖(⟨m, n⟩ : ℂ) - ⟨z 0, z 1⟩‖ := by
      have Z1 : |Z| ≤ 2 := by
        rw [hZ, abs_of_nonneg (_root_.norm_nonneg _)]
        exact hZ2
      have e : ((Real.cos v' : ℝ) : ℂ) * Complex.exp ((u' : ℝ) * Complex.I) - ⟨z 0, z 1⟩ =
          ((Real.cos v' - Q : ℝ) : ℂ) * Complex.exp ((u' : ℝ) * Complex.I) + ((Q - Z : ℝ) : ℂ) * Complex.exp ((u' : ℝ) * Complex.I) +
          (Z : ℂ) * (Complex.exp ((u' : ℝ) * Complex.I) - Complex.exp (A * Complex.I)) + ((Z : ℂ) * Complex.exp (A * Complex.I) - ⟨z 0, z 1⟩) := by
        push_cast
        ring
      rw [e]
      refine (norm_add_le _ _).trans (add_le_add ((norm_add_le _ _).trans (add_le_add ((norm_add_le _ _).trans (add_le_add ?_ ?_)) ?_)) w2)
      · rw [norm_mul, Complex.norm_exp_ofReal_mul_I, mul_one, Complex.norm_real, Real.norm_eq_abs]
      · rw [norm_mul, Complex.norm_exp_ofReal_mul_I, mul_one, Complex.norm_real, Real.norm_eq_abs]
      · rw [norm_mul, Complex.norm_real, Real.norm_eq_abs]
        exact mul_le_mul Z1 w3 (_root_.norm_nonneg _) (by norm_num)
    have e52 : (2 : ℝ) ^ (-52 : ℤ) = 1 / 8 * 2 ^ (-49 : ℤ) := by norm_num
    rw [e52] at w4 w6 eu'
    clear_value Q Z
    generalize (2 : ℝ) ^ (-49 : ℤ) = ε at *
    linarith [abs_nonneg (Real.sin v' - p)]
  · exact absurd (if_neg hin) hn

/-- The distance from the axis as found from the third coordinate alone. -/
theorem axis_spread {p : ℝ} {z : Coord.Vec} {d e : ℝ} (hp : |p| ≤ 1) (he : |p - z 2| ≤ e) (he1 : e ≤ 1) (hz : |z ⬝ᵥ z - 1| ≤ d) :
    |√(1 - p * p) - ‖(⟨z 0, z 1⟩ : ℂ)‖| * (√(1 - p * p) + ‖(⟨z 0, z 1⟩ : ℂ)‖) ≤ d + 3 * e ∧
    (√(1 - p * p) - ‖(⟨z 0, z 1⟩ : ℂ)‖) ^ 2 ≤ d + 3 * e := by
  have hQ := Real.sqrt_nonneg (1 - p * p)
  have hZ := _root_.norm_nonneg (⟨z 0, z 1⟩ : ℂ)
  have p2 : p * p ≤ 1 := by
    have := mul_le_mul hp hp (abs_nonneg _) zero_le_one
    rwa [abs_mul_abs_self, one_mul] at this
  have q2 : √(1 - p * p) ^ 2 = 1 - p * p := Real.sq_sqrt (by linarith)
  have z2 : ‖(⟨z 0, z 1⟩ : ℂ)‖ ^ 2 = z 0 * z 0 + z 1 * z 1 := by rw [Complex.sq_norm, Complex.normSq_mk]
  have hd : |√(1 - p * p) ^ 2 - ‖(⟨z 0, z 1⟩ : ℂ)‖ ^ 2| ≤ d + 3 * e := by
    have e1 : √(1 - p * p) ^ 2 - ‖(⟨z 0, z 1⟩ : ℂ)‖ ^ 2 = -(z ⬝ᵥ z - 1) + -((p - z 2) * (2 * p - (p - z 2))) := by
      rw [q2, z2]
      simp only [dotProduct, Fin.sum_univ_three]
      ring
    have e2 : |2 * p - (p - z 2)| ≤ 3 := by
      refine (abs_sub _ _).trans ?_
      rw [abs_mul, abs_two]
      linarith
    rw [e1]
    refine (abs_add_le _ _).trans ?_
    rw [abs_neg, abs_neg, abs_mul]
    have := mul_le_mul he e2 (abs_nonneg _) ((abs_nonneg _).trans he)
    linarith
  generalize √(1 - p * p) = Q at *
  generalize ‖(⟨z 0, z 1⟩ : ℂ)‖ = Z at *
  have e3 : |Q - Z| * (Q + Z) = |Q ^ 2 - Z ^ 2| := by
    rw [← abs_of_nonneg (add_nonneg hQ hZ), ← abs_mul]
    congr 1
    ring
  refine ⟨e3 ▸ hd, le_trans ?_ (e3 ▸ hd : |Q - Z| * (Q + Z) ≤ _)⟩
  rw [← sq_abs, sq]
  refine mul_le_mul_of_nonneg_left ?_ (abs_nonneg _)
  exact abs_le.2 ⟨by linarith, by linarith⟩

/-- What one conversion costs anywhere. -/
theorem leg_cost {T : Trig} (g : Leg T) {u v : ℚ} {q : ℚ} {c : ℝ} (hq : |(q : ℝ)| ≤ 1)
    (eq : |(q : ℝ) - (g.exact *ᵥ Coord.columnVector u v) 2| ≤ 2 ^ (-49 : ℤ))
    (hc : c ≤ |√(1 - q * q) - ‖(⟨(g.exact *ᵥ Coord.columnVector u v) 0, (g.exact *ᵥ Coord.columnVector u v) 1⟩ : ℂ)‖| + 6 * 2 ^ (-49 : ℤ)) :
    c ≤ 2 ^ (-23 : ℤ) + (if g.galactic then 1 / 2000 else 0) := by
  rcases Leg.cases g with ⟨r, rfl⟩ | ⟨hg, hm⟩
  · have hz : (r.exact *ᵥ Coord.columnVector u v) ⬝ᵥ (r.exact *ᵥ Coord.columnVector u v) = 1 := by
      rw [C53_isometry _ r.rotates, C57_unit]
    have e : (Leg.turn r).exact = r.exact := rfl
    rw [e] at eq hc
    rw [equator_norm hz] at hc
    have hs := (root_spread hq (third_le r.same u v) eq).1
    have hs' : |√(1 - q * q) - √(1 - (r.exact *ᵥ Coord.columnVector u v) 2 * (r.exact *ᵥ Coord.columnVector u v) 2)| ≤ 2 ^ (-24 : ℤ) := by
      apply abs_le_of_sq_le_sq _ (by positivity)
      refine hs.trans (le_of_eq ?_)
      norm_num
    have e23 : (2 : ℝ) ^ (-24 : ℤ) + 6 * 2 ^ (-49 : ℤ) ≤ 2 ^ (-23 : ℤ) := by norm_num
    have e0 : (if (Leg.turn r).galactic = true then 1 / 2000 else 0 : ℝ) = 0 := rfl
    rw [e0]
    linarith
  · have hs := (axis_spread hq eq (by norm_num) (leg_length g u v)).2
    have hs' : |√(1 - q * q) - ‖(⟨(g.exact *ᵥ Coord.columnVector u v) 0, (g.exact *ᵥ Coord.columnVector u v) 1⟩ : ℂ)‖| ≤ 1 / 2000 := by
      apply abs_le_of_sq_le_sq _ (by positivity)
      refine hs.trans ?_
      norm_num
    have e23 : 6 * (2 : ℝ) ^ (-49 : ℤ) ≤ 2 ^ (-23 : ℤ) := by norm_num
    rw [if_pos hg]
    generalize (2 : ℝ) ^ (-49 : ℤ) = ε at *
    generalize (2 : ℝ) ^ (-23 : ℤ) = δ at *
    linarith

/-- What one conversion costs away from the poles. -/
theorem leg_cost_moderate {T : Trig} (g : Leg T) {u v : ℚ} {q : ℚ} {c : ℝ} (hq : |(q : ℝ)| ≤ 1)
    (eq : |(q : ℝ) - (g.exact *ᵥ Coord.columnVector u v) 2| ≤ 2 ^ (-49 : ℤ)) (h : |(g.exact *ᵥ Coord.columnVector u v) 2| ≤ 81 / 100)
    (hc : c ≤ |√(1 - q * q) - ‖(⟨(g.exact *ᵥ Coord.columnVector u v) 0, (g.exact *ᵥ Coord.columnVector u v) 1⟩ : ℂ)‖| + 6 * 2 ^ (-49 : ℤ)) :
    c ≤ 2 ^ (-45 : ℤ) + (if g.galactic then 2 / 10 ^ 7 else 0) := by
  have hl := leg_length g u v
  have hS : ∀ d : ℝ, d ≤ 19 / 10 ^ 8 → |(g.exact *ᵥ Coord.columnVector u v) ⬝ᵥ (g.exact *ᵥ Coord.columnVector u v) - 1| ≤ d →
      |√(1 - q * q) - ‖(⟨(g.exact *ᵥ Coord.columnVector u v) 0, (g.exact *ᵥ Coord.columnVector u v) 1⟩ : ℂ)‖| ≤ d + 3 * 2 ^ (-49 : ℤ) := by
    intro d _ hd
    have hs := (axis_spread hq eq (by norm_num) hd).1
    refine le_trans (le_mul_of_one_le_right (abs_nonneg _) ?_) hs
    generalize g.exact *ᵥ Coord.columnVector u v = z at *
    have hz2 : z 2 * z 2 ≤ 81 / 100 * (81 / 100) := by
      have := mul_le_mul h h (abs_nonneg _) (by norm_num)
      rwa [abs_mul_abs_self] at this
    have hq' : |(q : ℝ)| ≤ 82 / 100 := by
      have := abs_sub_abs_le_abs_sub (q : ℝ) (z 2)
      have e : (2 : ℝ) ^ (-49 : ℤ) ≤ 1 / 100 := by norm_num
      generalize (2 : ℝ) ^ (-49 : ℤ) = ε at *
      linarith
    have hq2 : (q : ℝ) * q ≤ 82 / 100 * (82 / 100) := by
      have := mul_le_mul hq' hq' (abs_nonneg _) (by norm_num)
      rwa [abs_mul_abs_self] at this
    have b1 : 1 / 2 ≤ √(1 - (q : ℝ) * q) := by
      apply Real.le_sqrt_of_sq_le
      norm_num at *
      linarith
    have b2 : 1 / 2 ≤ ‖(⟨z 0, z 1⟩ : ℂ)‖ := by
      rw [Complex.norm_def, Complex.normSq_mk]
      apply Real.le_sqrt_of_sq_le
      have := (abs_le.1 hl).1
      simp only [dotProduct, Fin.sum_univ_three] at this
      norm_num at *
      linarith
    linarith
  rcases Leg.cases g with ⟨r, rfl⟩ | ⟨hg, hm⟩
  · have hz : ((Leg.turn r).exact *ᵥ Coord.columnVector u v) ⬝ᵥ ((Leg.turn r).exact *ᵥ Coord.columnVector u v) = 1 := by
      have e : (Leg.turn r).exact = r.exact := rfl
      rw [e, C53_isometry _ r.rotates, C57_unit]
    have := hS 0 (by norm_num) (by rw [hz]; norm_num)
    have e0 : (if (Leg.turn r).galactic = true then 2 / 10 ^ 7 else 0 : ℝ) = 0 := rfl
    have e45 : 9 * (2 : ℝ) ^ (-49 : ℤ) ≤ 2 ^ (-45 : ℤ) := by norm_num
    rw [e0]
    linarith
  · have := hS _ le_rfl hl
    have e45 : 9 * (2 : ℝ) ^ (-49 : ℤ) ≤ 2 ^ (-45 : ℤ) := by norm_num
    rw [if_pos hg]
    norm_num at this e45 hc ⊢
    linarith

/-- Away from the poles there is a latitude. -/
theorem leg_exists {T : Trig} {I : InverseTrig} (hT : Accurate T) (hI : AccurateInverse I) (g : Leg T) {u v : ℚ} (hu : IsDouble u) (hv : IsDouble v)
    (h : |(g.exact *ᵥ Coord.columnVector u v) 2| ≤ 9 / 10) : (g.computed.convert T I (.num u, .num v)).2 ≠ .nan := by
  obtain ⟨a, da, same⟩ := leg_same g
  obtain ⟨-, -, ⟨p, hp, dp, ep⟩⟩ := C112_error hT da hu hv same
  have e49 : (2 : ℝ) ^ (-49 : ℤ) ≤ 1 / 10 := by norm_num
  have hin' : |(p : ℝ)| ≤ 1 := by
    have := abs_sub_abs_le_abs_sub (p : ℝ) ((g.exact *ᵥ Coord.columnVector u v) 2)
    generalize (2 : ℝ) ^ (-49 : ℤ) = ε at *
    linarith
  have hin : |p| ≤ 1 := by exact_mod_cast hin'
  obtain ⟨v', hv', -⟩ := hI.asin p dp hin
  have ha : I.asinOf (.num p) = I.asin (.num p) := if_pos (abs_le.1 hin)
  unfold DMat.convert DVec.extract
  dsimp only
  rw [hp, ha, hv']
  exact Dbl.noConfusion

end Astro
