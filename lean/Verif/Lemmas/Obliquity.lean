import Verif.Model.Obliquity
import Verif.Model.Rotation
import Verif.Spec.Obliquity
import Verif.Lemmas.Near
import Mathlib.Analysis.Real.Pi.Bounds

/-
Helper lemmas: the obliquity of the ecliptic in floating point arithmetic.
-/

set_option exponentiation.threshold 3000

namespace Astro

open Spec Time

attribute [local irreducible] FloatFmt.nearest FloatFmt.value Dbl.round

/-- Error of the polynomial. -/
theorem obliquity_degrees (jd : ℤ) (h1 : 2232400 ≤ jd) (h2 : jd ≤ 5373484) : Near (Obliquity.degrees jd) (Coord.obliquityDegrees jd) (60 * unit53) := by
  have u0 := unit53_pos
  have hD : (Dbl.round (jd : ℚ)).sub (.round 2451545.0) = .num ((jd - 2451545 : ℤ) : ℚ) := by
    have e : (2451545.0 : ℚ) = ((2451545 : ℤ) : ℚ) := by norm_num
    rw [e, round_int (by rw [abs_le]; omega), round_int (by norm_num), sub_int (by rw [abs_le]; omega)]
  have h36525 : Dbl.round 36525.0 = .num 36525 := by
    have := round_int (i := 36525) (by norm_num); norm_num at this ⊢; exact this
  have h3600 : Dbl.round 3600.0 = .num 3600 := by
    have := round_int (i := 3600) (by norm_num); norm_num at this ⊢; exact this
  have r1 : (2232400 : ℝ) ≤ jd := by exact_mod_cast h1
  have r2 : (jd : ℝ) ≤ 5373484 := by exact_mod_cast h2
  unfold Obliquity.degrees Coord.obliquityDegrees
  simp only [hD, h36525, h3600]
  set D : ℝ := (jd : ℝ) - 2451545.0 with hDdef
  have eD : (((jd - 2451545 : ℤ) : ℚ) : ℝ) = D := by rw [hDdef]; push_cast; norm_num
  have bD : |D| ≤ 2921939 := by rw [hDdef, abs_le]; norm_num; constructor <;> linarith
  have n0 : Near (.num ((jd - 2451545 : ℤ) : ℚ)) D (0 * unit53) := by
    rw [zero_mul, ← eD]
    exact near_exact' (isDouble_int (by rw [abs_le]; omega))
  have nt := near_div_gen n0 (k := 36525) (R := 80) (by norm_num) (bD.trans (by norm_num)) le_rfl (by norm_num) (by norm_num)
  have eT : D / ((36525 : ℚ) : ℝ) = D / 36525.0 := by norm_num
  rw [eT] at nt
  have bt : |D / 36525.0| ≤ 80 := by
    rw [abs_div, div_le_iff₀ (by norm_num)]
    exact bD.trans (by norm_num)
  generalize D / 36525.0 = t at *
  generalize (Dbl.num ((jd - 2451545 : ℤ) : ℚ)).div (.num 36525) = dt at *
  have bt2 := abs_le.1 bt
  have nt' : Near dt t (801 / 10 * unit53) := near_mono nt (mul_le_mul_of_nonneg_right (by norm_num) u0.le)
  have k1 := near_constant (q := 0.00181) (r := 0.00181) (R := 0.00181) (by norm_num) (by norm_num [abs_le]) (by norm_num)
  have p1 := near_mul_gen k1 nt' (by norm_num [abs_le]) bt (by norm_num) (by norm_num) (R := 0.00181) (by norm_num) (by norm_num)
  have bp1 : |0.00181 * t| ≤ 0.1448 := by
    rw [abs_mul, abs_of_pos (by norm_num)]; linarith
  have k2 := near_constant (q := 0.0006) (r := 0.0006) (R := 0.0006) (by norm_num) (by norm_num [abs_le]) (by norm_num)
  have bs : |0.0006 - 0.00181 * t| ≤ 0.1454 :=
    (abs_sub _ _).trans ((add_le_add (by norm_num [abs_le] : |(0.0006 : ℝ)| ≤ 0.0006) bp1).trans (by norm_num))
  have s1 := near_sub_gen k2 p1 bs (by norm_num) (by norm_num) (by norm_num)
  have p2 := near_mul_gen s1 nt' bs bt (by norm_num) (by norm_num) (by norm_num) (by norm_num)
  have bp2 : |(0.0006 - 0.00181 * t) * t| ≤ 11.632 := by
    rw [abs_mul]
    exact (mul_le_mul bs bt (abs_nonneg _) (by norm_num)).trans (by norm_num)
  have p3 := near_mul_gen p2 nt' bp2 bt (by norm_num) (by norm_num) (by norm_num) (by norm_num)
  have bp3 : |(0.0006 - 0.00181 * t) * t * t| ≤ 930.56 := by
    rw [abs_mul]
    exact (mul_le_mul bp2 bt (abs_nonneg _) (by norm_num)).trans (by norm_num)
  have k3 := near_constant (q := 46.815) (r := 46.815) (R := 46.815) (by norm_num) (by norm_num [abs_le]) (by norm_num)
  have p4 := near_mul_gen k3 nt' (by norm_num [abs_le]) bt (by norm_num) (by norm_num) (R := 46.815) (by norm_num) (by norm_num)
  have bp4 : |46.815 * t| ≤ 3745.2 := by
    rw [abs_mul, abs_of_pos (by norm_num)]; linarith
  have bsum : |46.815 * t + (0.0006 - 0.00181 * t) * t * t| ≤ 4675.76 := (abs_add_le _ _).trans (by linarith)
  have s2 := near_add_gen p4 p3 bsum (by norm_num) (by norm_num) (by norm_num)
  have d1 := near_div_gen s2 (k := 3600) (R := 1.3) (by norm_num) (bsum.trans (by norm_num)) (by norm_num) (by norm_num) (by norm_num)
  have eQ : (46.815 * t + (0.0006 - 0.00181 * t) * t * t) / ((3600 : ℚ) : ℝ) = (46.815 * t + (0.0006 - 0.00181 * t) * t * t) / 3600.0 := by norm_num
  rw [eQ] at d1
  have bq : |(46.815 * t + (0.0006 - 0.00181 * t) * t * t) / 3600.0| ≤ 1.3 := by
    rw [abs_div, div_le_iff₀ (by norm_num)]
    exact bsum.trans (by norm_num)
  have k4 := near_constant (q := 23.439292) (r := 23.439292) (R := 23.439292) (by norm_num) (by norm_num [abs_le]) (by norm_num)
  have fin := near_sub_gen k4 d1 (Q := 24.8) ((abs_sub _ _).trans ((add_le_add (by norm_num [abs_le] : |(23.439292 : ℝ)| ≤ 23.5) bq).trans (by norm_num)))
    (by norm_num) (by norm_num) (by norm_num)
  refine near_mono fin (mul_le_mul_of_nonneg_right (by norm_num) u0.le)

/-- The obliquity in degrees stays between 22 and 25. -/
theorem obliquity_range (jd : ℤ) (h1 : 2232400 ≤ jd) (h2 : jd ≤ 5373484) : 22 ≤ Coord.obliquityDegrees jd ∧ Coord.obliquityDegrees jd ≤ 25 := by
  have r1 : (2232400 : ℝ) ≤ jd := by exact_mod_cast h1
  have r2 : (jd : ℝ) ≤ 5373484 := by exact_mod_cast h2
  unfold Coord.obliquityDegrees
  simp only
  have bt : |((jd : ℝ) - 2451545.0) / 36525.0| ≤ 80 := by
    rw [abs_div, div_le_iff₀ (by norm_num), abs_le]
    norm_num
    constructor <;> linarith
  generalize ((jd : ℝ) - 2451545.0) / 36525.0 = t at *
  have bp1 : |0.00181 * t| ≤ 0.1448 := by
    rw [abs_mul, abs_of_pos (by norm_num)]; linarith
  have bs : |0.0006 - 0.00181 * t| ≤ 0.1454 :=
    (abs_sub _ _).trans ((add_le_add (by norm_num [abs_le] : |(0.0006 : ℝ)| ≤ 0.0006) bp1).trans (by norm_num))
  have bp2 : |(0.0006 - 0.00181 * t) * t| ≤ 11.632 := by
    rw [abs_mul]
    exact (mul_le_mul bs bt (abs_nonneg _) (by norm_num)).trans (by norm_num)
  have bp3 : |(0.0006 - 0.00181 * t) * t * t| ≤ 930.56 := by
    rw [abs_mul]
    exact (mul_le_mul bp2 bt (abs_nonneg _) (by norm_num)).trans (by norm_num)
  have bp4 : |46.815 * t| ≤ 3745.2 := by
    rw [abs_mul, abs_of_pos (by norm_num)]; linarith
  have bsum : |46.815 * t + (0.0006 - 0.00181 * t) * t * t| ≤ 4675.76 := (abs_add_le _ _).trans (by linarith)
  have bq : |(46.815 * t + (0.0006 - 0.00181 * t) * t * t) / 3600.0| ≤ 1.3 := by
    rw [abs_div, div_le_iff₀ (by norm_num)]
    exact bsum.trans (by norm_num)
  obtain ⟨q1, q2⟩ := abs_le.1 bq
  generalize (46.815 * t + (0.0006 - 0.00181 * t) * t * t) / 3600.0 = y at *
  norm_num at q1 q2 ⊢
  constructor <;> linarith

theorem radians_num {ext : ℚ → ℚ} {jd : ℤ} {q : ℚ} (h : Obliquity.degrees jd = .num q) :
    Obliquity.radians ext jd = .round (ext (ext (q * Obliquity.pi ext) / 180)) := by
  unfold Obliquity.radians
  rw [h, Obliquity.toRadians]

/-- One rounding to `long double`. -/
theorem ext_near {ext : ℚ → ℚ} (h : AtLeastDouble ext) {q : ℚ} {r c R : ℝ} (hq : |(q : ℝ) - r| ≤ c * unit53) (h1 : 1 / 1000 ≤ (q : ℝ)) (h2 : (q : ℝ) ≤ R)
    (hR : R ≤ 1000) : |(ext q : ℝ) - r| ≤ (c + R) * unit53 := by
  have u0 := unit53_pos
  have q1 : (1 / 1000 : ℚ) ≤ q := by
    have : ((1 / 1000 : ℚ) : ℝ) ≤ q := by push_cast; exact h1
    exact_mod_cast this
  have q2 : q ≤ 1000 := by
    have : (q : ℝ) ≤ ((1000 : ℚ) : ℝ) := by push_cast; linarith
    exact_mod_cast this
  have aq : |q| = q := abs_of_pos (by linarith)
  have k1 : (2 : ℚ) ^ (-100 : ℤ) ≤ |q| := by
    rw [aq]
    exact le_trans (by norm_num) q1
  have k2 : |q| ≤ 2 ^ 100 := by
    rw [aq]
    exact q2.trans (by norm_num)
  have h3 := h q k1 k2
  rw [aq] at h3
  have h4 := (Rat.cast_le (K := ℝ)).2 h3
  rw [Rat.cast_abs, Rat.cast_sub, Rat.cast_mul, Rat.cast_zpow, Rat.cast_ofNat] at h4
  have h5 : (q : ℝ) * 2 ^ (-53 : ℤ) ≤ R * unit53 := mul_le_mul_of_nonneg_right h2 u0.le
  have e : (ext q : ℝ) - r = (ext q - q) + (q - r) := by ring
  rw [e]
  refine (abs_add_le _ _).trans ?_
  have : (c + R) * unit53 = R * unit53 + c * unit53 := by ring
  rw [this]
  exact add_le_add (h4.trans h5) hq

end Astro
