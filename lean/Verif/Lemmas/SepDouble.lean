import Verif.Spec.SepDouble
import Verif.Lemmas.RepDouble
import Verif.Lemmas.Near
import Verif.Props.VecDouble
import Mathlib.Analysis.Real.Pi.Bounds

/-
Helper lemmas: cosine of a separation in doubles.
-/

set_option exponentiation.threshold 3000

namespace Astro

open Spec Time

attribute [local irreducible] FloatFmt.nearest FloatFmt.value Dbl.round

/-- The direction an angular point stands for. -/
theorem direction_parts {T : Trig} (hT : Accurate T) {s : Coord.System} (hs : s ≠ .cartesian) {a b r : ℚ} (da : IsDouble a) (db : IsDouble b) (hr : Moderate r) :
    ∃ (x y z : ℚ) (A B : ℝ), Coords (DSph.makeCartesian T s ⟨.num a, .num b, .num r⟩) x y z ∧ A ^ 2 + B ^ 2 = 1 ∧
      (A = if s = .equatorial then Real.cos b else Real.sin b) ∧ (B = if s = .equatorial then Real.sin b else Real.cos b) ∧
      |(x : ℝ) - r * (A * Real.cos a)| ≤ |(r : ℝ)| * (5 * unit53) ∧ |(y : ℝ) - r * (A * Real.sin a)| ≤ |(r : ℝ)| * (5 * unit53) ∧
      |(z : ℝ) - r * B| ≤ |(r : ℝ)| * (5 * unit53) := by
  obtain ⟨ts, tc⟩ := hT a da
  obtain ⟨us, uc⟩ := hT b db
  rw [show (2 : ℝ) ^ (-53 : ℤ) = unit53 from rfl] at ts tc us uc
  cases s with
  | cartesian => exact absurd rfl hs
  | spherical =>
    obtain ⟨x, hx, dx, ex⟩ := scaled_two hr us (Real.abs_sin_le_one _) tc (Real.abs_cos_le_one _)
    obtain ⟨y, hy, dy, ey⟩ := scaled_two hr us (Real.abs_sin_le_one _) ts (Real.abs_sin_le_one _)
    obtain ⟨z, hz, dz, ez⟩ := scaled_one hr uc (Real.abs_cos_le_one _)
    refine ⟨x, y, z, Real.sin b, Real.cos b, ⟨?_, dx, dy, dz⟩, Real.sin_sq_add_cos_sq _, by simp, by simp, ex, ey, ez⟩
    unfold DSph.makeCartesian DSph.toCartesian
    dsimp only
    rw [hx, hy, hz]
  | equatorial =>
    obtain ⟨x, hx, dx, ex⟩ := scaled_two hr uc (Real.abs_cos_le_one _) tc (Real.abs_cos_le_one _)
    obtain ⟨y, hy, dy, ey⟩ := scaled_two hr uc (Real.abs_cos_le_one _) ts (Real.abs_sin_le_one _)
    obtain ⟨z, hz, dz, ez⟩ := scaled_one hr us (Real.abs_sin_le_one _)
    refine ⟨x, y, z, Real.cos b, Real.sin b, ⟨?_, dx, dy, dz⟩, Real.cos_sq_add_sin_sq _, by simp, by simp, ex, ey, ez⟩
    unfold DSph.makeCartesian DSph.toCartesian
    dsimp only
    rw [hx, hy, hz]

/-- Sum of absolute coordinates of a direction. -/
theorem direction_sum_le {X Y Z : ℝ} (h : X ^ 2 + Y ^ 2 + Z ^ 2 = 1) : |X| + |Y| + |Z| ≤ 7 / 4 := by
  have e : |X| ^ 2 + |Y| ^ 2 + |Z| ^ 2 = 1 := by rw [sq_abs, sq_abs, sq_abs]; exact h
  nlinarith [sq_nonneg (|X| - |Y|), sq_nonneg (|Y| - |Z|), sq_nonneg (|X| - |Z|), abs_nonneg X, abs_nonneg Y, abs_nonneg Z]

/-- Cauchy-Schwarz for absolute values. -/
theorem abs_products_le {X Y Z X' Y' Z' : ℝ} (h : X ^ 2 + Y ^ 2 + Z ^ 2 = 1) (h' : X' ^ 2 + Y' ^ 2 + Z' ^ 2 = 1) :
    |X| * |X'| + |Y| * |Y'| + |Z| * |Z'| ≤ 1 := by
  have e : |X| ^ 2 + |Y| ^ 2 + |Z| ^ 2 = 1 := by rw [sq_abs, sq_abs, sq_abs]; exact h
  have e' : |X'| ^ 2 + |Y'| ^ 2 + |Z'| ^ 2 = 1 := by rw [sq_abs, sq_abs, sq_abs]; exact h'
  nlinarith [sq_nonneg (|X| - |X'|), sq_nonneg (|Y| - |Y'|), sq_nonneg (|Z| - |Z'|)]

/-- One product of coordinates. -/
theorem coordinate_product {r r' x x' X X' : ℝ} (hx : |x - r * X| ≤ |r| * (5 * unit53)) (hx' : |x' - r' * X'| ≤ |r'| * (5 * unit53)) :
    |x * x' - r * r' * (X * X')| ≤ |r| * |r'| * ((|X| + |X'| + 1 / 1000) * (5 * unit53)) := by
  have u0 := unit53_pos
  have u1 := unit53_small
  have e : x * x' - r * r' * (X * X') = (x - r * X) * (x' - r' * X') + (x - r * X) * (r' * X') + r * X * (x' - r' * X') := by ring
  rw [e]
  refine (abs_add_three _ _ _).trans ?_
  rw [abs_mul, abs_mul, abs_mul, abs_mul, abs_mul]
  have k1 := mul_le_mul hx hx' (abs_nonneg _) (by positivity)
  have k2 : |x - r * X| * (|r'| * |X'|) ≤ |r| * (5 * unit53) * (|r'| * |X'|) := mul_le_mul_of_nonneg_right hx (by positivity)
  have k3 : |r| * |X| * |x' - r' * X'| ≤ |r| * |X| * (|r'| * (5 * unit53)) := mul_le_mul_of_nonneg_left hx' (by positivity)
  have k4 : |r| * (5 * unit53) * (|r'| * (5 * unit53)) ≤ |r| * |r'| * (1 / 1000 * (5 * unit53)) := by
    have e2 : |r| * (5 * unit53) * (|r'| * (5 * unit53)) = |r| * |r'| * ((5 * unit53) * (5 * unit53)) := by ring
    rw [e2]
    exact mul_le_mul_of_nonneg_left (mul_le_mul_of_nonneg_right (by linarith) (by linarith)) (by positivity)
  have e3 : |r| * |r'| * ((|X| + |X'| + 1 / 1000) * (5 * unit53)) = |r| * |r'| * (1 / 1000 * (5 * unit53)) + |r| * (5 * unit53) * (|r'| * |X'|) +
      |r| * |X| * (|r'| * (5 * unit53)) := by ring
  rw [e3]
  linarith

/-- Distances whose product is neither huge nor tiny. -/
def Middling (r : ℚ) : Prop := 2 ^ (-400 : ℤ) ≤ |r| ∧ |r| ≤ 2 ^ (400 : ℤ)

theorem Middling.moderate {r : ℚ} (h : Middling r) : Moderate r :=
  ⟨le_trans (zpow_le_zpow_right₀ (by norm_num) (by norm_num)) h.1, h.2.trans (zpow_le_zpow_right₀ (by norm_num) (by norm_num))⟩

theorem Middling.mul {r r' : ℚ} (h : Middling r) (h' : Middling r') : 2 ^ (-800 : ℤ) ≤ |r * r'| ∧ |r * r'| ≤ 2 ^ (800 : ℤ) := by
  rw [abs_mul]
  constructor
  · rw [show (-800 : ℤ) = -400 + -400 by norm_num, zpow_add₀ (by norm_num)]
    exact mul_le_mul h.1 h'.1 (two_zpow_pos _).le (abs_nonneg _)
  · rw [show (800 : ℤ) = 400 + 400 by norm_num, zpow_add₀ (by norm_num)]
    exact mul_le_mul h.2 h'.2 (abs_nonneg _) (two_zpow_pos _).le

/-- The argument of the arc cosine. -/
theorem separation_near {T : Trig} (hT : Accurate T) {s : Coord.System} (hs : s ≠ .cartesian) {a b r a' b' r' : ℚ} (da : IsDouble a) (db : IsDouble b) (hr : Middling r)
    (da' : IsDouble a') (db' : IsDouble b') (hr' : Middling r') :
    Near (DSph.cosSeparation T s ⟨.num a, .num b, .num r⟩ ⟨.num a', .num b', .num r'⟩) (cosBetween s a b a' b') (25 * unit53) ∧
      |cosBetween s a b a' b'| ≤ 1 := by
  obtain ⟨x, y, z, A, B, hc, hAB, eA, eB, ex, ey, ez⟩ := direction_parts hT hs da db hr.moderate
  obtain ⟨x', y', z', A', B', hc', hAB', eA', eB', ex', ey', ez'⟩ := direction_parts hT hs da' db' hr'.moderate
  have u0 := unit53_pos
  have u1 := unit53_small
  have n1 : (A * Real.cos a) ^ 2 + (A * Real.sin a) ^ 2 + B ^ 2 = 1 := by
    have := Real.sin_sq_add_cos_sq (a : ℝ)
    linear_combination A ^ 2 * this + hAB
  have n1' : (A' * Real.cos a') ^ 2 + (A' * Real.sin a') ^ 2 + B' ^ 2 = 1 := by
    have := Real.sin_sq_add_cos_sq (a' : ℝ)
    linear_combination A' ^ 2 * this + hAB'
  have hC : cosBetween s a b a' b' = A * Real.cos a * (A' * Real.cos a') + A * Real.sin a * (A' * Real.sin a') + B * B' := by
    have := Real.cos_sub (a : ℝ) a'
    cases s with
    | cartesian => exact absurd rfl hs
    | spherical =>
      simp only [cosBetween, this, eA, eB, eA', eB', reduceCtorEq, if_false]
      ring
    | equatorial =>
      simp only [cosBetween, this, eA, eB, eA', eB', if_true]
      ring
  have s1 := direction_sum_le n1
  have s1' := direction_sum_le n1'
  have cs := abs_products_le n1 n1'
  have px := coordinate_product ex ex'
  have py := coordinate_product ey ey'
  have pz := coordinate_product ez ez'
  rw [hC]
  generalize A * Real.cos a = X at *
  generalize A * Real.sin a = Y at *
  generalize A' * Real.cos a' = X' at *
  generalize A' * Real.sin a' = Y' at *
  clear eA eB eA' eB' hAB hAB' ex ey ez ex' ey' ez'
  have c1 : |X * X' + Y * Y' + B * B'| ≤ 1 := by
    refine (abs_add_three _ _ _).trans ?_
    rw [abs_mul, abs_mul, abs_mul]
    exact cs
  refine ⟨?_, c1⟩
  -- everything relative to the product of the distances
  obtain ⟨m1, m2⟩ := hr.mul hr'
  have R0 : 0 < |(r : ℝ)| * |(r' : ℝ)| := by
    rw [← abs_mul]
    have : 0 < |r * r'| := lt_of_lt_of_le (two_zpow_pos _) m1
    have h2 : ((0 : ℚ) : ℝ) < ((|r * r'| : ℚ) : ℝ) := (Rat.cast_lt (K := ℝ)).2 this
    push_cast at h2
    exact h2
  set R := |(r : ℝ)| * |(r' : ℝ)| with hR
  have hRq : R = ((|r * r'| : ℚ) : ℝ) := by rw [hR]; push_cast; rw [abs_mul]
  have tiny : (2 : ℝ) ^ (-1073 : ℤ) ≤ R * (1 / 1000 * unit53) := by
    have h1 : (2 : ℚ) ^ (-1073 : ℤ) ≤ |r * r'| * 2 ^ (-73 : ℤ) := by
      have : (2 : ℚ) ^ (-1073 : ℤ) ≤ 2 ^ (-800 : ℤ) * 2 ^ (-73 : ℤ) := by
        rw [← zpow_add₀ (by norm_num)]
        exact zpow_le_zpow_right₀ (by norm_num) (by norm_num)
      exact this.trans (mul_le_mul_of_nonneg_right m1 (two_zpow_pos _).le)
    have h2 := (Rat.cast_le (K := ℝ)).2 h1
    rw [Rat.cast_mul, Rat.cast_zpow, Rat.cast_zpow, Rat.cast_ofNat, ← hRq] at h2
    exact h2.trans (mul_le_mul_of_nonneg_left (by norm_num [unit53]) R0.le)
  -- sums of products
  have sum1 : |(x : ℝ) * x' + y * y' + z * z' - r * r' * (X * X' + Y * Y' + B * B')| ≤ R * (18 * unit53) := by
    have e : (x : ℝ) * x' + y * y' + z * z' - r * r' * (X * X' + Y * Y' + B * B') =
        (x * x' - r * r' * (X * X')) + (y * y' - r * r' * (Y * Y')) + (z * z' - r * r' * (B * B')) := by ring
    rw [e]
    refine (abs_add_three _ _ _).trans ?_
    have h1 : R * ((|X| + |X'| + 1 / 1000) * (5 * unit53)) + R * ((|Y| + |Y'| + 1 / 1000) * (5 * unit53)) + R * ((|B| + |B'| + 1 / 1000) * (5 * unit53)) =
        R * (((|X| + |Y| + |B|) + (|X'| + |Y'| + |B'|) + 3 / 1000) * (5 * unit53)) := by ring
    have h2 : R * (((|X| + |Y| + |B|) + (|X'| + |Y'| + |B'|) + 3 / 1000) * (5 * unit53)) ≤ R * ((7 / 4 + 7 / 4 + 3 / 1000) * (5 * unit53)) :=
      mul_le_mul_of_nonneg_left (mul_le_mul_of_nonneg_right (by linarith) (by linarith)) R0.le
    have h3 : R * ((7 / 4 + 7 / 4 + 3 / 1000) * (5 * unit53)) ≤ R * (18 * unit53) := mul_le_mul_of_nonneg_left (by linarith) R0.le
    linarith
  have sum2 : |(x : ℝ) * x'| + |(y : ℝ) * y'| + |(z : ℝ) * z'| ≤ R * (1 + 1 / 1000) := by
    have key : ∀ {p q e : ℝ} , |p - (r : ℝ) * r' * q| ≤ R * e → |p| ≤ R * (|q| + e) := by
      intro p q e h
      have e1 : p = (p - r * r' * q) + r * r' * q := by ring
      rw [e1]
      refine (abs_add_le _ _).trans ?_
      rw [abs_mul, abs_mul, ← hR]
      linarith
    have a1 := key px
    have a2 := key py
    have a3 := key pz
    have h2 : R * (((|X| + |Y| + |B|) + (|X'| + |Y'| + |B'|) + 3 / 1000) * (5 * unit53)) ≤ R * (1 / 1000) :=
      mul_le_mul_of_nonneg_left (by
        have : ((|X| + |Y| + |B|) + (|X'| + |Y'| + |B'|) + 3 / 1000) * (5 * unit53) ≤ 4 * (5 * unit53) := mul_le_mul_of_nonneg_right (by linarith) (by linarith)
        linarith) R0.le
    have h3 : R * (|X * X'| + |Y * Y'| + |B * B'|) ≤ R * 1 := by
      rw [abs_mul, abs_mul, abs_mul]
      exact mul_le_mul_of_nonneg_left cs R0.le
    linarith
  have big : |x * x'| + |y * y'| + |z * z'| ≤ 2 ^ 1022 := by
    have h1 : ((|x * x'| + |y * y'| + |z * z'| : ℚ) : ℝ) ≤ ((2 * |r * r'| : ℚ) : ℝ) := by
      have h0 : ((|x * x'| + |y * y'| + |z * z'| : ℚ) : ℝ) = |(x : ℝ) * x'| + |(y : ℝ) * y'| + |(z : ℝ) * z'| := by push_cast; rfl
      have h00 : ((2 * |r * r'| : ℚ) : ℝ) = 2 * R := by rw [Rat.cast_mul, ← hRq, Rat.cast_ofNat]
      rw [h0, h00]
      linarith
    have h2 := (Rat.cast_le (K := ℝ)).1 h1
    refine h2.trans ((mul_le_mul_of_nonneg_left m2 (by norm_num)).trans ?_)
    rw [mul_comm, ← zpow_add_one₀ (by norm_num), ← zpow_natCast]
    exact zpow_le_zpow_right₀ (by norm_num) (by norm_num)
  obtain ⟨d, hd, ed⟩ := C104_error _ _ x y z x' y' z' hc hc' big
  have ed' : |(d : ℝ) - (x * x' + y * y' + z * z')| ≤ 4 * unit53 * (|(x : ℝ) * x'| + |(y : ℝ) * y'| + |(z : ℝ) * z'|) + 2 ^ (-1073 : ℤ) := by
    have := (Rat.cast_le (K := ℝ)).2 ed
    rw [Rat.cast_add, Rat.cast_zpow _ (-1073 : ℤ), Rat.cast_ofNat] at this
    have e4 : (4 : ℝ) * unit53 = 2 ^ (-51 : ℤ) := by norm_num [unit53]
    rw [e4]
    push_cast at this
    exact this
  have dC : |(d : ℝ) - r * r' * (X * X' + Y * Y' + B * B')| ≤ R * (224 / 10 * unit53) := by
    have e : (d : ℝ) - r * r' * (X * X' + Y * Y' + B * B') = (d - (x * x' + y * y' + z * z')) + ((x : ℝ) * x' + y * y' + z * z' - r * r' * (X * X' + Y * Y' + B * B')) := by ring
    rw [e]
    refine (abs_add_le _ _).trans ?_
    have h1 : 4 * unit53 * (|(x : ℝ) * x'| + |(y : ℝ) * y'| + |(z : ℝ) * z'|) ≤ 4 * unit53 * (R * (1 + 1 / 1000)) := mul_le_mul_of_nonneg_left sum2 (by linarith)
    have h2 : 0 ≤ R * unit53 := by positivity
    generalize (2 : ℝ) ^ (-1073 : ℤ) = t at *
    linarith
  -- the product of the distances
  obtain ⟨m, hm, dm, em, -⟩ := mul_err (x := r) (y := r') (m2.trans (zpow_le_zpow_right₀ (by norm_num) (by norm_num)))
  have em' : |(m : ℝ) - r * r'| ≤ R * (11 / 10 * unit53) := by
    have h1 := (Rat.cast_le (K := ℝ)).2 em
    rw [Rat.cast_add, Rat.cast_mul, unit53_eq, ← hRq] at h1
    push_cast at h1
    have h2 : ((speck : ℚ) : ℝ) ≤ 2 ^ (-1073 : ℤ) := by
      rw [speck, Rat.cast_zpow, Rat.cast_ofNat]
      exact zpow_le_zpow_right₀ (by norm_num) (by norm_num)
    have h3 : 0 ≤ R * unit53 := by positivity
    generalize (2 : ℝ) ^ (-1073 : ℤ) = t at *
    generalize ((speck : ℚ) : ℝ) = t' at *
    linarith
  have m0 : R * (99 / 100) ≤ |(m : ℝ)| := by
    have e : (r : ℝ) * r' = m - (m - r * r') := by ring
    have h1 : |(r : ℝ) * r'| ≤ |(m : ℝ)| + |(m : ℝ) - r * r'| := by
      calc |(r : ℝ) * r'| = |(m : ℝ) - (m - r * r')| := by rw [← e]
        _ ≤ _ := abs_sub _ _
    rw [abs_mul, ← hR] at h1
    have h2 : R * (11 / 10 * unit53) ≤ R * (1 / 100) := mul_le_mul_of_nonneg_left (by linarith) R0.le
    linarith
  have mne : m ≠ 0 := by
    intro h
    rw [h] at m0
    simp at m0
    have : 0 < R * (99 / 100) := by positivity
    linarith
  have mpos : 0 < |(m : ℝ)| := lt_of_lt_of_le (by positivity) m0
  have hq : |((d / m : ℚ) : ℝ) - (X * X' + Y * Y' + B * B')| ≤ 239 / 10 * unit53 := by
    have mr : (m : ℝ) ≠ 0 := by exact_mod_cast mne
    have e : ((d / m : ℚ) : ℝ) - (X * X' + Y * Y' + B * B') = (d - (X * X' + Y * Y' + B * B') * m) / m := by
      push_cast
      field_simp
    rw [e, abs_div, div_le_iff₀ mpos]
    have e2 : (d : ℝ) - (X * X' + Y * Y' + B * B') * m = (d - r * r' * (X * X' + Y * Y' + B * B')) - (X * X' + Y * Y' + B * B') * (m - r * r') := by ring
    rw [e2]
    refine (abs_sub _ _).trans ?_
    rw [abs_mul]
    have h1 := mul_le_mul c1 em' (abs_nonneg _) zero_le_one
    have h2 : 239 / 10 * unit53 * (R * (99 / 100)) ≤ 239 / 10 * unit53 * |(m : ℝ)| := mul_le_mul_of_nonneg_left m0 (by linarith)
    have h3 : 0 ≤ R * unit53 := by positivity
    linarith
  unfold DSph.cosSeparation
  dsimp only
  rw [hd, hm, div_num mne]
  refine near_mono (near_round hq c1 (by norm_num) (by norm_num) (by norm_num)) ?_
  exact mul_le_mul_of_nonneg_right (by norm_num) u0.le

/-- Arc cosines of close cosines. -/
theorem arccos_close {a b : ℝ} (ha : |a| ≤ 1) (hb : |b| ≤ 1) (h : |a - b| ≤ 25 * unit53) : |Real.arccos a - Real.arccos b| ≤ 99 / 100 * 2 ^ (-23 : ℤ) := by
  have key : 2 * (Real.arcsin a - Real.arcsin b) ^ 2 ≤ Real.pi ^ 2 * |a - b| := by
    rcases le_total b a with h0 | h0
    · rw [abs_of_nonneg (by linarith : 0 ≤ a - b)]
      exact arcsin_spread (abs_le.1 ha).2 (abs_le.1 hb).1 h0
    · rw [abs_of_nonpos (by linarith : a - b ≤ 0)]
      have := arcsin_spread (abs_le.1 hb).2 (abs_le.1 ha).1 h0
      linarith [sq_nonneg (Real.arcsin a - Real.arcsin b)]
  have e : Real.arccos a - Real.arccos b = -(Real.arcsin a - Real.arcsin b) := by
    unfold Real.arccos
    ring
  rw [e, abs_neg]
  have pi2 := Real.pi_lt_d4
  norm_num at pi2
  have hpi : Real.pi ^ 2 ≤ 988 / 100 := by nlinarith [Real.pi_pos]
  have h2 : Real.pi ^ 2 * |a - b| ≤ 988 / 100 * (25 * unit53) := mul_le_mul hpi h (abs_nonneg _) (by norm_num)
  apply abs_le_of_sq_le_sq _ (by positivity)
  have h3 : 988 / 100 * (25 * unit53) ≤ 2 * (99 / 100 * 2 ^ (-23 : ℤ)) ^ 2 := by norm_num [unit53]
  linarith

theorem acosOf_in (I : InverseTrig) {c : ℚ} (h : -1 ≤ c ∧ c ≤ 1) : I.acosOf (.num c) = I.acos (.num c) := if_pos h

theorem acosOf_out (I : InverseTrig) {c : ℚ} (h : ¬ (-1 ≤ c ∧ c ≤ 1)) : I.acosOf (.num c) = .nan := if_neg h

end Astro
