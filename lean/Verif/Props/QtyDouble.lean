import Verif.Lemmas.QtyDouble
import Verif.Props.RepDouble

/-
C126: angles in degrees and other units, in double arithmetic.
-/

set_option exponentiation.threshold 3000

namespace Astro

open Spec Time

attribute [local irreducible] FloatFmt.nearest FloatFmt.value Dbl.round

/-- **C126.** An angle given in any unit is stored as accurately as the unit's conversion factor allows. -/
theorem C126_stored {k x : ℚ} {r ε : ℝ} (hk : |(k : ℝ) - r| ≤ |r| * ε) (hε : ε ≤ 1) (hb : |x * k| ≤ 2 ^ (1023 : ℤ)) :
    Near (storeAngle (.num k) (.num x)) (x * r) (|x * r| * (ε + 2 ^ (-52 : ℤ)) + 2 ^ (-1075 : ℤ)) := by
  obtain ⟨p, h1, h2, h3, -⟩ := mul_err hb
  refine ⟨p, h1, h2, ?_⟩
  have h4 : |(p : ℝ) - x * k| ≤ |(x : ℝ) * k| * unit53 + 2 ^ (-1075 : ℤ) := by
    have := (Rat.cast_le (K := ℝ)).2 h3
    rw [← unit53_eq]
    unfold speck at this
    push_cast at this
    exact this
  have h5 : |(x : ℝ) * k - x * r| ≤ |x * r| * ε := by
    rw [← mul_sub, abs_mul, abs_mul, mul_assoc]
    exact mul_le_mul_of_nonneg_left hk (abs_nonneg _)
  have h6 : |(x : ℝ) * k| ≤ 2 * |x * r| := by
    have h7 : |x * r| * ε ≤ |x * r| * 1 := mul_le_mul_of_nonneg_left hε (abs_nonneg _)
    have h8 := abs_sub_abs_le_abs_sub ((x : ℝ) * k) (x * r)
    linarith
  have h9 : |(x : ℝ) * k| * unit53 ≤ 2 * |x * r| * unit53 := mul_le_mul_of_nonneg_right h6 unit53_pos.le
  have e52 : (2 : ℝ) ^ (-52 : ℤ) = 2 * unit53 := by norm_num [unit53]
  have h10 : (p : ℝ) - x * r = (p - x * k) + (x * k - x * r) := by ring
  rw [e52, h10]
  refine (abs_add_le _ _).trans ((add_le_add h4 h5).trans ?_)
  generalize (2 : ℝ) ^ (-1075 : ℤ) = t
  linarith

/-- **C126.** Reading an angle back in the unit in which it was given returns it up to two units in the last place, however accurate the factor is. -/
theorem C126_back {k x : ℚ} (hk : 2 ^ (-400 : ℤ) ≤ |k|) (hk' : |k| ≤ 2 ^ (400 : ℤ)) (hx : x = 0 ∨ (2 ^ (-500 : ℤ) ≤ |x| ∧ |x| ≤ 2 ^ (500 : ℤ))) :
    Near (readAngle (.num k) (storeAngle (.num k) (.num x))) x (|(x : ℝ)| * 2 ^ (-51 : ℤ)) := by
  have rk : (2 : ℝ) ^ (-400 : ℤ) ≤ |(k : ℝ)| := cast_zpow_le hk
  have rk' : |(k : ℝ)| ≤ (2 : ℝ) ^ (400 : ℤ) := cast_le_zpow hk'
  have k0 : (k : ℝ) ≠ 0 := abs_pos.1 (lt_of_lt_of_le (two_zpow_real _) rk)
  have k0q : k ≠ 0 := by exact_mod_cast k0
  have u0 := unit53_pos
  have u1 := unit53_small
  have rx : (x : ℝ) = 0 ∨ ((2 : ℝ) ^ (-500 : ℤ) ≤ |(x : ℝ)| ∧ |(x : ℝ)| ≤ (2 : ℝ) ^ (500 : ℤ)) := by
    rcases hx with rfl | ⟨h1, h2⟩
    · left; simp
    · exact Or.inr ⟨cast_zpow_le h1, cast_le_zpow h2⟩
  have prod : (x : ℝ) * k = 0 ∨ 2 ^ (-1000 : ℤ) ≤ |(x : ℝ) * k| := by
    rcases rx with h | ⟨h, -⟩
    · left; rw [h, zero_mul]
    · right
      rw [abs_mul]
      refine le_trans ?_ (mul_le_mul h rk (two_zpow_real _).le (abs_nonneg _))
      rw [← zpow_add₀ (by norm_num)]
      exact zpow_le_zpow_right₀ (by norm_num) (by norm_num)
  have x500 : |(x : ℝ)| ≤ 2 ^ (500 : ℤ) := by
    rcases rx with h | ⟨-, h⟩
    · rw [h, abs_zero]; exact (two_zpow_real _).le
    · exact h
  have prod' : |(x : ℝ) * k| ≤ 2 ^ (1000 : ℤ) := by
    rw [abs_mul]
    refine (mul_le_mul x500 rk' (abs_nonneg _) (two_zpow_real _).le).trans ?_
    rw [← zpow_add₀ (by norm_num)]
    exact zpow_le_zpow_right₀ (by norm_num) (by norm_num)
  obtain ⟨p, hp, dp, ep⟩ := rel_mul (rel_self x) (rel_self k) le_rfl le_rfl (by norm_num) (by norm_num) prod prod'
  have inv_lo : (2 : ℚ) ^ (-1021 : ℤ) ≤ |1 / k| := by
    rw [abs_div, abs_one, le_div_iff₀ (abs_pos.2 k0q)]
    refine (mul_le_mul_of_nonneg_left hk' (two_zpow_pos _).le).trans ?_
    rw [← zpow_add₀ (by norm_num)]
    exact zpow_le_one_of_nonpos₀ (by norm_num) (by norm_num)
  have inv_hi : |1 / k| ≤ (2 : ℚ) ^ (1023 : ℤ) := by
    rw [abs_div, abs_one, div_le_iff₀ (abs_pos.2 k0q)]
    refine le_trans ?_ (mul_le_mul_of_nonneg_left hk (two_zpow_pos _).le)
    rw [← zpow_add₀ (by norm_num)]
    exact one_le_zpow₀ (by norm_num) (by norm_num)
  obtain ⟨m, hm, dm, em⟩ := round_rel (Or.inr inv_lo) inv_hi
  have em' : Rel m (1 / k) unit53 := by
    unfold Rel
    push_cast at em
    exact em
  have e1 : (x : ℝ) * k * (1 / k) = x := by field_simp
  have xlo : (x : ℝ) = 0 ∨ 2 ^ (-1000 : ℤ) ≤ |(x : ℝ)| := by
    rcases rx with h | ⟨h, -⟩
    · exact Or.inl h
    · exact Or.inr (le_trans (zpow_le_zpow_right₀ (by norm_num) (by norm_num)) h)
  have ep' : Rel p (x * k) unit53 := rel_mono ep (by linarith)
  obtain ⟨q, hq, dq, eq⟩ := rel_mul ep' em' u0.le u0.le (by linarith) (by linarith) (by rw [e1]; exact xlo)
    (by rw [e1]; exact x500.trans (zpow_le_zpow_right₀ (by norm_num) (by norm_num)))
  rw [e1] at eq
  refine ⟨q, ?_, dq, ?_⟩
  · unfold readAngle storeAngle
    rw [hp, div_num k0q, hm, hq]
  · refine eq.trans (mul_le_mul_of_nonneg_left ?_ (abs_nonneg _))
    rw [show (2 : ℝ) ^ (-51 : ℤ) = 4 * unit53 by norm_num [unit53]]
    exact cube_small u0 u1

/-- **C126.** Larger angles are not stored as smaller ones. -/
theorem C126_order {k x y p q : ℚ} (hk : 0 ≤ k) (hxy : x ≤ y) (hp : storeAngle (.num k) (.num x) = .num p) (hq : storeAngle (.num k) (.num y) = .num q) : p ≤ q := by
  have e : x * k ≤ y * k := mul_le_mul_of_nonneg_right hxy hk
  have key : ∀ {t p : ℚ}, Dbl.round t = .num p → p = ieee.rnd t := by
    intro t p h
    by_cases hl : |t| < limit .double
    · rw [round_eq hl] at h
      exact (Dbl.num.inj h).symm
    · rw [round_inf (not_lt.1 hl)] at h
      cases h
  rw [storeAngle, mul_num] at hp hq
  rw [key hp, key hq]
  exact Time.near_mono ieee e

/-- **C126.** Angles in radians are stored and read back as they are. -/
theorem C126_radian {x : ℚ} (hx : IsDouble x) : storeAngle (.num 1) (.num x) = .num x ∧ readAngle (.num 1) (.num x) = .num x := by
  have h1 : storeAngle (.num 1) (.num x) = .num x := by
    unfold storeAngle
    rw [mul_num, mul_one, round_exact hx]
  refine ⟨h1, ?_⟩
  have e : (Dbl.num 1).div (.num 1) = .num 1 := by
    rw [div_num one_ne_zero, div_one, round_exact isDouble_one]
  unfold readAngle
  rw [e]
  exact h1

/-- **C126.** Every angle in degrees is stored too large, by a fraction between 2^-44 and 2^-43: boost::units has only twelve digits of π. -/
theorem C126_degrees {x : ℚ} (hlo : 2 ^ (-1000 : ℤ) ≤ |x|) (hhi : |x| ≤ 2 ^ (1000 : ℤ)) : ∃ q, storeAngle degreeFactor (.num x) = .num q ∧ IsDouble q ∧
    |(x : ℝ)| * Real.pi / 180 * (1 + 2 ^ (-44 : ℤ)) ≤ |(q : ℝ)| ∧ |(q : ℝ)| ≤ |(x : ℝ)| * Real.pi / 180 * (1 + 2 ^ (-43 : ℤ)) := by
  obtain ⟨c1, c2⟩ := degree_close
  rw [degree_num]
  have k1 : (1 : ℚ) / 64 ≤ 5030569068109444 * 2 ^ (-58 : ℤ) := by norm_num
  have k2 : (5030569068109444 * 2 ^ (-58 : ℤ) : ℚ) ≤ 1 := by norm_num
  generalize (5030569068109444 * 2 ^ (-58 : ℤ) : ℚ) = k at *
  have b1 : (2 : ℚ) ^ (-1021 : ℤ) ≤ |x * k| := by
    rw [abs_mul, abs_of_pos (show 0 < k by linarith)]
    refine le_trans ?_ (mul_le_mul hlo k1 (by norm_num) (abs_nonneg _))
    rw [show (1 : ℚ) / 64 = 2 ^ (-6 : ℤ) by norm_num, ← zpow_add₀ (by norm_num)]
    exact zpow_le_zpow_right₀ (by norm_num) (by norm_num)
  have b2 : |x * k| ≤ (2 : ℚ) ^ (1023 : ℤ) := by
    rw [abs_mul, abs_of_pos (show 0 < k by linarith)]
    refine (mul_le_mul hhi k2 (by linarith) (two_zpow_pos _).le).trans ?_
    rw [mul_one]
    exact zpow_le_zpow_right₀ (by norm_num) (by norm_num)
  obtain ⟨q, hq, dq, eq⟩ := round_rel (Or.inr b1) b2
  refine ⟨q, hq, dq, ?_⟩
  have kp : (0 : ℝ) < k := by exact_mod_cast (show (0 : ℚ) < k by linarith)
  push_cast at eq
  rw [abs_mul, abs_of_pos kp] at eq
  have a1 := abs_sub_abs_le_abs_sub ((x : ℝ) * k) q
  have a2 := abs_sub_abs_le_abs_sub (q : ℝ) ((x : ℝ) * k)
  rw [abs_sub_comm] at a1
  rw [abs_mul, abs_of_pos kp] at a1 a2
  have x0 := abs_nonneg (x : ℝ)
  have u : unit53 ≤ 1 / 10 ^ 15 := by norm_num [unit53]
  have e1 : |(x : ℝ)| * k * unit53 ≤ |(x : ℝ)| * k * (1 / 10 ^ 15) := mul_le_mul_of_nonneg_left u (by positivity)
  have d1 := mul_le_mul_of_nonneg_left c1 x0
  have d2 := mul_le_mul_of_nonneg_left c2 x0
  have p0 : 0 ≤ |(x : ℝ)| * (Real.pi / 180) := by positivity
  have e44 : (2 : ℝ) ^ (-44 : ℤ) ≤ 6 / 10 ^ 14 := by norm_num
  have e43 : (10 : ℝ) / 10 ^ 14 ≤ 2 ^ (-43 : ℤ) := by norm_num
  have f1 := mul_le_mul_of_nonneg_left e44 p0
  have f2 := mul_le_mul_of_nonneg_left e43 p0
  have g : |(x : ℝ)| * Real.pi / 180 = |(x : ℝ)| * (Real.pi / 180) := by ring
  rw [g]
  generalize (2 : ℝ) ^ (-44 : ℤ) = s at *
  generalize (2 : ℝ) ^ (-43 : ℤ) = t at *
  generalize hP : |(x : ℝ)| * (Real.pi / 180) = P at *
  have d1' : P * (65 / 10 ^ 15) ≤ |(x : ℝ)| * k - P := by rw [← hP]; linarith
  have d2' : |(x : ℝ)| * k - P ≤ P * (66 / 10 ^ 15) := by rw [← hP]; linarith
  generalize |(x : ℝ)| * (k : ℝ) = K at *
  norm_num at *
  constructor <;> linarith

/-- **C126.** A point given by angles of up to a full turn in degrees gets coordinates within 2^-39 of its distance. -/
theorem C126_place {T : Trig} (hT : Accurate T) {s : Coord.System} (hs : s ≠ .cartesian) {a b r : ℚ} (ha : |a| ≤ 360) (hb : |b| ≤ 360)
    (hlo : 2 ^ (-900 : ℤ) ≤ |r|) (hhi : |r| ≤ 2 ^ (900 : ℤ)) :
    Close ((DSph.ofAngles degreeFactor degreeFactor (.num a) (.num b) (.num r)).makeCartesian T s)
      (position s (a * (Real.pi / 180)) (b * (Real.pi / 180)) r) (|(r : ℝ)| * 2 ^ (-39 : ℤ)) := by
  have stored : ∀ x : ℚ, |x| ≤ 360 → ∃ q, storeAngle degreeFactor (.num x) = .num q ∧ IsDouble q ∧ |(q : ℝ) - x * (Real.pi / 180)| ≤ 8 / 10 ^ 13 := by
    intro x hx
    have hk : |((5030569068109444 * 2 ^ (-58 : ℤ) : ℚ) : ℝ) - Real.pi / 180| ≤ |Real.pi / 180| * (66 / 10 ^ 15) := by
      obtain ⟨c1, c2⟩ := degree_close
      have := Real.pi_pos
      rw [abs_of_nonneg (le_trans (by positivity) c1), abs_of_pos (by positivity)]
      exact c2
    have hm : |x * (5030569068109444 * 2 ^ (-58 : ℤ))| ≤ (2 : ℚ) ^ (1023 : ℤ) := by
      rw [abs_mul]
      refine (mul_le_mul hx (show _ ≤ (1 : ℚ) by rw [abs_of_pos (by positivity)]; norm_num) (abs_nonneg _) (by norm_num)).trans ?_
      refine le_trans ?_ (zpow_le_zpow_right₀ (by norm_num) (show (10 : ℤ) ≤ 1023 by norm_num))
      norm_num
    obtain ⟨q, h1, h2, h3⟩ := C126_stored hk (by norm_num) hm
    rw [degree_num]
    refine ⟨q, h1, h2, h3.trans ?_⟩
    have hx' : |(x : ℝ)| ≤ 360 := by
      have := (Rat.cast_le (K := ℝ)).2 hx
      push_cast at this
      exact this
    have p : |x * (Real.pi / 180)| ≤ 63 / 10 := by
      have h4 := Real.pi_lt_d2
      have h5 := Real.pi_pos
      rw [abs_mul, abs_of_pos (show 0 < Real.pi / 180 by positivity)]
      refine (mul_le_mul hx' (show Real.pi / 180 ≤ 3.15 / 180 by linarith) (by positivity) (by norm_num)).trans (by norm_num)
    have t : (2 : ℝ) ^ (-1075 : ℤ) ≤ 1 / 10 ^ 14 := le_trans (zpow_le_zpow_right₀ (by norm_num) (show (-1075 : ℤ) ≤ -50 by norm_num)) (by norm_num)
    refine (add_le_add (mul_le_mul_of_nonneg_right p (by norm_num)) t).trans (by norm_num)
  obtain ⟨p, hp, dp, ep⟩ := stored a ha
  obtain ⟨q, hq, dq, eq⟩ := stored b hb
  have key := position_close hs (r := r) ep eq
  have final : |(r : ℝ)| * (8 / 10 ^ 13 + 8 / 10 ^ 13) + |(r : ℝ)| * 2 ^ (-50 : ℤ) ≤ |(r : ℝ)| * 2 ^ (-39 : ℤ) := by
    rw [← mul_add]
    exact mul_le_mul_of_nonneg_left (by norm_num) (abs_nonneg _)
  have step : ∀ {d : Dbl} {x y : ℝ}, Near d x (|(r : ℝ)| * 2 ^ (-50 : ℤ)) → |x - y| ≤ |(r : ℝ)| * (8 / 10 ^ 13 + 8 / 10 ^ 13) → Near d y (|(r : ℝ)| * 2 ^ (-39 : ℤ)) := by
    rintro d x y ⟨w, h1, h2, h3⟩ h4
    refine ⟨w, h1, h2, ?_⟩
    have e : (w : ℝ) - y = (w - x) + (x - y) := by ring
    rw [e]
    refine (abs_add_le _ _).trans (le_trans ?_ final)
    rw [add_comm]
    exact add_le_add h4 h3
  unfold DSph.ofAngles
  rw [hp, hq]
  cases s with
  | cartesian => exact absurd rfl hs
  | spherical =>
    obtain ⟨h0, h1, h2⟩ := C117_spherical hT p q r dp dq hlo hhi
    exact ⟨step h0 (key 0), step h1 (key 1), step h2 (key 2)⟩
  | equatorial =>
    obtain ⟨h0, h1, h2⟩ := C117_equatorial hT p q r dp dq hlo hhi
    exact ⟨step h0 (key 0), step h1 (key 1), step h2 (key 2)⟩

/-- **C126.** This is not an accident of the proof: the point opposite to the origin of longitudes, at 180°, is off by more than 2·10^-13, a thousand times the
error that the double closest to π causes. -/
theorem C126_half_turn {T : Trig} (hT : Accurate T) :
    (∃ y : ℚ, ((DSph.ofAngles degreeFactor degreeFactor (.num 180) (.num 0) (.num 1)).makeCartesian T .equatorial).y = .num y ∧ (y : ℝ) ≤ -(2 / 10 ^ 13)) ∧
      ∀ p : ℚ, ClosestDouble (.num p) Real.pi →
        ∃ y : ℚ, ((DSph.ofAngles (.num 1) (.num 1) (.num p) (.num 0) (.num 1)).makeCartesian T .equatorial).y = .num y ∧ |(y : ℝ)| ≤ 2 ^ (-49 : ℤ) := by
  have one : (2 : ℚ) ^ (-900 : ℤ) ≤ |1| ∧ |1| ≤ (2 : ℚ) ^ (900 : ℤ) := by
    rw [abs_one]
    exact ⟨zpow_le_one_of_nonpos₀ (by norm_num) (by norm_num), one_le_zpow₀ (by norm_num) (by norm_num)⟩
  constructor
  · have e1 : storeAngle degreeFactor (.num 180) = .num (7074237752028906 * 2 ^ (-51 : ℤ)) := by decide +kernel
    have e2 : storeAngle degreeFactor (.num 0) = .num 0 := by decide +kernel
    unfold DSph.ofAngles
    rw [e1, e2]
    obtain ⟨-, ⟨y, h1, -, h2⟩, -⟩ := C117_equatorial hT (7074237752028906 * 2 ^ (-51 : ℤ)) 0 1
      ⟨7074237752028906, -51, by norm_num, by norm_num, by norm_num, by norm_num⟩ isDouble_zero one.1 one.2
    refine ⟨y, h1, ?_⟩
    have e : ((7074237752028906 * 2 ^ (-51 : ℤ) : ℚ) : ℝ) = 7074237752028906 / 2 ^ 51 := by norm_num
    rw [e] at h2
    have g : (![((1 : ℚ) : ℝ) * Real.cos ((0 : ℚ) : ℝ) * Real.cos (7074237752028906 / 2 ^ 51), ((1 : ℚ) : ℝ) * Real.cos ((0 : ℚ) : ℝ) * Real.sin (7074237752028906 / 2 ^ 51),
        ((1 : ℚ) : ℝ) * Real.sin ((0 : ℚ) : ℝ)] : Coord.Vec) 1 = Real.sin (7074237752028906 / 2 ^ 51) := by simp
    rw [g] at h2
    have p1 := Real.pi_gt_d20
    have p2 := Real.pi_lt_d20
    obtain ⟨t, ht⟩ : ∃ t : ℝ, t = 7074237752028906 / 2 ^ 51 - Real.pi := ⟨_, rfl⟩
    have s : Real.sin (7074237752028906 / 2 ^ 51) = -Real.sin t := by
      rw [ht, Real.sin_sub_pi, neg_neg]
    have t1 : 206 / 10 ^ 15 ≤ t := by rw [ht]; norm_num at *; linarith
    have t2 : t ≤ 208 / 10 ^ 15 := by rw [ht]; norm_num at *; linarith
    have t3 := Real.sin_gt_sub_cube (x := t) (by linarith [show (0 : ℝ) < 206 / 10 ^ 15 by norm_num])
    have t4 : t ^ 3 ≤ (208 / 10 ^ 15) ^ 3 := pow_le_pow_left₀ (by linarith [show (0 : ℝ) < 206 / 10 ^ 15 by norm_num]) t2 3
    rw [s] at h2
    have h3 := (abs_le.1 h2).2
    simp only [Rat.cast_one, abs_one, one_mul] at h3
    norm_num at *
    linarith
  · intro p hp
    obtain ⟨w, hw, dw, hc⟩ := hp
    have ew : p = w := Dbl.num.inj hw
    subst ew
    obtain ⟨y, h1, -, h2⟩ := (C117_equatorial hT p 0 1 dw isDouble_zero one.1 one.2).2.1
    obtain ⟨z, z', -, dz, ez⟩ := near_grid_four Real.pi (by rw [abs_of_pos Real.pi_pos]; exact Real.pi_le_four)
    unfold DSph.ofAngles
    rw [(C126_radian dw).1, (C126_radian isDouble_zero).1]
    refine ⟨y, h1, ?_⟩
    have g : (![((1 : ℚ) : ℝ) * Real.cos ((0 : ℚ) : ℝ) * Real.cos p, ((1 : ℚ) : ℝ) * Real.cos ((0 : ℚ) : ℝ) * Real.sin p,
        ((1 : ℚ) : ℝ) * Real.sin ((0 : ℚ) : ℝ)] : Coord.Vec) 1 = Real.sin p := by simp
    rw [g] at h2
    have h3 := sin_close p Real.pi
    rw [Real.sin_pi, sub_zero] at h3
    have h4 := (hc z' dz).trans ez
    simp only [Rat.cast_one, abs_one, one_mul] at h2
    have e : (y : ℝ) = (y - Real.sin p) + Real.sin p := by ring
    rw [e]
    refine (abs_add_le _ _).trans ((add_le_add h2 (h3.trans h4)).trans (by norm_num))

/-- **C126.** 9° comes back as less than 9°: not every angle survives storing and reading. -/
theorem C126_not_exact : ∃ x q : ℚ, x = 9 ∧ readAngle degreeFactor (storeAngle degreeFactor (.num x)) = .num q ∧ q < x := by
  refine ⟨9, 5066549580791807 * 2 ^ (-49 : ℤ), rfl, ?_, ?_⟩
  · decide +kernel
  · norm_num

/-- 180° and 1° stored, 1° read back. -/
example : storeAngle degreeFactor (.num 180) = .num (7074237752028906 * 2 ^ (-51 : ℤ)) ∧ storeAngle degreeFactor (.num 1) = degreeFactor ∧
    readAngle degreeFactor (storeAngle degreeFactor (.num 1)) = .num 1 := by
  refine ⟨?_, ?_, ?_⟩ <;> decide +kernel

end Astro
