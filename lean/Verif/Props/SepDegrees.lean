import Verif.Lemmas.SepDegrees

/-! Angular separation and position angle of places given in degrees, in double arithmetic. -/

namespace Astro

open Spec Time

attribute [local irreducible] FloatFmt.nearest FloatFmt.value Dbl.round

set_option exponentiation.threshold 3000

/-- The exact separation of the stored angles, for every way of giving them. -/
theorem stored_separation' {s : Coord.System} (hs : s ≠ .cartesian) {a b a' b' x y x' y' δ : ℝ} (ha : |x - a| ≤ δ) (hb : |y - b| ≤ δ)
    (ha' : |x' - a'| ≤ δ) (hb' : |y' - b'| ≤ δ) :
    |Real.arccos (cosBetween s x y x' y') - Real.arccos (cosBetween s a b a' b')| ≤ 8 * δ := by
  cases s with
  | cartesian => exact absurd rfl hs
  | equatorial => exact stored_separation ha hb ha' hb'
  | spherical =>
    have e : ∀ p q p' q' : ℝ, Real.arccos (cosBetween .spherical p q p' q') = Real.arccos (cosBetween .equatorial p (Real.pi / 2 - q) p' (Real.pi / 2 - q')) :=
      fun p q p' q' => by rw [(C119_meaning _ _ _ _).1, (C119_meaning _ _ _ _).2]
    rw [e, e]
    refine stored_separation ha ?_ ha' ?_
    · rw [show Real.pi / 2 - y - (Real.pi / 2 - b) = -(y - b) by ring, abs_neg]; exact hb
    · rw [show Real.pi / 2 - y' - (Real.pi / 2 - b') = -(y' - b') by ring, abs_neg]; exact hb'

/-- **C138.** Separation of two places whose angles are given in degrees: within 2^-22 of the true angle, or no number, and then the places are within
2^-22 of each other or of opposite ones. -/
theorem C138_separation {T : Trig} {I : InverseTrig} (hT : Accurate T) (hI : AccurateInverse I) (s : Coord.System) (hs : s ≠ .cartesian) (a b r a' b' r' : ℚ)
    (ha : |a| ≤ 360) (hb : |b| ≤ 360) (ha' : |a'| ≤ 360) (hb' : |b'| ≤ 360) (h1 : 2 ^ (-400 : ℤ) ≤ |r|) (h2 : |r| ≤ 2 ^ (400 : ℤ))
    (h1' : 2 ^ (-400 : ℤ) ≤ |r'|) (h2' : |r'| ≤ 2 ^ (400 : ℤ)) (d : Dbl)
    (hd : d = DSph.separation T I s (.ofAngles degreeFactor degreeFactor (.num a) (.num b) (.num r))
      (.ofAngles degreeFactor degreeFactor (.num a') (.num b') (.num r')))
    (t : ℝ) (ht : t = Real.arccos (cosBetween s (a * (Real.pi / 180)) (b * (Real.pi / 180)) (a' * (Real.pi / 180)) (b' * (Real.pi / 180)))) :
    Near d t (2 ^ (-22 : ℤ)) ∨ (d = .nan ∧ (t ≤ 2 ^ (-22 : ℤ) ∨ Real.pi - 2 ^ (-22 : ℤ) ≤ t)) := by
  obtain ⟨x, hx, dx, ex, -⟩ := stored_degrees a ha
  obtain ⟨y, hy, dy, ey, -⟩ := stored_degrees b hb
  obtain ⟨x', hx', dx', ex', -⟩ := stored_degrees a' ha'
  obtain ⟨y', hy', dy', ey', -⟩ := stored_degrees b' hb'
  have m := stored_separation' hs ex ey ex' ey'
  rw [← ht] at m
  unfold DSph.ofAngles at hd
  rw [hx, hy, hx', hy'] at hd
  have h := C119_error hT hI s hs x y r x' y' r' dx dy dx' dy' h1 h2 h1' h2' d hd _ rfl
  generalize Real.arccos (cosBetween s x y x' y') = u at *
  have hm := abs_le.1 m
  have e1 : (2 : ℝ) ^ (-22 : ℤ) = 2 * 2 ^ (-23 : ℤ) := by norm_num
  have e2 : 8 * (8 / 10 ^ 13 : ℝ) ≤ 2 ^ (-23 : ℤ) := by norm_num
  rw [e1]
  clear e1
  generalize (2 : ℝ) ^ (-23 : ℤ) = ε at *
  generalize 8 * (8 / 10 ^ 13 : ℝ) = μ at *
  rcases h with ⟨q, hq, dq, eq⟩ | ⟨hn, h⟩
  · left
    refine ⟨q, hq, dq, ?_⟩
    have := abs_add_le ((q : ℝ) - u) (u - t)
    rw [sub_add_sub_cancel] at this
    linarith
  · right
    refine ⟨hn, h.imp (fun h => ?_) fun h => ?_⟩ <;> linarith

/-- **C138.** When the angle is between about 39 and 141 degrees, the result is a number within 2^-37 of it. -/
theorem C138_moderate {T : Trig} {I : InverseTrig} (hT : Accurate T) (hI : AccurateInverse I) (s : Coord.System) (hs : s ≠ .cartesian) (a b r a' b' r' : ℚ)
    (ha : |a| ≤ 360) (hb : |b| ≤ 360) (ha' : |a'| ≤ 360) (hb' : |b'| ≤ 360) (h1 : 2 ^ (-400 : ℤ) ≤ |r|) (h2 : |r| ≤ 2 ^ (400 : ℤ))
    (h1' : 2 ^ (-400 : ℤ) ≤ |r'|) (h2' : |r'| ≤ 2 ^ (400 : ℤ))
    (t : ℝ) (ht : t = Real.arccos (cosBetween s (a * (Real.pi / 180)) (b * (Real.pi / 180)) (a' * (Real.pi / 180)) (b' * (Real.pi / 180))))
    (hm : |t - Real.pi / 2| ≤ 9 / 10) :
    Near (DSph.separation T I s (.ofAngles degreeFactor degreeFactor (.num a) (.num b) (.num r))
      (.ofAngles degreeFactor degreeFactor (.num a') (.num b') (.num r'))) t (2 ^ (-37 : ℤ)) := by
  obtain ⟨x, hx, dx, ex, -⟩ := stored_degrees a ha
  obtain ⟨y, hy, dy, ey, -⟩ := stored_degrees b hb
  obtain ⟨x', hx', dx', ex', -⟩ := stored_degrees a' ha'
  obtain ⟨y', hy', dy', ey', -⟩ := stored_degrees b' hb'
  have m := stored_separation' hs ex ey ex' ey'
  rw [← ht] at m
  unfold DSph.ofAngles
  rw [hx, hy, hx', hy']
  have far : |Real.arccos (cosBetween s x y x' y') - Real.pi / 2| ≤ 1 := by
    have := abs_add_le (Real.arccos (cosBetween s x y x' y') - t) (t - Real.pi / 2)
    rw [sub_add_sub_cancel] at this
    refine this.trans ((add_le_add m hm).trans (by norm_num))
  obtain ⟨q, hq, dq, eq⟩ := C119_moderate hT hI s hs x y r x' y' r' dx dy dx' dy' h1 h2 h1' h2' _ rfl far
  refine ⟨q, hq, dq, ?_⟩
  have := abs_add_le ((q : ℝ) - Real.arccos (cosBetween s x y x' y')) (Real.arccos (cosBetween s x y x' y') - t)
  rw [sub_add_sub_cancel] at this
  exact this.trans ((add_le_add eq m).trans (by norm_num))

/-- **C138.** Position angle of two places given in degrees: times the sine of their distance, accurate to 2^-35, up to full turns. -/
theorem C138_position {T : Trig} {I : InverseTrig} (hT : Accurate T) (hI : AccurateInverse I) (b l r b' l' r' : ℚ)
    (hb : |b| ≤ 360) (hl : |l| ≤ 360) (hb' : |b'| ≤ 360) (hl' : |l'| ≤ 360) (B L B' L' : ℝ) (eB : B = b * (Real.pi / 180)) (eL : L = l * (Real.pi / 180))
    (eB' : B' = b' * (Real.pi / 180)) (eL' : L' = l' * (Real.pi / 180)) :
    ∃ q : ℚ, DSph.positionalAngle T I (.ofAngles degreeFactor degreeFactor (.num b) (.num l) (.num r))
        (.ofAngles degreeFactor degreeFactor (.num b') (.num l') (.num r')) = .num q ∧
      ∃ k : ℤ, |(q : ℝ) - bearing B L (direction B' L') - 2 * Real.pi * k| * Real.sin (angularDistance B L B' L') ≤ 2 ^ (-35 : ℤ) := by
  obtain ⟨c, hc, dc, ec, -⟩ := stored_degrees b hb
  obtain ⟨m, hm, dm, em, m8⟩ := stored_degrees l hl
  obtain ⟨c', hc', dc', ec', -⟩ := stored_degrees b' hb'
  obtain ⟨m', hm', dm', em', m8'⟩ := stored_degrees l' hl'
  unfold DSph.ofAngles
  rw [hc, hm, hc', hm']
  rw [← eB] at ec
  rw [← eL] at em
  rw [← eB'] at ec'
  rw [← eL'] at em'
  obtain ⟨-, x, y, hX, hY, dx, dy, ex, ey⟩ := bearing_parts hT c m r c' m' r' dc dm dc' dm' m8 m8'
  obtain ⟨k, q, hq, -, eq⟩ := hI.atan2 y x dy dx
  refine ⟨q, by unfold DSph.positionalAngle; rw [hX, hY, hq], ?_⟩
  have ed : |((m' : ℝ) - m) - (L' - L)| ≤ 2 * (8 / 10 ^ 13) := by
    have := abs_sub ((m' : ℝ) - L') (m - L)
    rw [show ((m' : ℝ) - L') - (m - L) = ((m' : ℝ) - m) - (L' - L) by ring] at this
    linarith
  have fx := abs_add_le ((x : ℝ) - toNorth c c' (m' - m)) (toNorth c c' (m' - m) - toNorth B B' (L' - L))
  have fy := abs_add_le ((y : ℝ) - toEast c' (m' - m)) (toEast c' (m' - m) - toEast B' (L' - L))
  rw [sub_add_sub_cancel] at fx fy
  have gx := fx.trans (add_le_add ex (toNorth_moved ec ec' ed))
  have gy := fy.trans (add_le_add ey (toEast_moved ec' ed))
  have n1 : ‖(⟨toNorth B B' (L' - L), toEast B' (L' - L)⟩ : ℂ)‖ ≤ 1 := by
    rw [← distance_norm]
    exact Real.sin_le_one _
  rw [bearing_arg, distance_norm]
  generalize toNorth B B' (L' - L) = X at *
  generalize toEast B' (L' - L) = Y at *
  obtain ⟨j, hj⟩ := arg_near ⟨x, y⟩ ⟨X, Y⟩
  refine ⟨j + k, ?_⟩
  have n2 : ‖(⟨x, y⟩ : ℂ) - ⟨X, Y⟩‖ ≤ 73 / 10 ^ 13 := by
    refine (Complex.norm_le_abs_re_add_abs_im _).trans ((add_le_add gx gy).trans ?_)
    norm_num [unit53]
  have e : (q : ℝ) - Complex.arg ⟨X, Y⟩ - 2 * Real.pi * ((j + k : ℤ) : ℝ) =
      (q - (Coord.atan2 y x + 2 * Real.pi * k)) + (Complex.arg ⟨x, y⟩ - Complex.arg ⟨X, Y⟩ - 2 * Real.pi * j) := by
    rw [Coord.atan2]
    push_cast
    ring
  rw [e]
  have h1 := mul_le_mul_of_nonneg_right (abs_add_le (q - (Coord.atan2 y x + 2 * Real.pi * k)) (Complex.arg ⟨x, y⟩ - Complex.arg ⟨X, Y⟩ - 2 * Real.pi * j))
    (_root_.norm_nonneg (⟨X, Y⟩ : ℂ))
  refine h1.trans ?_
  rw [add_mul]
  have h2 := mul_le_mul eq n1 (_root_.norm_nonneg _) (by positivity)
  have h3 : Real.pi * ‖(⟨x, y⟩ : ℂ) - ⟨X, Y⟩‖ ≤ 3.15 * (73 / 10 ^ 13) :=
    mul_le_mul (by have := Real.pi_lt_d2; linarith) n2 (_root_.norm_nonneg _) (by norm_num)
  refine (add_le_add h2 (hj.trans h3)).trans ?_
  norm_num

/-- **C138.** The unit costs accuracy that the arithmetic had: a quarter of the equator, from 0° to 90°, comes out more than 8·10^-14 too large, where the same
call on radians is right to 2^-46 (`C119_moderate`). -/
theorem C138_visible {T : Trig} {I : InverseTrig} (hT : Accurate T) (hI : AccurateInverse I) :
    ∃ q : ℚ, DSph.separation T I .equatorial (.ofAngles degreeFactor degreeFactor (.num 0) (.num 0) (.num 1))
      (.ofAngles degreeFactor degreeFactor (.num 90) (.num 0) (.num 1)) = .num q ∧ Real.pi / 2 + 8 / 10 ^ 14 ≤ q := by
  have e1 : storeAngle degreeFactor (.num 90) = .num (7074237752028906 * 2 ^ (-52 : ℤ)) := by decide +kernel
  have e2 : storeAngle degreeFactor (.num 0) = .num 0 := by decide +kernel
  have p1 := Real.pi_gt_d20
  have p2 := Real.pi_lt_d20
  have one : (2 : ℚ) ^ (-400 : ℤ) ≤ |1| ∧ |1| ≤ (2 : ℚ) ^ (400 : ℤ) := by
    rw [abs_one]
    exact ⟨zpow_le_one_of_nonpos₀ (by norm_num) (by norm_num), one_le_zpow₀ (by norm_num) (by norm_num)⟩
  unfold DSph.ofAngles
  rw [e1, e2]
  have e : ((7074237752028906 * 2 ^ (-52 : ℤ) : ℚ) : ℝ) = 7074237752028906 / 2 ^ 52 := by norm_num
  have ht : (7074237752028906 / 2 ^ 52 : ℝ) = Real.arccos (cosBetween .equatorial ((0 : ℚ) : ℝ) ((0 : ℚ) : ℝ) ((7074237752028906 * 2 ^ (-52 : ℤ) : ℚ) : ℝ) ((0 : ℚ) : ℝ)) := by
    rw [e]
    unfold cosBetween
    simp only [Rat.cast_zero, Real.cos_zero, Real.sin_zero, mul_zero, add_zero, mul_one, one_mul, zero_sub, Real.cos_neg]
    rw [Real.arccos_cos (by norm_num)]
    norm_num at p1 p2 ⊢
    linarith
  obtain ⟨q, hq, -, eq⟩ := C119_moderate hT hI .equatorial (by decide) 0 0 1 (7074237752028906 * 2 ^ (-52 : ℤ)) 0 1 isDouble_zero isDouble_zero
    ⟨7074237752028906, -52, by norm_num, by norm_num, by norm_num, by norm_num⟩ isDouble_zero one.1 one.2 one.1 one.2 _ ht
    (by rw [abs_le]; norm_num at p1 p2 ⊢; constructor <;> linarith)
  refine ⟨q, hq, ?_⟩
  have := (abs_le.1 eq).1
  norm_num at p1 p2 this ⊢
  linarith

/-- The pole and a place on the equator, in degrees: a right angle, with the error the conversion leaves. -/
example {T : Trig} {I : InverseTrig} (hT : Accurate T) (hI : AccurateInverse I) :
    Near (DSph.separation T I .equatorial (.ofAngles degreeFactor degreeFactor (.num 40) (.num 90) (.num 1))
      (.ofAngles degreeFactor degreeFactor (.num (-75)) (.num 0) (.num 2))) (Real.pi / 2) (2 ^ (-37 : ℤ)) := by
  have e : Real.pi / 2 = Real.arccos (cosBetween .equatorial (((40 : ℚ) : ℝ) * (Real.pi / 180)) (((90 : ℚ) : ℝ) * (Real.pi / 180))
      (((-75 : ℚ) : ℝ) * (Real.pi / 180)) (((0 : ℚ) : ℝ) * (Real.pi / 180))) := by
    unfold cosBetween
    rw [show (((90 : ℚ) : ℝ) * (Real.pi / 180)) = Real.pi / 2 by push_cast; ring]
    simp
  have p1 : (2 : ℚ) ^ (-400 : ℤ) ≤ 1 := zpow_le_one_of_nonpos₀ (by norm_num) (by norm_num)
  have p2 : (2 : ℚ) ≤ 2 ^ (400 : ℤ) := le_trans (by norm_num) (zpow_le_zpow_right₀ (by norm_num) (show (1 : ℤ) ≤ 400 by norm_num))
  have a1 : |(1 : ℚ)| = 1 := by norm_num
  have a2 : |(2 : ℚ)| = 2 := by norm_num
  exact C138_moderate hT hI .equatorial (by decide) 40 90 1 (-75) 0 2 (by norm_num [abs_le]) (by norm_num [abs_le]) (by norm_num [abs_le]) (by norm_num [abs_le])
    (by rw [a1]; exact p1) (by rw [a1]; exact le_trans (by norm_num) p2) (by rw [a2]; exact p1.trans (by norm_num)) (by rw [a2]; exact p2) _ e
    (by rw [sub_self, abs_zero]; norm_num)

/-- From latitude 20° due north: the position angle of a place at latitude 50° on the same meridian of 300°, at a distance of 30°, is a multiple of a full turn
up to 2^-34. -/
example {T : Trig} {I : InverseTrig} (hT : Accurate T) (hI : AccurateInverse I) :
    ∃ (q : ℚ) (k : ℤ), DSph.positionalAngle T I (.ofAngles degreeFactor degreeFactor (.num 20) (.num 300) (.num 1))
      (.ofAngles degreeFactor degreeFactor (.num 50) (.num 300) (.num 1)) = .num q ∧ |(q : ℝ) - 2 * Real.pi * k| ≤ 2 ^ (-34 : ℤ) := by
  obtain ⟨q, hq, k, h⟩ := C138_position hT hI 20 300 1 50 300 1 (by norm_num [abs_le]) (by norm_num [abs_le]) (by norm_num [abs_le]) (by norm_num [abs_le])
    _ _ _ _ rfl rfl rfl rfl
  refine ⟨q, k, hq, ?_⟩
  rw [bearing_arg, distance_norm] at h
  have n : toNorth (((20 : ℚ) : ℝ) * (Real.pi / 180)) (((50 : ℚ) : ℝ) * (Real.pi / 180)) ((((300 : ℚ) : ℝ) * (Real.pi / 180)) - (((300 : ℚ) : ℝ) * (Real.pi / 180))) = 1 / 2 := by
    unfold toNorth
    rw [sub_self, Real.cos_zero, mul_one, ← Real.sin_sub, ← Real.sin_pi_div_six]
    congr 1
    push_cast
    ring
  have z : toEast (((50 : ℚ) : ℝ) * (Real.pi / 180)) ((((300 : ℚ) : ℝ) * (Real.pi / 180)) - (((300 : ℚ) : ℝ) * (Real.pi / 180))) = 0 := by
    simp [toEast]
  rw [n, z] at h
  have w : (⟨1 / 2, 0⟩ : ℂ) = ((1 / 2 : ℝ) : ℂ) := rfl
  rw [w, Complex.arg_ofReal_of_nonneg (by norm_num), sub_zero, Complex.norm_real, Real.norm_of_nonneg (by norm_num)] at h
  have e : (2 : ℝ) ^ (-34 : ℤ) = 2 * 2 ^ (-35 : ℤ) := by norm_num
  rw [e]
  clear e
  generalize (2 : ℝ) ^ (-35 : ℤ) = ε at *
  linarith

end Astro
