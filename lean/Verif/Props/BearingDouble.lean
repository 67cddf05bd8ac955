import Verif.Lemmas.SepDouble
import Verif.Props.Frame

/-
C120: positional angle in doubles.
-/

set_option exponentiation.threshold 3000

namespace Astro

open Spec Time

attribute [local irreducible] FloatFmt.nearest FloatFmt.value Dbl.round

/-- A function with slope at most 1 of a difference of doubles. -/
theorem bearing_diff {l l' : ℚ} (h : IsDouble l) (h' : IsDouble l') (hl : |l| ≤ 8) (hl' : |l'| ≤ 8) {F : Dbl → Dbl} {f : ℝ → ℝ}
    (hF : ∀ x : ℚ, IsDouble x → Near (F (.num x)) (f x) (2 ^ (-53 : ℤ))) (lip : ∀ x y : ℝ, |f x - f y| ≤ |x - y|) :
    Near (F ((Dbl.num l').sub (.num l))) (f (l' - l)) ((17 + 1 / 1000) * unit53) := by
  have n1 : Near (.num l') (l' : ℝ) (0 * unit53) := ⟨l', rfl, h', by simp⟩
  have n2 : Near (.num l) (l : ℝ) (0 * unit53) := ⟨l, rfl, h, by simp⟩
  have c1 : |(l : ℝ)| ≤ 8 := by exact_mod_cast hl
  have c2 : |(l' : ℝ)| ≤ 8 := by exact_mod_cast hl'
  obtain ⟨d, hd, dd, ed⟩ := near_sub_gen n1 n2 ((abs_sub _ _).trans (add_le_add c2 c1)) (by norm_num) (by norm_num) (by norm_num)
  rw [hd]
  obtain ⟨q, hq, dq, eq⟩ := hF d dd
  refine ⟨q, hq, dq, ?_⟩
  have e : (q : ℝ) - f (l' - l) = (q - f d) + (f d - f (l' - l)) := by ring
  rw [e]
  refine (abs_add_le _ _).trans ((add_le_add eq ((lip _ _).trans ed)).trans ?_)
  rw [show (2 : ℝ) ^ (-53 : ℤ) = unit53 from rfl]
  have := unit53_pos
  linarith

/-- The arguments of the arc tangent. -/
theorem bearing_parts {T : Trig} (hT : Accurate T) (b l r b' l' r' : ℚ) (db : IsDouble b) (dl : IsDouble l)
    (db' : IsDouble b') (dl' : IsDouble l') (hl : |l| ≤ 8) (hl' : |l'| ≤ 8) :
    (Real.sin b' * Real.cos b - Real.cos b' * Real.sin b * Real.cos (l' - l)) ^ 2 + (Real.sin (l' - l) * Real.cos b') ^ 2 =
      1 - (Real.sin b * Real.sin b' + Real.cos b * Real.cos b' * Real.cos (l - l')) ^ 2 ∧
    ∃ x y : ℚ, DSph.bearingX T ⟨.num b, .num l, .num r⟩ ⟨.num b', .num l', .num r'⟩ = .num x ∧
      DSph.bearingY T ⟨.num b, .num l, .num r⟩ ⟨.num b', .num l', .num r'⟩ = .num y ∧ IsDouble x ∧ IsDouble y ∧
      |(x : ℝ) - (Real.sin b' * Real.cos b - Real.cos b' * Real.sin b * Real.cos (l' - l))| ≤ 27 * unit53 ∧
      |(y : ℝ) - Real.sin (l' - l) * Real.cos b'| ≤ 20 * unit53 := by
  obtain ⟨sb, cb⟩ := hT b db
  obtain ⟨sb', cb'⟩ := hT b' db'
  rw [show (2 : ℝ) ^ (-53 : ℤ) = unit53 from rfl, ← one_mul unit53] at sb cb sb' cb'
  have u0 := unit53_pos
  have cd := bearing_diff dl dl' hl hl' (fun x hx => (hT x hx).2) Real.abs_cos_sub_cos_le
  have sd := bearing_diff dl dl' hl hl' (fun x hx => (hT x hx).1) Real.abs_sin_sub_sin_le
  have s1 := Real.abs_sin_le_one
  have c1 := Real.abs_cos_le_one
  have m1 : ∀ {x y : ℝ}, |x| ≤ 1 → |y| ≤ 1 → |x * y| ≤ 1 := fun hx hy => by
    rw [abs_mul]; exact mul_le_one₀ hx (abs_nonneg _) hy
  have p1 := near_mul_gen sb' cb (s1 _) (c1 _) (by norm_num) (by norm_num) (by norm_num) (by norm_num)
  have p2 := near_mul_gen cb' sb (c1 _) (s1 _) (by norm_num) (by norm_num) (by norm_num) (by norm_num)
  have p3 := near_mul_gen p2 cd (m1 (c1 _) (s1 _)) (c1 _) (by norm_num) (by norm_num) (by norm_num) (by norm_num)
  have p5 := near_mul_gen sd cb' (s1 _) (c1 _) (by norm_num) (by norm_num) (by norm_num) (by norm_num)
  have n0 : (Real.sin b' * Real.cos b - Real.cos b' * Real.sin b * Real.cos (l' - l)) ^ 2 + (Real.sin (l' - l) * Real.cos b') ^ 2 =
      1 - (Real.sin b * Real.sin b' + Real.cos b * Real.cos b' * Real.cos (l - l')) ^ 2 := by
    have h1 := Real.sin_sq_add_cos_sq (b : ℝ)
    have h2 := Real.sin_sq_add_cos_sq (b' : ℝ)
    have h3 := Real.sin_sq_add_cos_sq ((l' : ℝ) - l)
    rw [← Real.cos_neg ((l : ℝ) - l'), neg_sub]
    generalize Real.sin ((l' : ℝ) - l) = S at *
    generalize Real.cos ((l' : ℝ) - l) = C at *
    generalize Real.sin (b : ℝ) = x at *
    generalize Real.cos (b : ℝ) = y at *
    generalize Real.sin (b' : ℝ) = z at *
    generalize Real.cos (b' : ℝ) = w at *
    have e1 : S ^ 2 = 1 - C ^ 2 := by linarith
    have e2 : y ^ 2 = 1 - x ^ 2 := by linarith
    calc _ = z ^ 2 * y ^ 2 - 2 * z * y * w * x * C + w ^ 2 * x ^ 2 * C ^ 2 + S ^ 2 * w ^ 2 := by ring
      _ = z ^ 2 * y ^ 2 - 2 * z * y * w * x * C + w ^ 2 * (x ^ 2 * C ^ 2 + 1 - C ^ 2) := by rw [e1]; ring
      _ = z ^ 2 * y ^ 2 - 2 * z * y * w * x * C + w ^ 2 * (1 - y ^ 2 * C ^ 2) := by rw [e2]; ring
      _ = z ^ 2 * (1 - x ^ 2) - 2 * z * y * w * x * C + w ^ 2 - y ^ 2 * w ^ 2 * C ^ 2 := by rw [e2]; ring
      _ = _ := by linear_combination h2
  have x1 : |Real.sin b' * Real.cos b - Real.cos b' * Real.sin b * Real.cos (l' - l)| ≤ 1 := by
    apply abs_le_of_sq_le_sq _ zero_le_one
    nlinarith [sq_nonneg (Real.sin (l' - l) * Real.cos b'), sq_nonneg (Real.sin b * Real.sin b' + Real.cos b * Real.cos b' * Real.cos (l - l'))]
  obtain ⟨x, hx, dx, ex⟩ := near_sub_gen p1 p3 x1 (by norm_num) (by norm_num) (by norm_num)
  obtain ⟨y, hy, dy, ey⟩ := p5
  have hX : DSph.bearingX T ⟨.num b, .num l, .num r⟩ ⟨.num b', .num l', .num r'⟩ = .num x := hx
  have hY : DSph.bearingY T ⟨.num b, .num l, .num r⟩ ⟨.num b', .num l', .num r'⟩ = .num y := hy
  exact ⟨n0, x, y, hX, hY, dx, dy, ex.trans (mul_le_mul_of_nonneg_right (by norm_num) u0.le), ey.trans (mul_le_mul_of_nonneg_right (by norm_num) u0.le)⟩

/-- **C120.** Times the sine of the distance of the two points, the positional angle is accurate to 2^-45, up to full turns. -/
theorem C120_error {T : Trig} {I : InverseTrig} (hT : Accurate T) (hI : AccurateInverse I) (b l r b' l' r' : ℚ) (db : IsDouble b) (dl : IsDouble l)
    (db' : IsDouble b') (dl' : IsDouble l') (hl : |l| ≤ 8) (hl' : |l'| ≤ 8) :
    ∃ q : ℚ, DSph.positionalAngle T I ⟨.num b, .num l, .num r⟩ ⟨.num b', .num l', .num r'⟩ = .num q ∧
      ∃ k : ℤ, |(q : ℝ) - bearing b l (direction b' l') - 2 * Real.pi * k| * Real.sin (angularDistance b l b' l') ≤ 2 ^ (-45 : ℤ) := by
  have u0 := unit53_pos
  obtain ⟨n0, x, y, hX, hY, dx, dy, ex, ey⟩ := bearing_parts hT b l r b' l' r' db dl db' dl' hl hl'
  obtain ⟨k, q, hq, -, eq⟩ := hI.atan2 y x dy dx
  refine ⟨q, by unfold DSph.positionalAngle; rw [hX, hY, hq], ?_⟩
  have hb : bearing b l (direction b' l') = Complex.arg ⟨Real.sin b' * Real.cos b - Real.cos b' * Real.sin b * Real.cos (l' - l), Real.sin (l' - l) * Real.cos b'⟩ := by
    rw [bearing]
    congr 1
    apply Complex.ext
    · simp [north, direction, PiLp.inner_apply, Fin.sum_univ_three, Real.cos_sub]
      ring
    · simp [east, direction, PiLp.inner_apply, Fin.sum_univ_three, Real.sin_sub]
      ring
  have hρ : Real.sin (angularDistance b l b' l') =
      ‖(⟨Real.sin b' * Real.cos b - Real.cos b' * Real.sin b * Real.cos (l' - l), Real.sin (l' - l) * Real.cos b'⟩ : ℂ)‖ := by
    rw [angularDistance_eq, Real.sin_arccos, Complex.norm_def, Complex.normSq_mk, ← n0, sq, sq]
  rw [hb, hρ]
  generalize hX' : Real.sin b' * Real.cos b - Real.cos b' * Real.sin b * Real.cos (l' - l) = X at *
  generalize hY' : Real.sin (l' - l) * Real.cos b' = Y at *
  obtain ⟨j, hj⟩ := arg_near ⟨x, y⟩ ⟨X, Y⟩
  refine ⟨j + k, ?_⟩
  have n1 : ‖(⟨X, Y⟩ : ℂ)‖ ≤ 1 := by
    rw [← hρ]
    exact Real.sin_le_one _
  have n2 : ‖(⟨x, y⟩ : ℂ) - ⟨X, Y⟩‖ ≤ 48 * unit53 := by
    refine (Complex.norm_le_abs_re_add_abs_im _).trans ((add_le_add ex ey).trans ?_)
    linarith
  have e : (q : ℝ) - Complex.arg ⟨X, Y⟩ - 2 * Real.pi * ((j + k : ℤ) : ℝ) =
      (q - (Coord.atan2 y x + 2 * Real.pi * k)) + (Complex.arg ⟨x, y⟩ - Complex.arg ⟨X, Y⟩ - 2 * Real.pi * j) := by
    rw [Coord.atan2]
    push_cast
    ring
  rw [e]
  have h1 := mul_le_mul_of_nonneg_right (abs_add_le (q - (Coord.atan2 y x + 2 * Real.pi * k)) (Complex.arg ⟨x, y⟩ - Complex.arg ⟨X, Y⟩ - 2 * Real.pi * j))
    (_root_.norm_nonneg (⟨X, Y⟩ : ℂ))
  refine h1.trans ?_
  rw [add_mul]
  have h2 := mul_le_mul eq n1 (_root_.norm_nonneg _) (by positivity)
  have h3 : Real.pi * ‖(⟨x, y⟩ : ℂ) - ⟨X, Y⟩‖ ≤ 4 * (48 * unit53) := mul_le_mul Real.pi_le_four n2 (_root_.norm_nonneg _) (by norm_num)
  have e1 : (2 : ℝ) ^ (-52 : ℤ) = 2 * unit53 := by norm_num [unit53]
  have e2 : (2 : ℝ) ^ (-45 : ℤ) = 256 * unit53 := by norm_num [unit53]
  rw [e2]
  rw [e1] at h2
  linarith

/-- **C120.** On the same meridian the angle is 0 or π up to 2^-52 and full turns, when sine and cosine are the closest doubles: nothing is left of the
rounding errors but the choice between north and south. -/
theorem C120_meridian {T : Trig} {I : InverseTrig} (hT : BestPossible T) (hI : AccurateInverse I) (b l r b' r' : ℚ) (db : IsDouble b) (dl : IsDouble l)
    (db' : IsDouble b') (hl : |l| ≤ 8) :
    ∃ (q : ℚ) (k : ℤ), DSph.positionalAngle T I ⟨.num b, .num l, .num r⟩ ⟨.num b', .num l, .num r'⟩ = .num q ∧
      |(q : ℝ) - Real.pi * k| ≤ 2 ^ (-52 : ℤ) := by
  have s0 : T.sin (.num 0) = .num 0 := closest_self (hT 0 isDouble_zero).1 isDouble_zero (by simp)
  obtain ⟨-, ⟨cb', hcb', -⟩⟩ := hT b' db'
  have hd : DSph.lonDiff ⟨.num b, .num l, .num r⟩ ⟨.num b', .num l, .num r'⟩ = .num 0 := by
    unfold DSph.lonDiff
    dsimp only
    rw [sub_num, sub_self, round_zero]
  have hY : DSph.bearingY T ⟨.num b, .num l, .num r⟩ ⟨.num b', .num l, .num r'⟩ = .num 0 := by
    unfold DSph.bearingY
    dsimp only
    rw [hd, s0, hcb', mul_num, zero_mul, round_zero]
  obtain ⟨-, x, -, hX, -, dx, -⟩ := bearing_parts (best_accurate hT) b l r b' l r' db dl db' dl hl hl
  obtain ⟨k, q, hq, -, eq⟩ := hI.atan2 0 x isDouble_zero dx
  have hpos : DSph.positionalAngle T I ⟨.num b, .num l, .num r⟩ ⟨.num b', .num l, .num r'⟩ = .num q := by
    unfold DSph.positionalAngle
    rw [hX, hY, hq]
  rw [Rat.cast_zero, Coord.atan2] at eq
  have real : (⟨(x : ℝ), 0⟩ : ℂ) = ((x : ℝ) : ℂ) := rfl
  rw [real] at eq
  rcases le_or_gt 0 (x : ℝ) with h | h
  · refine ⟨q, 2 * k, hpos, ?_⟩
    rw [Complex.arg_ofReal_of_nonneg h] at eq
    push_cast
    rwa [show Real.pi * (2 * (k : ℝ)) = 0 + 2 * Real.pi * k by ring]
  · refine ⟨q, 2 * k + 1, hpos, ?_⟩
    rw [Complex.arg_ofReal_of_neg h] at eq
    push_cast
    rwa [show Real.pi * (2 * (k : ℝ) + 1) = Real.pi + 2 * Real.pi * k by ring]

/-- From the equator at longitude 0 to longitude 3/2: nearly a quarter turn away, towards the east, up to 2^-44 and full turns. -/
example : ∃ (T : Trig) (I : InverseTrig), Accurate T ∧ AccurateInverse I ∧ ∃ (q : ℚ) (k : ℤ),
    DSph.positionalAngle T I ⟨.num 0, .num 0, .num 1⟩ ⟨.num 0, .num (3 / 2), .num 2⟩ = .num q ∧ |(q : ℝ) - Real.pi / 2 - 2 * Real.pi * k| ≤ 2 ^ (-44 : ℤ) := by
  obtain ⟨T, hT⟩ := best_exists
  obtain ⟨I, hI⟩ := inverse_exists
  have d3 : IsDouble (3 / 2) := ⟨3, -1, by norm_num, by norm_num, by norm_num, by norm_num⟩
  have p1 := Real.pi_gt_d4
  have p2 := Real.pi_lt_d4
  norm_num at p1 p2
  obtain ⟨q, hq, k, hk⟩ := C120_error (best_accurate hT) hI 0 0 1 0 (3 / 2) 2 isDouble_zero isDouble_zero isDouble_zero d3 (by norm_num) (by norm_num [abs_of_pos])
  refine ⟨T, I, best_accurate hT, hI, q, k, hq, ?_⟩
  have s0 : 0 < Real.sin (3 / 2) := Real.sin_pos_of_pos_of_lt_pi (by norm_num) (by linarith)
  have sh : 1 / 2 ≤ Real.sin (3 / 2) := by
    rw [← Real.sin_pi_div_six]
    exact Real.sin_le_sin_of_le_of_le_pi_div_two (by linarith) (by linarith) (by linarith)
  have hb : bearing ((0 : ℚ) : ℝ) ((0 : ℚ) : ℝ) (direction ((0 : ℚ) : ℝ) ((3 / 2 : ℚ) : ℝ)) = Real.pi / 2 := by
    have : (⟨inner ℝ (north ((0 : ℚ) : ℝ) ((0 : ℚ) : ℝ)) (direction ((0 : ℚ) : ℝ) ((3 / 2 : ℚ) : ℝ)),
        inner ℝ (east ((0 : ℚ) : ℝ)) (direction ((0 : ℚ) : ℝ) ((3 / 2 : ℚ) : ℝ))⟩ : ℂ) = (Real.sin (3 / 2) : ℝ) * Complex.I := by
      generalize hs : Real.sin (3 / 2) = S
      apply Complex.ext <;> simp [north, east, direction, PiLp.inner_apply, Fin.sum_univ_three, hs]
    rw [bearing, this, Complex.arg_real_mul _ s0, Complex.arg_I]
  have hd : angularDistance ((0 : ℚ) : ℝ) ((0 : ℚ) : ℝ) ((0 : ℚ) : ℝ) ((3 / 2 : ℚ) : ℝ) = 3 / 2 := by
    rw [angularDistance_eq]
    simp
    rw [Real.arccos_cos (by norm_num) (by linarith)]
  rw [hb, hd] at hk
  have h1 : |(q : ℝ) - Real.pi / 2 - 2 * Real.pi * k| * (1 / 2) ≤ 2 ^ (-45 : ℤ) := (mul_le_mul_of_nonneg_left sh (abs_nonneg _)).trans hk
  have h2 : (2 : ℝ) ^ (-44 : ℤ) = 2 * 2 ^ (-45 : ℤ) := by norm_num
  rw [h2]
  generalize (2 : ℝ) ^ (-45 : ℤ) = w at *
  linarith

end Astro
