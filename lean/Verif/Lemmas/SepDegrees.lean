import Verif.Props.SepConvert
import Verif.Props.BearingDouble
import Verif.Props.QtyDouble
import Verif.Lemmas.UnitChain

namespace Astro

open Spec Time

attribute [local irreducible] FloatFmt.nearest FloatFmt.value Dbl.round

set_option exponentiation.threshold 3000

/-- An angle given in degrees, as stored. -/
theorem stored_degrees (x : ℚ) (hx : |x| ≤ 360) :
    ∃ q, storeAngle degreeFactor (.num x) = .num q ∧ IsDouble q ∧ |(q : ℝ) - x * (Real.pi / 180)| ≤ 8 / 10 ^ 13 ∧ |q| ≤ 8 := by
  have hk : |((5030569068109444 * 2 ^ (-58 : ℤ) : ℚ) : ℝ) - Real.pi / 180| ≤ |Real.pi / 180| * (66 / 10 ^ 15) := by
    obtain ⟨c1, c2⟩ := degree_close
    have := Real.pi_pos
    rw [abs_of_nonneg (le_trans (by positivity) c1), abs_of_pos (by positivity)]
    exact c2
  have hm : |x * (5030569068109444 * 2 ^ (-58 : ℤ))| ≤ (2 : ℚ) ^ (1023 : ℤ) := by
    rw [abs_mul]
    refine (mul_le_mul hx (show _ ≤ (1 : ℚ) by rw [abs_of_pos (by positivity)]; norm_num) (abs_nonneg _) (by norm_num)).trans ?_
    refine le_trans ?_ (zpow_le_zpow_right₀ (by norm_num) (show (10 : ℤ) ≤ 1023 by norm_num))
    norm_num
  obtain ⟨q, h1, h2, h3⟩ := C126_stored hk (by norm_num) hm
  have hx' : |(x : ℝ)| ≤ 360 := by
    have := (Rat.cast_le (K := ℝ)).2 hx
    push_cast at this
    exact this
  have p : |x * (Real.pi / 180)| ≤ 63 / 10 := by
    have h4 := Real.pi_lt_d2
    have h5 := Real.pi_pos
    rw [abs_mul, abs_of_pos (show 0 < Real.pi / 180 by positivity)]
    refine (mul_le_mul hx' (show Real.pi / 180 ≤ 3.15 / 180 by linarith) (by positivity) (by norm_num)).trans (by norm_num)
  have t : (2 : ℝ) ^ (-1075 : ℤ) ≤ 1 / 10 ^ 14 := le_trans (zpow_le_zpow_right₀ (by norm_num) (show (-1075 : ℤ) ≤ -50 by norm_num)) (by norm_num)
  have close : |(q : ℝ) - x * (Real.pi / 180)| ≤ 8 / 10 ^ 13 :=
    h3.trans ((add_le_add (mul_le_mul_of_nonneg_right p (by norm_num)) t).trans (by norm_num))
  rw [degree_num]
  refine ⟨q, h1, h2, close, ?_⟩
  have h8 : |(q : ℝ)| ≤ 8 := by
    have := abs_add_le ((q : ℝ) - x * (Real.pi / 180)) (x * (Real.pi / 180))
    rw [sub_add_cancel] at this
    refine this.trans ((add_le_add close p).trans (by norm_num))
  exact_mod_cast h8

/-- The exact separation of the stored angles. -/
theorem stored_separation {a b a' b' x y x' y' δ : ℝ} (ha : |x - a| ≤ δ) (hb : |y - b| ≤ δ) (ha' : |x' - a'| ≤ δ) (hb' : |y' - b'| ≤ δ) :
    |Real.arccos (cosBetween .equatorial x y x' y') - Real.arccos (cosBetween .equatorial a b a' b')| ≤ 8 * δ := by
  have h := (column_close x y a b).trans (add_le_add ha hb)
  have h' := (column_close x' y' a' b').trans (add_le_add ha' hb')
  have k := converted_near (T := ⟨id, id⟩) [] (u := a) (v := b) (u' := a') (v' := b') h h'
  refine k.trans (le_of_eq ?_)
  ring

/-- Northern and eastern component of the direction from one place to another. -/
noncomputable def toNorth (b b' d : ℝ) : ℝ := Real.sin b' * Real.cos b - Real.cos b' * Real.sin b * Real.cos d

noncomputable def toEast (b' d : ℝ) : ℝ := Real.sin d * Real.cos b'

theorem prod_moved {p q p' q' : ℝ} {e f : ℝ} (hp' : |p'| ≤ 1) (hq : |q| ≤ 1) (h1 : |p - p'| ≤ e) (h2 : |q - q'| ≤ f) : |p * q - p' * q'| ≤ e + f := by
  have : p * q - p' * q' = (p - p') * q + p' * (q - q') := by ring
  rw [this]
  refine (abs_add_le _ _).trans (add_le_add ?_ ?_)
  · rw [abs_mul]; exact (mul_le_of_le_one_right (abs_nonneg _) hq).trans h1
  · rw [abs_mul]; exact (mul_le_of_le_one_left (abs_nonneg _) hp').trans h2

theorem toNorth_moved {b b' d c c' e δ : ℝ} (hb : |b - c| ≤ δ) (hb' : |b' - c'| ≤ δ) (hd : |d - e| ≤ 2 * δ) : |toNorth b b' d - toNorth c c' e| ≤ 6 * δ := by
  have s1 := Real.abs_sin_le_one
  have c1 := Real.abs_cos_le_one
  have m1 : ∀ {x y : ℝ}, |x| ≤ 1 → |y| ≤ 1 → |x * y| ≤ 1 := fun hx hy => by
    rw [abs_mul]; exact mul_le_one₀ hx (abs_nonneg _) hy
  have h1 := prod_moved (s1 c') (c1 b) ((Real.abs_sin_sub_sin_le b' c').trans hb') ((Real.abs_cos_sub_cos_le b c).trans hb)
  have h2 := prod_moved (c1 c') (s1 b) ((Real.abs_cos_sub_cos_le b' c').trans hb') ((Real.abs_sin_sub_sin_le b c).trans hb)
  have h3 := prod_moved (m1 (c1 c') (s1 c)) (c1 d) h2 ((Real.abs_cos_sub_cos_le d e).trans hd)
  unfold toNorth
  have : ∀ p q r s : ℝ, (p - q) - (r - s) = (p - r) - (q - s) := fun p q r s => by ring
  rw [this]
  refine (abs_sub _ _).trans ((add_le_add h1 h3).trans (le_of_eq ?_))
  ring

theorem toEast_moved {b' d c' e δ : ℝ} (hb' : |b' - c'| ≤ δ) (hd : |d - e| ≤ 2 * δ) : |toEast b' d - toEast c' e| ≤ 3 * δ := by
  have h := prod_moved (Real.abs_sin_le_one e) (Real.abs_cos_le_one b') ((Real.abs_sin_sub_sin_le d e).trans hd) ((Real.abs_cos_sub_cos_le b' c').trans hb')
  unfold toEast
  exact h.trans (le_of_eq (by ring))

theorem bearing_arg (b l b' l' : ℝ) : bearing b l (direction b' l') = Complex.arg ⟨toNorth b b' (l' - l), toEast b' (l' - l)⟩ := by
  rw [bearing]
  congr 1
  apply Complex.ext
  · simp [north, direction, PiLp.inner_apply, Fin.sum_univ_three, Real.cos_sub, toNorth]
    ring
  · simp [east, direction, PiLp.inner_apply, Fin.sum_univ_three, Real.sin_sub, toEast]
    ring

theorem distance_norm (b l b' l' : ℝ) : Real.sin (angularDistance b l b' l') = ‖(⟨toNorth b b' (l' - l), toEast b' (l' - l)⟩ : ℂ)‖ := by
  have n0 : (toNorth b b' (l' - l)) ^ 2 + (toEast b' (l' - l)) ^ 2 =
      1 - (Real.sin b * Real.sin b' + Real.cos b * Real.cos b' * Real.cos (l - l')) ^ 2 := by
    unfold toNorth toEast
    have h1 := Real.sin_sq_add_cos_sq b
    have h2 := Real.sin_sq_add_cos_sq b'
    have h3 := Real.sin_sq_add_cos_sq (l' - l)
    rw [← Real.cos_neg (l - l'), neg_sub]
    generalize Real.sin (l' - l) = S at *
    generalize Real.cos (l' - l) = C at *
    generalize Real.sin b = x at *
    generalize Real.cos b = y at *
    generalize Real.sin b' = z at *
    generalize Real.cos b' = w at *
    have e1 : S ^ 2 = 1 - C ^ 2 := by linarith
    have e2 : y ^ 2 = 1 - x ^ 2 := by linarith
    calc _ = z ^ 2 * y ^ 2 - 2 * z * y * w * x * C + w ^ 2 * x ^ 2 * C ^ 2 + S ^ 2 * w ^ 2 := by ring
      _ = z ^ 2 * y ^ 2 - 2 * z * y * w * x * C + w ^ 2 * (x ^ 2 * C ^ 2 + 1 - C ^ 2) := by rw [e1]; ring
      _ = z ^ 2 * y ^ 2 - 2 * z * y * w * x * C + w ^ 2 * (1 - y ^ 2 * C ^ 2) := by rw [e2]; ring
      _ = z ^ 2 * (1 - x ^ 2) - 2 * z * y * w * x * C + w ^ 2 - y ^ 2 * w ^ 2 * C ^ 2 := by rw [e2]; ring
      _ = _ := by linear_combination h2
  rw [angularDistance_eq, Real.sin_arccos, Complex.norm_def, Complex.normSq_mk, ← n0, sq, sq]

end Astro
