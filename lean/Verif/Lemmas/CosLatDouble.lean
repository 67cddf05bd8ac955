import Verif.Model.CosLatDouble
import Verif.Props.DiffDouble

/-
Errors of the construction of coslat differentials.
-/

set_option exponentiation.threshold 3000

namespace Astro

open Spec Time

attribute [local irreducible] FloatFmt.nearest FloatFmt.value Dbl.round

/-- The polar angle of a conversion. -/
theorem polar_range {I : InverseTrig} (hI : AccurateInverse I) (old : Dbl) {d : DVec} {x y z : ℚ} (h : Coords d x y z)
    (hlo : (2 : ℝ) ^ (-480 : ℤ) ≤ size (vec x y z)) (hhi : size (vec x y z) ≤ 2 ^ (500 : ℤ)) {a b r : ℚ}
    (e : d.toAngular I old .spherical = ⟨.num a, .num b, .num r⟩) : 0 ≤ (r : ℝ) ∧ -2 ^ (-52 : ℤ) ≤ (b : ℝ) ∧ (b : ℝ) ≤ Real.pi + 2 ^ (-52 : ℤ) := by
  obtain ⟨r1, r2⟩ := vec_range hlo hhi
  obtain ⟨m, c, k, p, q, hform, -, -, -, -, em, -, -, -, eq⟩ := angular_parts hI old (s := .spherical) (by decide) h r1 r2 _ rfl
  rw [hform] at e
  have hb : q = b := Dbl.num.inj (congrArg DSph.c1 e)
  subst hb
  have hr : m = r := Dbl.num.inj (congrArg DSph.c2 e)
  subst hr
  have m0 : 0 ≤ (m : ℝ) := by
    rw [← vec_size] at em
    have u0 := unit53_pos
    have := (abs_le.1 em).1
    have h1 := mul_le_mul_of_nonneg_left (show 4 * unit53 ≤ 1 by have := unit53_small; linarith) (size_nonneg (vec x y z))
    linarith
  rw [if_pos rfl, show 2 * unit53 = (2 : ℝ) ^ (-52 : ℤ) by norm_num [unit53]] at eq
  obtain ⟨l, u⟩ := abs_le.1 eq
  have := Real.arccos_nonneg c
  have := Real.arccos_le_pi c
  clear hlo hhi
  generalize (2 : ℝ) ^ (-52 : ℤ) = ε at *
  refine ⟨m0, ?_, ?_⟩ <;> linarith

/-- make_spherical_differential of a Cartesian vector: converted twice. -/
theorem made_near {T : Trig} {I : InverseTrig} (hT : Accurate T) (hI : AccurateInverse I) (junk : Dbl) {d : DVec} {x y z : ℚ} (h : Coords d x y z) {W : Coord.Vec}
    (hE : chord (vec x y z) W ≤ size W * (50 * unit53)) (lo : (2 : ℝ) ^ (-460 : ℤ) ≤ size W) (hi : size W ≤ 2 ^ (490 : ℤ)) :
    ∃ a b r : ℚ, d.makeAngular T I junk .spherical = ⟨.num a, .num b, .num r⟩ ∧ IsDouble a ∧ IsDouble b ∧ IsDouble r ∧
      0 ≤ (r : ℝ) ∧ -2 ^ (-52 : ℤ) ≤ (b : ℝ) ∧ (b : ℝ) ≤ Real.pi + 2 ^ (-52 : ℤ) ∧ chord (position .spherical a b r) W ≤ size W * 2 ^ (-22 : ℤ) ∧
      (size W / 3 ≤ √(W 0 ^ 2 + W 1 ^ 2) → chord (position .spherical a b r) W ≤ size W * (480 * unit53)) := by
  have u0 := unit53_pos
  have u1 := unit53_small
  have W0 := size_nonneg W
  have lo' := (by norm_num : (2 : ℝ) ^ (-470 : ℤ) ≤ 2 ^ (-460 : ℤ)).trans lo
  have mu : size W * unit53 ≤ size W * (1 / 1000000) := mul_le_mul_of_nonneg_left (by norm_num [unit53]) W0
  have mu0 := mul_nonneg W0 u0.le
  obtain ⟨w, hw, w1, w2⟩ := back_exact_near hI (.num 0) (s := .spherical) h hE (by linarith) lo' hi
  have m1 : 0 ≤ size W * 2 ^ (-23 : ℤ) := mul_nonneg W0 (by positivity)
  have m2 : size W * 2 ^ (-23 : ℤ) ≤ size W * (1 / 1000) := mul_le_mul_of_nonneg_left (by norm_num) W0
  have m3 : size W * unit53 ≤ size W * (1 / 10000) * 2 ^ (-23 : ℤ) := by
    rw [mul_assoc]
    exact mul_le_mul_of_nonneg_left (by norm_num [unit53]) W0
  have p22 : (2 : ℝ) ^ (-22 : ℤ) = 2 * 2 ^ (-23 : ℤ) := by norm_num
  have q1 := size_sub w W
  have q2 := size_sub W w
  rw [chord_comm] at q2
  have n1 : size w ≤ 2 * size W := by
    generalize (2 : ℝ) ^ (-23 : ℤ) = ε at *
    linarith
  have n2 : size W / 2 ≤ size w := by
    generalize (2 : ℝ) ^ (-23 : ℤ) = ε at *
    linarith
  obtain ⟨x', y', t, hx, ex, ey, et⟩ := stored_near hT hw (by
      have : (2 : ℝ) ^ (-900 : ℤ) ≤ 2 ^ (-460 : ℤ) / 2 := by norm_num
      refine this.trans ?_
      generalize (2 : ℝ) ^ (-460 : ℤ) = δ at *
      linarith) (by
      have : 2 * (2 : ℝ) ^ (490 : ℤ) ≤ 2 ^ (900 : ℤ) := by norm_num
      linarith)
  have hd : chord (vec x' y' t) w ≤ _ := chord_le_of ex ey et
  have n3 := mul_le_mul_of_nonneg_right n1 (show 0 ≤ 7 / 4 * (5 * unit53) by positivity)
  have tri := chord_triangle (vec x' y' t) w W
  have hE' : chord (vec x' y' t) W ≤ chord w W + size W * (18 * unit53) := by linarith
  obtain ⟨z', hz', y1, y2⟩ := back_exact_near hI junk (s := .spherical) hx (E := chord w W + size W * (18 * unit53)) (W := W) hE' (by
      generalize (2 : ℝ) ^ (-23 : ℤ) = ε at *
      linarith) lo' hi
  obtain ⟨a, b, r, hpt, da, db, dr, rfl⟩ := hz'
  have s1 := size_sub (vec x' y' t) W
  have s2 := size_sub W (vec x' y' t)
  rw [chord_comm] at s2
  obtain ⟨r0, b1, b2⟩ := polar_range hI junk hx (by
      have : (2 : ℝ) ^ (-480 : ℤ) ≤ 2 ^ (-460 : ℤ) / 2 := by norm_num
      refine this.trans ?_
      clear this lo' hi
      generalize (2 : ℝ) ^ (-460 : ℤ) = δ at *
      generalize (2 : ℝ) ^ (-23 : ℤ) = ε at *
      linarith) (by
      have : 2 * (2 : ℝ) ^ (490 : ℤ) ≤ 2 ^ (500 : ℤ) := by norm_num
      refine le_trans ?_ this
      clear this lo lo'
      generalize (2 : ℝ) ^ (490 : ℤ) = δ at *
      generalize (2 : ℝ) ^ (-23 : ℤ) = ε at *
      linarith) hpt
  refine ⟨a, b, r, hpt, da, db, dr, r0, b1, b2, y1.trans ?_, fun h => (y2 h).trans ?_⟩
  · rw [p22]
    clear lo lo' hi b1 b2
    generalize (2 : ℝ) ^ (-23 : ℤ) = ε at *
    linarith
  · have := w2 h
    linarith

/-- The polar angle times the cosine of the azimuth. -/
theorem cosLat_product {T : Trig} (hT : Accurate T) {a b : ℚ} (da : IsDouble a) (hb : |(b : ℝ)| ≤ 4) :
    ∃ q, (Dbl.num b).mul (T.cos (.num a)) = .num q ∧ IsDouble q ∧ |(q : ℝ) - b * Real.cos a| ≤ 9 * unit53 := by
  have u0 := unit53_pos
  have u1 := unit53_small
  obtain ⟨c, hc, dc, ec⟩ := (hT a da).2
  have ec' : |(c : ℝ) - Real.cos a| ≤ unit53 := ec
  have C1 := Real.abs_cos_le_one (a : ℝ)
  have c1 : |(c : ℝ)| ≤ 1 + unit53 := by
    have := abs_sub_abs_le_abs_sub (c : ℝ) (Real.cos a)
    linarith
  have bc : |(b : ℝ) * c| ≤ 4 * (1 + unit53) := by
    rw [abs_mul]
    exact mul_le_mul hb c1 (abs_nonneg _) (by norm_num)
  obtain ⟨q, hq, dq, eq⟩ := scaled_near (x := b) (k := c) (bc.trans (by
    have : (8 : ℝ) ≤ 2 ^ (1000 : ℤ) := by norm_num
    linarith))
  rw [hc]
  refine ⟨q, hq, dq, ?_⟩
  have e1 : (q : ℝ) - b * Real.cos a = (q - b * c) + b * (c - Real.cos a) := by ring
  have e2 : |(b : ℝ) * (c - Real.cos a)| ≤ 4 * unit53 := by
    rw [abs_mul]
    exact mul_le_mul hb ec' (abs_nonneg _) (by norm_num)
  have e3 := mul_le_mul_of_nonneg_right bc u0.le
  have e4 : (2 : ℝ) ^ (-1075 : ℤ) ≤ unit53 / 2 := by norm_num [unit53]
  have e5 : unit53 * unit53 ≤ unit53 * (1 / 1000) := mul_le_mul_of_nonneg_left (by norm_num [unit53]) u0.le
  rw [e1]
  refine (abs_add_le _ _).trans ?_
  clear hc
  generalize (2 : ℝ) ^ (-1075 : ℤ) = ε at *
  nlinarith

/-- The last step of the construction. -/
theorem cosLat_stored {T : Trig} {I : InverseTrig} (hT : Accurate T) (hI : AccurateInverse I) (junk : Dbl) {a b r : ℚ} (da : IsDouble a) (dr : IsDouble r)
    (hb : |(b : ℝ)| ≤ 4) (lo : (2 : ℝ) ^ (-460 : ℤ) ≤ |(r : ℝ)|) (hi : |(r : ℝ)| ≤ 2 ^ (480 : ℤ)) :
    ∃ z, Stands3 .spherical (DSph.ofPoint T I junk .spherical .spherical ⟨.num a, (Dbl.num b).mul (T.cos (.num a)), .num r⟩) z ∧
      chord z (position .spherical a (b * Real.cos a) r) ≤ |(r : ℝ)| * 2 ^ (-23 : ℤ) ∧
      (1 / 3 ≤ |Real.sin (b * Real.cos a)| → chord z (position .spherical a (b * Real.cos a) r) ≤ |(r : ℝ)| * 2 ^ (-45 : ℤ)) := by
  have u0 := unit53_pos
  have u1 := unit53_small
  have R0 := abs_nonneg (r : ℝ)
  obtain ⟨q, hq, dq, eq⟩ := cosLat_product hT da hb
  have sz : size (position .spherical a (b * Real.cos a) r) = |(r : ℝ)| := position_size .spherical (by decide) _ _ _
  have sz' : size (position .spherical a q r) = |(r : ℝ)| := position_size .spherical (by decide) _ _ _
  have close := position_close (s := .spherical) (by decide) (r := r) (show |(a : ℝ) - a| ≤ 0 by simp) eq
  have c1 : chord (position .spherical a q r) (position .spherical a (b * Real.cos a) r) ≤ 7 / 4 * (|(r : ℝ)| * (0 + 9 * unit53)) :=
    chord_le_of (close 0) (close 1) (close 2)
  obtain ⟨x, y, z, hc, ec⟩ := cartesian_chord hT (s := .spherical) (p := ⟨.num a, .num q, .num r⟩) ⟨a, q, r, rfl, da, dq, dr, rfl⟩
    (by rw [sz']; exact le_trans (by norm_num) lo) (by rw [sz']; exact hi.trans (by norm_num))
  rw [sz'] at ec
  have m0 := mul_nonneg R0 u0.le
  have mu : |(r : ℝ)| * unit53 ≤ |(r : ℝ)| * (1 / 1000000) := mul_le_mul_of_nonneg_left (by norm_num [unit53]) R0
  have tri := chord_triangle (vec x y z) (position .spherical a q r) (position .spherical a (b * Real.cos a) r)
  obtain ⟨w, hw, w1, w2⟩ := back_exact_near hI junk (s := .spherical) hc (W := position .spherical a (b * Real.cos a) r) (E := |(r : ℝ)| * (25 * unit53))
    (by linarith) (by rw [sz]; linarith) (by rw [sz]; exact le_trans (by norm_num) lo) (by rw [sz]; exact hi.trans (by norm_num))
  rw [sz] at w1 w2
  have e : DSph.ofPoint T I junk .spherical .spherical ⟨.num a, (Dbl.num b).mul (T.cos (.num a)), .num r⟩ =
      (DSph.toCartesian T .spherical ⟨.num a, .num q, .num r⟩).toAngular I junk .spherical := by rw [hq]; rfl
  refine ⟨w, by rw [e]; exact hw, w1.trans ?_, fun hs => (w2 ?_).trans ?_⟩
  · have := mul_le_mul_of_nonneg_left (show 9 / 8 * (25 * unit53) ≤ 1 / 8 * (2 : ℝ) ^ (-23 : ℤ) by norm_num [unit53]) R0
    clear lo hi
    generalize (2 : ℝ) ^ (-23 : ℤ) = ε at *
    linarith
  · have e2 : √((position .spherical a (b * Real.cos a) r) 0 ^ 2 + (position .spherical a (b * Real.cos a) r) 1 ^ 2) = |(r : ℝ)| * |Real.sin (b * Real.cos a)| := by
      rw [← abs_mul, ← Real.sqrt_sq_eq_abs]
      congr 1
      have := Real.sin_sq_add_cos_sq (a : ℝ)
      simp only [position, Matrix.cons_val_zero, Matrix.cons_val_one]
      linear_combination ((r : ℝ) * Real.sin (b * Real.cos a)) ^ 2 * this
    rw [e2]
    have := mul_le_mul_of_nonneg_left hs R0
    linarith
  · rw [pow45]
    linarith

end Astro
