import Verif.Spec.RepDouble
import Verif.Lemmas.RotDouble
import Verif.Props.VecDouble
import Verif.Lemmas.Rep
import Mathlib.Analysis.SpecialFunctions.Trigonometric.Bounds

/-
Helper lemmas: angular and Cartesian coordinates in doubles.
-/

set_option exponentiation.threshold 3000

namespace Astro

open Spec Time

attribute [local irreducible] FloatFmt.nearest FloatFmt.value Dbl.round

/-- A distance that is neither huge nor tiny. -/
def Moderate (r : ℚ) : Prop := 2 ^ (-900 : ℤ) ≤ |r| ∧ |r| ≤ 2 ^ (900 : ℤ)

theorem moderate_speck {r : ℚ} (h : Moderate r) : (speck : ℝ) ≤ |(r : ℝ)| * unit53 / 1000 := by
  have h1 : speck ≤ |r| * 2 ^ (-63 : ℤ) := by
    have : speck = 2 ^ (-900 : ℤ) * 2 ^ (-175 : ℤ) := by
      unfold speck
      rw [← zpow_add₀ (by norm_num)]
      norm_num
    rw [this]
    exact mul_le_mul h.1 (zpow_le_zpow_right₀ (by norm_num) (by norm_num)) (two_zpow_pos _).le (abs_nonneg _)
  have h2 := (Rat.cast_le (K := ℝ)).2 h1
  rw [Rat.cast_mul, Rat.cast_abs, Rat.cast_zpow, Rat.cast_ofNat] at h2
  refine h2.trans ?_
  rw [mul_div_assoc]
  exact mul_le_mul_of_nonneg_left (by norm_num [unit53]) (abs_nonneg _)

theorem moderate_top {r y : ℚ} (h : Moderate r) (hy : |(y : ℝ)| ≤ 4) {x : ℚ} (hx : |(x : ℝ)| ≤ |(r : ℝ)| * 4) : |x * y| ≤ 2 ^ (1023 : ℤ) := by
  have hy' : |y| ≤ 4 := by
    have : ((|y| : ℚ) : ℝ) ≤ ((4 : ℚ) : ℝ) := by push_cast; exact hy
    exact (Rat.cast_le (K := ℝ)).1 this
  have hx' : |x| ≤ |r| * 4 := by
    have : ((|x| : ℚ) : ℝ) ≤ ((|r| * 4 : ℚ) : ℝ) := by push_cast; exact hx
    exact (Rat.cast_le (K := ℝ)).1 this
  rw [abs_mul]
  have h1 : |x| * |y| ≤ |r| * 4 * 4 := mul_le_mul hx' hy' (abs_nonneg _) (by positivity)
  have h2 : |r| * 4 * 4 ≤ 2 ^ (900 : ℤ) * 2 ^ (4 : ℤ) := by
    have := mul_le_mul_of_nonneg_right h.2 (by norm_num : (0 : ℚ) ≤ 16)
    have e : (2 : ℚ) ^ (4 : ℤ) = 16 := by norm_num
    rw [e]
    linarith
  rw [← zpow_add₀ (by norm_num)] at h2
  exact h1.trans (h2.trans (zpow_le_zpow_right₀ (by norm_num) (by norm_num)))

/-- A product with a factor of size one. -/
theorem scaled_mul {r x : ℚ} {b : Dbl} {t w e : ℝ} (hr : Moderate r) (hx : |(x : ℝ) - r * t| ≤ |(r : ℝ)| * (e * unit53)) (ht : |t| ≤ 1) (he : 0 ≤ e) (he' : e ≤ 100)
    (hb : Near b w unit53) (hw : |w| ≤ 1) :
    ∃ p, (Dbl.num x).mul b = .num p ∧ IsDouble p ∧ |(p : ℝ) - r * (t * w)| ≤ |(r : ℝ)| * ((e + 21 / 10) * unit53) := by
  obtain ⟨y, rfl, -, ey⟩ := hb
  have u0 := unit53_pos
  have u1 := unit53_small
  have r0 := abs_nonneg (r : ℝ)
  have eu : e * unit53 ≤ 1 / 1000 := by
    have := mul_le_mul he' u1 u0.le (by norm_num)
    linarith
  have ny : |(y : ℝ)| ≤ 1 + unit53 := by
    have : (y : ℝ) = w + (y - w) := by ring
    rw [this]
    exact (abs_add_le _ _).trans (by linarith)
  have nx : |(x : ℝ)| ≤ |(r : ℝ)| * (1 + e * unit53) := by
    have : (x : ℝ) = r * t + (x - r * t) := by ring
    rw [this]
    refine (abs_add_le _ _).trans ?_
    rw [abs_mul]
    have := mul_le_mul_of_nonneg_left ht r0
    linarith
  have nx4 : |(x : ℝ)| ≤ |(r : ℝ)| * 4 := nx.trans (mul_le_mul_of_nonneg_left (by linarith) r0)
  obtain ⟨p, h1, h2, h3, -⟩ := mul_err (moderate_top (y := y) hr (ny.trans (by linarith)) nx4)
  refine ⟨p, h1, h2, ?_⟩
  have h4 := (Rat.cast_le (K := ℝ)).2 h3
  push_cast at h4
  rw [unit53_eq] at h4
  have nxy : |(x : ℝ) * y| ≤ |(r : ℝ)| * (1 + 1 / 100) := by
    rw [abs_mul]
    have k1 := mul_le_mul nx ny (abs_nonneg _) (by positivity)
    refine k1.trans ?_
    rw [mul_assoc]
    refine mul_le_mul_of_nonneg_left ?_ r0
    have := mul_le_mul (by linarith : 1 + e * unit53 ≤ 1 + 1 / 1000) (by linarith : 1 + unit53 ≤ 1 + 1 / 1000) (by linarith) (by norm_num)
    linarith
  have sp := moderate_speck hr
  have k2 : |(x : ℝ) * y| * unit53 ≤ |(r : ℝ)| * (1 + 1 / 100) * unit53 := mul_le_mul_of_nonneg_right nxy u0.le
  have k3 : |(x : ℝ) * y - r * (t * w)| ≤ |(r : ℝ)| * ((e + 102 / 100) * unit53) := by
    have e1 : (x : ℝ) * y - r * (t * w) = (x - r * t) * y + r * t * (y - w) := by ring
    rw [e1]
    refine (abs_add_le _ _).trans ?_
    rw [abs_mul, abs_mul, abs_mul]
    have a1 := mul_le_mul hx ny (abs_nonneg _) (by positivity)
    have a2 : |(r : ℝ)| * |t| * |(y : ℝ) - w| ≤ |(r : ℝ)| * 1 * unit53 :=
      mul_le_mul (mul_le_mul_of_nonneg_left ht r0) ey (abs_nonneg _) (by positivity)
    have a3 : |(r : ℝ)| * (e * unit53) * unit53 ≤ |(r : ℝ)| * (1 / 100) * unit53 :=
      mul_le_mul_of_nonneg_right (mul_le_mul_of_nonneg_left (by linarith) r0) u0.le
    have a4 : 0 ≤ |(r : ℝ)| * unit53 := by positivity
    linarith
  have e2 : (p : ℝ) - r * (t * w) = (p - x * y) + (x * y - r * (t * w)) := by ring
  rw [e2]
  refine (abs_add_le _ _).trans ?_
  have r1 : |(r : ℝ)| * unit53 / 1000 + |(r : ℝ)| * (1 + 1 / 100) * unit53 + |(r : ℝ)| * ((e + 102 / 100) * unit53) ≤ |(r : ℝ)| * ((e + 21 / 10) * unit53) := by
    have : 0 ≤ |(r : ℝ)| * unit53 := by positivity
    linarith
  linarith

/-- A distance times two trigonometric functions. -/
theorem scaled_two {r : ℚ} {a b : Dbl} {t w : ℝ} (hr : Moderate r) (ha : Near a t unit53) (ht : |t| ≤ 1) (hb : Near b w unit53) (hw : |w| ≤ 1) :
    Near (((Dbl.num r).mul a).mul b) (r * (t * w)) (|(r : ℝ)| * (5 * unit53)) := by
  have u0 := unit53_pos
  obtain ⟨p, h1, -, h3⟩ := scaled_mul (x := r) (t := 1) (e := 0) hr (by simp) (by simp) le_rfl (by norm_num) ha ht
  rw [one_mul, zero_add] at h3
  obtain ⟨q, h4, h5, h6⟩ := scaled_mul hr h3 ht (by norm_num) (by norm_num) hb hw
  exact ⟨q, by rw [h1, h4], h5, h6.trans (mul_le_mul_of_nonneg_left (by linarith) (abs_nonneg _))⟩

theorem scaled_one {r : ℚ} {a : Dbl} {t : ℝ} (hr : Moderate r) (ha : Near a t unit53) (ht : |t| ≤ 1) :
    Near ((Dbl.num r).mul a) (r * t) (|(r : ℝ)| * (5 * unit53)) := by
  have u0 := unit53_pos
  obtain ⟨p, h1, h2, h3⟩ := scaled_mul (x := r) (t := 1) (e := 0) hr (by simp) (by simp) le_rfl (by norm_num) ha ht
  rw [one_mul, zero_add] at h3
  exact ⟨p, h1, h2, h3.trans (mul_le_mul_of_nonneg_left (by linarith) (abs_nonneg _))⟩

/-- Spread of the sine as a function of the cosine. -/
theorem root_spread {c d e : ℝ} (hc : |c| ≤ 1) (hd : |d| ≤ 1) (h : |c - d| ≤ e) : (√(1 - c * c) - √(1 - d * d)) ^ 2 ≤ 2 * e ∧
    |√(1 - c * c) - √(1 - d * d)| * √(1 - d * d) ≤ 2 * e := by
  have c1 : 0 ≤ 1 - c * c := by
    have := mul_le_mul hc hc (abs_nonneg _) zero_le_one
    rw [abs_mul_abs_self] at this
    linarith
  have d1 : 0 ≤ 1 - d * d := by
    have := mul_le_mul hd hd (abs_nonneg _) zero_le_one
    rw [abs_mul_abs_self] at this
    linarith
  have a0 := Real.sqrt_nonneg (1 - c * c)
  have b0 := Real.sqrt_nonneg (1 - d * d)
  have a2 := Real.mul_self_sqrt c1
  have b2 := Real.mul_self_sqrt d1
  have key : |√(1 - c * c) - √(1 - d * d)| * (√(1 - c * c) + √(1 - d * d)) ≤ 2 * e := by
    rw [← abs_of_nonneg (add_nonneg a0 b0), ← abs_mul]
    have e1 : (√(1 - c * c) - √(1 - d * d)) * (√(1 - c * c) + √(1 - d * d)) = (c + d) * (d - c) := by
      have : (√(1 - c * c) - √(1 - d * d)) * (√(1 - c * c) + √(1 - d * d)) = √(1 - c * c) * √(1 - c * c) - √(1 - d * d) * √(1 - d * d) := by ring
      rw [this, a2, b2]
      ring
    rw [e1, abs_mul, abs_sub_comm d c]
    exact mul_le_mul ((abs_add_le c d).trans (by linarith)) h (abs_nonneg _) (by norm_num)
  have n0 := abs_nonneg (√(1 - c * c) - √(1 - d * d))
  constructor
  · rw [← sq_abs, sq]
    refine le_trans (mul_le_mul_of_nonneg_left ?_ n0) key
    rw [abs_le]
    constructor <;> linarith
  · refine le_trans (mul_le_mul_of_nonneg_left ?_ n0) key
    linarith

/-- A product of an inexact length, an inexact sine and an inexact cosine. -/
theorem product_near {L m s s' w w' v S : ℝ} (hL : 0 < L) (hm : |m - L| ≤ L * (4 * unit53)) (hs : |s| ≤ 1) (hs' : |s'| ≤ 1) (hw' : |w'| ≤ 1)
    (es : |s' - s| ≤ S) (ew : |w' - w| ≤ 2 * unit53) (hv : |v - m * (s' * w')| ≤ |m| * (5 * unit53)) : |v - L * (s * w)| ≤ L * (S + 12 * unit53) := by
  have u0 := unit53_pos
  have u1 := unit53_small
  have hm2 : |m| ≤ L * (1 + 1 / 100) := by
    have e : m = L + (m - L) := by ring
    rw [e]
    refine (abs_add_le _ _).trans ?_
    rw [abs_of_pos hL]
    have : L * (4 * unit53) ≤ L * (1 / 100) := mul_le_mul_of_nonneg_left (by linarith) hL.le
    linarith
  have e1 : v - L * (s * w) = (v - m * (s' * w')) + ((m - L) * (s' * w') + (L * ((s' - s) * w') + L * (s * (w' - w)))) := by ring
  rw [e1]
  have k1 : |m| * (5 * unit53) ≤ L * (1 + 1 / 100) * (5 * unit53) := mul_le_mul_of_nonneg_right hm2 (by linarith)
  have k2 : |(m - L) * (s' * w')| ≤ L * (4 * unit53) := by
    rw [abs_mul]
    have : |s' * w'| ≤ 1 := by rw [abs_mul]; exact mul_le_one₀ hs' (abs_nonneg _) hw'
    exact (mul_le_mul hm this (abs_nonneg _) (by positivity)).trans (by rw [mul_one])
  have k3 : |L * ((s' - s) * w')| ≤ L * S := by
    rw [abs_mul, abs_mul, abs_of_pos hL]
    refine mul_le_mul_of_nonneg_left ?_ hL.le
    exact (mul_le_mul es hw' (abs_nonneg _) ((abs_nonneg _).trans es)).trans (by rw [mul_one])
  have k4 : |L * (s * (w' - w))| ≤ L * (2 * unit53) := by
    rw [abs_mul, abs_mul, abs_of_pos hL]
    refine mul_le_mul_of_nonneg_left ?_ hL.le
    exact (mul_le_mul hs ew (abs_nonneg _) zero_le_one).trans (by rw [one_mul])
  refine (abs_add_le _ _).trans ?_
  have := (abs_add_le ((m - L) * (s' * w')) (L * ((s' - s) * w') + L * (s * (w' - w)))).trans (add_le_add_right (abs_add_le _ _) _)
  have p : 0 ≤ L * unit53 := by positivity
  linarith

/-- The third coordinate. -/
theorem third_near {L m t t' v S : ℝ} (hL : 0 < L) (hm : |m - L| ≤ L * (4 * unit53)) (ht' : |t'| ≤ 1)
    (et : |t' - t| ≤ S) (hv : |v - m * t'| ≤ |m| * (5 * unit53)) : |v - L * t| ≤ L * (S + 10 * unit53) := by
  have u0 := unit53_pos
  have u1 := unit53_small
  have hm2 : |m| ≤ L * (1 + 1 / 100) := by
    have e : m = L + (m - L) := by ring
    rw [e]
    refine (abs_add_le _ _).trans ?_
    rw [abs_of_pos hL]
    have : L * (4 * unit53) ≤ L * (1 / 100) := mul_le_mul_of_nonneg_left (by linarith) hL.le
    linarith
  have e1 : v - L * t = (v - m * t') + ((m - L) * t' + L * (t' - t)) := by ring
  rw [e1]
  have k1 : |m| * (5 * unit53) ≤ L * (1 + 1 / 100) * (5 * unit53) := mul_le_mul_of_nonneg_right hm2 (by linarith)
  have k2 : |(m - L) * t'| ≤ L * (4 * unit53) := by
    rw [abs_mul]
    exact (mul_le_mul hm ht' (abs_nonneg _) (by positivity)).trans (by rw [mul_one])
  have k3 : |L * (t' - t)| ≤ L * S := by
    rw [abs_mul, abs_of_pos hL]
    exact mul_le_mul_of_nonneg_left et hL.le
  refine (abs_add_le _ _).trans ?_
  have := abs_add_le ((m - L) * t') (L * (t' - t))
  have p : 0 ≤ L * unit53 := by positivity
  linarith

/-- The real numbers a Cartesian point is made of. -/
theorem polar_parts {x y z L : ℝ} (hL : 0 < L) (h : L * L = x * x + y * y + z * z) :
    |z / L| ≤ 1 ∧ L * √(1 - z / L * (z / L)) = √(x * x + y * y) ∧ L * (√(1 - z / L * (z / L)) * Real.cos (Coord.atan2 y x)) = x ∧
      L * (√(1 - z / L * (z / L)) * Real.sin (Coord.atan2 y x)) = y := by
  have e : L * √(1 - z / L * (z / L)) = √(x * x + y * y) := by
    have e1 : x * x + y * y = L * L * (1 - z / L * (z / L)) := by
      have : L * L * (1 - z / L * (z / L)) = L * L - (L * (z / L)) * (L * (z / L)) := by ring
      rw [this, mul_div_cancel₀ _ hL.ne', h]
      ring
    rw [e1, Real.sqrt_mul (mul_self_nonneg _), Real.sqrt_mul_self hL.le]
  obtain ⟨h1, h2⟩ := atan2_polar x y
  refine ⟨?_, e, ?_, ?_⟩
  · rw [abs_div, abs_of_pos hL, div_le_one hL]
    apply abs_le_of_sq_le_sq _ hL.le
    nlinarith [mul_self_nonneg x, mul_self_nonneg y]
  · rw [← mul_assoc, e, h1]
  · rw [← mul_assoc, e, h2]

/-- Angles and distance of a Cartesian point in doubles. -/
theorem angular_parts {I : InverseTrig} (hI : AccurateInverse I) (old : Dbl) {s : Coord.System} (hs : s ≠ .cartesian) {v : DVec}
    {x y z : ℚ} (h : Coords v x y z) (hlo : 2 ^ (-960 : ℤ) ≤ x * x + y * y + z * z) (hhi : x * x + y * y + z * z ≤ 2 ^ (1000 : ℤ)) (L : ℝ)
    (hL : L = √(x * x + y * y + z * z : ℝ)) :
    ∃ (m : ℚ) (c : ℚ) (k : ℤ) (p q : ℚ), v.toAngular I old s = ⟨.num p, .num q, .num m⟩ ∧ IsDouble p ∧ IsDouble q ∧ IsDouble m ∧ Moderate m ∧
      |(m : ℝ) - L| ≤ L * (4 * unit53) ∧ |(c : ℝ)| ≤ 1 ∧ |(c : ℝ) - z / L| ≤ 81 / 10 * unit53 ∧
      |(p : ℝ) - (Coord.atan2 y x + 2 * Real.pi * k)| ≤ 2 * unit53 ∧
      |(q : ℝ) - (if s = .spherical then Real.arccos c else Real.arcsin c)| ≤ 2 * unit53 := by
  obtain ⟨m, hm, dm, m0, he, -⟩ := magnitude_err h hlo hhi
  have e1 : lengthOf x y z = L := by
    rw [hL, lengthOf]
    push_cast
    rfl
  rw [e1, unit53_eq] at he
  obtain ⟨p₀, q₀, c, hc, hpol, -, -, c1, -, -, ec, -⟩ := C107_error v x y z h hlo hhi L hL
  have dc : IsDouble c := hc.2.2.2
  have two : (2 : ℝ) ^ (-52 : ℤ) = 2 * unit53 := by norm_num [unit53]
  obtain ⟨k, p, hp, dp, ep⟩ := hI.atan2 y x h.2.2.1 h.2.1
  rw [two] at ep
  have hS0 : 0 < x * x + y * y + z * z := lt_of_lt_of_le (two_zpow_pos _) hlo
  have hSr : (0 : ℝ) < (x * x + y * y + z * z : ℝ) := by exact_mod_cast hS0
  have hLL : L * L = x * x + y * y + z * z := by rw [hL]; exact Real.mul_self_sqrt hSr.le
  have hLp : 0 < L := by rw [hL]; exact Real.sqrt_pos.2 hSr
  have hmp : 0 < m := lt_of_lt_of_le (two_zpow_pos _) m0
  have hsq : (squares v).sqrt = .num m := by rw [← magnitude_eq, hm]
  have hdiv : v.z.div (.num m) = .num c := by
    have h2 : (if (Dbl.num 0).less (squares v).sqrt then some (v.z.div (squares v).sqrt) else none) = some (.num c) := hpol
    rw [hsq, if_pos (by simpa [Dbl.less] using hmp)] at h2
    exact Option.some.inj h2
  have hform : v.toAngular I old s = ⟨I.atan2 v.y v.x, if s = .spherical then I.acos (.num c) else I.asin (.num c), .num m⟩ := by
    have : v.toAngular I old s = ⟨I.atan2 v.y v.x, if (Dbl.num 0).less (squares v).sqrt then (if s = .spherical then I.acos (v.z.div (squares v).sqrt)
        else I.asin (v.z.div (squares v).sqrt)) else old, (squares v).sqrt⟩ := by
      cases s
      · exact absurd rfl hs
      · rfl
      · rfl
    rw [this, hsq, if_pos (by simpa [Dbl.less] using hmp), hdiv]
  obtain ⟨q, hq, dq, eq⟩ : Near (if s = .spherical then I.acos (.num c) else I.asin (.num c)) (if s = .spherical then Real.arccos c else Real.arcsin c) (2 * unit53) := by
    rw [← two]
    split
    · exact hI.acos c dc c1
    · exact hI.asin c dc c1
  have u0 := unit53_pos
  have u1 := unit53_small
  have hLhi : L ≤ 2 ^ (500 : ℤ) := by
    rw [hL]
    apply Real.sqrt_le_iff.2
    refine ⟨(two_zpow_real _).le, ?_⟩
    have := (Rat.cast_le (K := ℝ)).2 hhi
    rw [Rat.cast_zpow, Rat.cast_ofNat] at this
    push_cast at this
    refine this.trans (le_of_eq ?_)
    rw [sq, ← zpow_add₀ (by norm_num)]
    norm_num
  refine ⟨m, c, k, p, q, ?_, dp, dq, dm, ⟨?_, ?_⟩, he, ?_, ?_, ep, eq⟩
  · rw [hform, hq, h.1]
    dsimp only
    rw [hp]
  · rw [abs_of_pos hmp]
    exact (zpow_le_zpow_right₀ (by norm_num) (by norm_num)).trans m0
  · rw [abs_of_pos hmp]
    have h1 : (m : ℝ) ≤ 2 ^ (900 : ℤ) := by
      have h2 := (abs_le.1 he).2
      have h3 : L * (4 * unit53) ≤ L * 1 := mul_le_mul_of_nonneg_left (by linarith) hLp.le
      have h4 : (m : ℝ) ≤ 2 * 2 ^ (500 : ℤ) := by linarith
      refine h4.trans ?_
      have h5 : (2 : ℝ) * 2 ^ (500 : ℤ) = 2 ^ (501 : ℤ) := by
        rw [show (501 : ℤ) = 1 + 500 by norm_num, zpow_add₀ (by norm_num : (2 : ℝ) ≠ 0), zpow_one]
      rw [h5]
      exact zpow_le_zpow_right₀ (by norm_num) (by norm_num)
    have : ((m : ℚ) : ℝ) ≤ (((2 : ℚ) ^ (900 : ℤ) : ℚ) : ℝ) := by
      rw [Rat.cast_zpow, Rat.cast_ofNat]
      exact h1
    exact (Rat.cast_le (K := ℝ)).1 this
  · have := (Rat.cast_le (K := ℝ)).2 c1
    push_cast at this
    exact this
  · have hz := (polar_parts hLp hLL).1
    rw [abs_div, abs_of_pos hLp] at hz
    have h8 : (2 : ℝ) ^ (-50 : ℤ) = 8 * unit53 := by norm_num [unit53]
    have hsp : (2 : ℝ) ^ (-1075 : ℤ) ≤ 1 / 10 * unit53 := by
      have := speck_unit
      have e : ((speck : ℚ) : ℝ) = 2 ^ (-1075 : ℤ) := by rw [speck, Rat.cast_zpow, Rat.cast_ofNat]
      rw [e] at this
      refine this.trans ?_
      have : unit53 / 2 ^ 20 = 1 / 2 ^ 20 * unit53 := by ring
      rw [this]
      exact mul_le_mul_of_nonneg_right (by norm_num) u0.le
    rw [h8] at ec
    have : 8 * unit53 * (|(z : ℝ)| / L) ≤ 8 * unit53 * 1 := mul_le_mul_of_nonneg_left hz (by linarith)
    linarith

/-- There and back. -/
theorem trip_parts {T : Trig} {I : InverseTrig} (hT : Accurate T) (hI : AccurateInverse I) (old : Dbl) {s : Coord.System} (hs : s ≠ .cartesian) {v : DVec}
    {x y z : ℚ} (h : Coords v x y z) (hlo : 2 ^ (-960 : ℤ) ≤ x * x + y * y + z * z) (hhi : x * x + y * y + z * z ≤ 2 ^ (1000 : ℤ)) (L : ℝ)
    (hL : L = √(x * x + y * y + z * z : ℝ)) :
    ∃ (x' y' z' : ℚ) (S : ℝ), Coords ((v.toAngular I old s).toCartesian T s) x' y' z' ∧ S ^ 2 ≤ 18 * unit53 ∧ 0 ≤ S ∧
      S * √(x * x + y * y : ℝ) ≤ L * (17 * unit53) ∧
      |(x' : ℝ) - x| ≤ L * (S + 14 * unit53) ∧ |(y' : ℝ) - y| ≤ L * (S + 14 * unit53) ∧ |(z' : ℝ) - z| ≤ L * (21 * unit53) := by
  obtain ⟨m, c, k, p, q, hform, dp, dq, dm, mm, em, c1, ec, ep, eq⟩ := angular_parts hI old hs h hlo hhi L hL
  have u0 := unit53_pos
  have u1 := unit53_small
  have hS0 : 0 < x * x + y * y + z * z := lt_of_lt_of_le (two_zpow_pos _) hlo
  have hSr : (0 : ℝ) < (x * x + y * y + z * z : ℝ) := by exact_mod_cast hS0
  have hLL : L * L = x * x + y * y + z * z := by rw [hL]; exact Real.mul_self_sqrt hSr.le
  have hLp : 0 < L := by rw [hL]; exact Real.sqrt_pos.2 hSr
  obtain ⟨hz, hrho, hx, hy⟩ := polar_parts hLp hLL
  obtain ⟨r1, r2⟩ := root_spread c1 hz ec
  have d1 : |√(1 - (z : ℝ) / L * (z / L))| ≤ 1 := by
    rw [abs_of_nonneg (Real.sqrt_nonneg _)]
    apply Real.sqrt_le_one.2
    linarith [mul_self_nonneg ((z : ℝ) / L)]
  have hcp : |Real.cos p - Real.cos (Coord.atan2 y x)| ≤ 2 * unit53 := by
    have e : Real.cos (Coord.atan2 y x) = Real.cos (Coord.atan2 y x + 2 * Real.pi * k) := by
      rw [show 2 * Real.pi * (k : ℝ) = k * (2 * Real.pi) by ring, Real.cos_add_int_mul_two_pi]
    rw [e]
    exact (Real.abs_cos_sub_cos_le _ _).trans ep
  have hsp : |Real.sin p - Real.sin (Coord.atan2 y x)| ≤ 2 * unit53 := by
    have e : Real.sin (Coord.atan2 y x) = Real.sin (Coord.atan2 y x + 2 * Real.pi * k) := by
      rw [show 2 * Real.pi * (k : ℝ) = k * (2 * Real.pi) by ring, Real.sin_add_int_mul_two_pi]
    rw [e]
    exact (Real.abs_sin_sub_sin_le _ _).trans ep
  obtain ⟨ts, tc⟩ := hT p dp
  obtain ⟨us, uc⟩ := hT q dq
  rw [show (2 : ℝ) ^ (-53 : ℤ) = unit53 from rfl] at ts tc us uc
  obtain ⟨lo, hi⟩ := abs_le.1 c1
  -- sine and cosine of the second angle, in the order the system uses them
  obtain ⟨a, b, A, B, hA, hB, A1, B1, eA, eB, hcart⟩ : ∃ (a b : Dbl) (A B : ℝ), Near a A unit53 ∧ Near b B unit53 ∧ |A| ≤ 1 ∧ |B| ≤ 1 ∧
      |A - √(1 - (c : ℝ) * c)| ≤ 2 * unit53 ∧ |B - c| ≤ 2 * unit53 ∧
      DSph.toCartesian T s ⟨.num p, .num q, .num m⟩ = ⟨((Dbl.num m).mul a).mul (T.cos (.num p)), ((Dbl.num m).mul a).mul (T.sin (.num p)), (Dbl.num m).mul b⟩ := by
    cases s with
    | cartesian => exact absurd rfl hs
    | spherical =>
      rw [if_pos rfl] at eq
      refine ⟨_, _, _, _, us, uc, Real.abs_sin_le_one _, Real.abs_cos_le_one _, ?_, ?_, rfl⟩
      · have := (Real.abs_sin_sub_sin_le _ _).trans eq
        rwa [Real.sin_arccos, sq] at this
      · have := (Real.abs_cos_sub_cos_le _ _).trans eq
        rwa [Real.cos_arccos lo hi] at this
    | equatorial =>
      rw [if_neg (by decide)] at eq
      refine ⟨_, _, _, _, uc, us, Real.abs_cos_le_one _, Real.abs_sin_le_one _, ?_, ?_, rfl⟩
      · have := (Real.abs_cos_sub_cos_le _ _).trans eq
        rwa [Real.cos_arcsin, sq] at this
      · have := (Real.abs_sin_sub_sin_le _ _).trans eq
        rwa [Real.sin_arcsin lo hi] at this
  obtain ⟨x', hx', dx', ex'⟩ := scaled_two mm hA A1 tc (Real.abs_cos_le_one _)
  obtain ⟨y', hy', dy', ey'⟩ := scaled_two mm hA A1 ts (Real.abs_sin_le_one _)
  obtain ⟨z', hz', dz', ez'⟩ := scaled_one mm hB B1
  have eS : |A - √(1 - (z : ℝ) / L * (z / L))| ≤ |√(1 - (c : ℝ) * c) - √(1 - (z : ℝ) / L * (z / L))| + 2 * unit53 := by
    have e : A - √(1 - (z : ℝ) / L * (z / L)) = (A - √(1 - (c : ℝ) * c)) + (√(1 - (c : ℝ) * c) - √(1 - (z : ℝ) / L * (z / L))) := by ring
    rw [e]
    exact (abs_add_le _ _).trans (by linarith)
  have e3 : |B - z / L| ≤ 11 * unit53 := by
    have e : B - z / L = (B - c) + (c - z / L) := by ring
    rw [e]
    exact (abs_add_le _ _).trans (by linarith)
  refine ⟨x', y', z', |√(1 - (c : ℝ) * c) - √(1 - (z : ℝ) / L * (z / L))|, ⟨by rw [hform, hcart, hx', hy', hz'], dx', dy', dz'⟩, ?_, abs_nonneg _, ?_, ?_, ?_, ?_⟩
  · rw [sq_abs]
    linarith
  · rw [← hrho]
    have e : ∀ t w : ℝ, t * (L * w) = L * (t * w) := fun t w => by ring
    rw [e]
    exact mul_le_mul_of_nonneg_left (by linarith) hLp.le
  · have := product_near hLp em d1 A1 (Real.abs_cos_le_one _) eS hcp ex'
    rw [hx] at this
    refine this.trans (mul_le_mul_of_nonneg_left (by linarith) hLp.le)
  · have := product_near hLp em d1 A1 (Real.abs_sin_le_one _) eS hsp ey'
    rw [hy] at this
    refine this.trans (mul_le_mul_of_nonneg_left (by linarith) hLp.le)
  · have := third_near hLp em B1 e3 ez'
    rw [mul_div_cancel₀ _ hLp.ne'] at this
    refine this.trans (mul_le_mul_of_nonneg_left (by linarith) hLp.le)

/-- Numbers of size up to 4 have a double nearby. -/
theorem near_grid_four (r : ℝ) (h : |r| ≤ 4) : ∃ y : ℚ, Near (.num y) r (2 ^ (-52 : ℤ)) := by
  obtain ⟨y, hy, he⟩ := near_grid (r / 4) (by rw [abs_div, abs_of_pos (by norm_num : (0 : ℝ) < 4)]; linarith)
  have y2 : |y| ≤ 2 := by
    have h1 : |(y : ℝ)| ≤ 2 := by
      have e : (y : ℝ) = (y - r / 4) + r / 4 := by ring
      rw [e]
      refine (abs_add_le _ _).trans ?_
      rw [abs_div, abs_of_pos (by norm_num : (0 : ℝ) < 4)]
      have := unit53_small
      linarith
    exact_mod_cast h1
  have big : (8 : ℚ) ≤ 2 ^ 1022 := le_trans (by norm_num : (8 : ℚ) ≤ 2 ^ 3) (pow_le_pow_right₀ (by norm_num) (by norm_num))
  have d2 := isDouble_double hy (y2.trans (le_trans (by norm_num) big))
  have d4 := isDouble_double d2 (by rw [abs_mul, abs_two]; exact le_trans (by linarith) big)
  refine ⟨2 * (2 * y), 2 * (2 * y), rfl, d4, ?_⟩
  have e : ((2 * (2 * y) : ℚ) : ℝ) - r = 4 * (y - r / 4) := by push_cast; ring
  rw [e, abs_mul, abs_of_pos (by norm_num : (0 : ℝ) < 4), show (2 : ℝ) ^ (-52 : ℤ) = 2 * unit53 by norm_num [unit53]]
  linarith

theorem inverse_exists : ∃ I : InverseTrig, AccurateInverse I := by
  have p4 : Real.pi ≤ 4 := Real.pi_le_four
  have p0 := Real.pi_pos
  have h1 : ∀ c : ℚ, ∃ y : ℚ, Near (.num y) (Real.arccos c) (2 ^ (-52 : ℤ)) := fun c => near_grid_four _ (by
    rw [abs_of_nonneg (Real.arccos_nonneg _)]
    exact (Real.arccos_le_pi _).trans p4)
  have h2 : ∀ c : ℚ, ∃ y : ℚ, Near (.num y) (Real.arcsin c) (2 ^ (-52 : ℤ)) := fun c => near_grid_four _ (by
    have a := Real.arcsin_le_pi_div_two c
    have b := Real.neg_pi_div_two_le_arcsin c
    rw [abs_le]
    constructor <;> linarith)
  have h3 : ∀ b a : ℚ, ∃ y : ℚ, Near (.num y) (Coord.atan2 b a) (2 ^ (-52 : ℤ)) := fun b a => near_grid_four _ ((Complex.abs_arg_le_pi _).trans p4)
  choose f hf using h1
  choose g hg using h2
  choose k hk using h3
  refine ⟨⟨fun d => match d with | .num c => .num (f c) | _ => .nan, fun d => match d with | .num c => .num (g c) | _ => .nan,
    fun d e => match d, e with | .num b, .num a => .num (k b a) | _, _ => .nan⟩, ⟨fun c _ _ => hf c, fun c _ _ => hg c, fun b a _ _ => ⟨0, ?_⟩⟩⟩
  have e : Coord.atan2 (b : ℝ) a + 2 * Real.pi * ((0 : ℤ) : ℝ) = Coord.atan2 b a := by simp
  rw [e]
  exact hk b a

/-- A sum of squares next to one. -/
theorem squares_axis {x y : ℚ} (hx : |x| ≤ 2 ^ (-27 : ℤ)) (hy : |y| ≤ 2 ^ (-27 : ℤ)) : squares ⟨.num x, .num y, .num 1⟩ = .num 1 := by
  have key : ∀ t : ℚ, |t| ≤ 2 ^ (-27 : ℤ) → ∃ p, (Dbl.num t).mul (.num t) = .num p ∧ 0 ≤ p ∧ p ≤ 2 ^ (-54 : ℤ) := by
    intro t ht
    have h0 : 0 ≤ t * t := mul_self_nonneg t
    have h1 : t * t ≤ 2 ^ (-54 : ℤ) := by
      rw [← abs_mul_abs_self, show (-54 : ℤ) = -27 + -27 by norm_num, zpow_add₀ (by norm_num)]
      exact mul_le_mul ht ht (abs_nonneg _) (two_zpow_pos _).le
    refine ⟨ieee.rnd (t * t), ?_, ?_, ?_⟩
    · rw [mul_num, round_top]
      rw [abs_of_nonneg h0]
      exact h1.trans (zpow_le_zpow_right₀ (by norm_num) (by norm_num))
    · have := ieee.rounding.mono _ _ h0
      rwa [ieee.rounding.exact 0 isDouble_zero] at this
    · have := ieee.rounding.mono _ _ h1
      rwa [ieee.rounding.exact (2 ^ (-54 : ℤ)) ⟨1, -54, by norm_num, by norm_num, by norm_num, by norm_num⟩] at this
  obtain ⟨p, hp, p0, p1⟩ := key x hx
  obtain ⟨q, hq, q0, q1⟩ := key y hy
  have two54 : (2 : ℚ) ^ (-54 : ℤ) + 2 ^ (-54 : ℤ) = 2 ^ (-53 : ℤ) := by norm_num
  have hs1 : p + q ≤ 2 ^ (-53 : ℤ) := by rw [← two54]; exact add_le_add p1 q1
  have hs : ∃ t, (Dbl.num p).add (.num q) = .num t ∧ 0 ≤ t ∧ t ≤ 2 ^ (-53 : ℤ) := by
    refine ⟨ieee.rnd (p + q), ?_, ?_, ?_⟩
    · rw [add_num, round_top]
      rw [abs_of_nonneg (add_nonneg p0 q0)]
      exact hs1.trans (zpow_le_zpow_right₀ (by norm_num) (by norm_num))
    · have := ieee.rounding.mono _ _ (add_nonneg p0 q0)
      rwa [ieee.rounding.exact 0 isDouble_zero] at this
    · have := ieee.rounding.mono _ _ hs1
      rwa [ieee.rounding.exact (2 ^ (-53 : ℤ)) ⟨1, -53, by norm_num, by norm_num, by norm_num, by norm_num⟩] at this
  obtain ⟨t, ht, t0, t1⟩ := hs
  unfold squares
  dsimp only
  have h1 : (Dbl.num 1).mul (.num 1) = .num 1 := by rw [mul_num, one_mul, round_exact isDouble_one]
  have htop : |1 + (2 : ℚ) ^ (-53 : ℤ)| ≤ 2 ^ (1023 : ℤ) := by
    have : |1 + (2 : ℚ) ^ (-53 : ℤ)| ≤ 2 ^ (1 : ℤ) := by
      rw [abs_of_pos (by positivity)]
      norm_num
    exact this.trans (zpow_le_zpow_right₀ (by norm_num) (by norm_num))
  have hlo := ieee.rounding.mono 1 (t + 1) (by linarith)
  have hhi := ieee.rounding.mono (t + 1) (1 + 2 ^ (-53 : ℤ)) (by linarith)
  have e2 : ieee.rnd (1 + 2 ^ (-53 : ℤ)) = 1 := by
    have h2 : Dbl.round (1 + 2 ^ (-53 : ℤ)) = .num 1 := by decide +kernel
    rw [round_top htop] at h2
    exact Dbl.num.inj h2
  rw [ieee.rounding.exact 1 isDouble_one] at hlo
  have e3 : ieee.rnd (t + 1) = 1 := le_antisymm (le_trans hhi e2.le) hlo
  rw [hp, hq, ht, h1, add_num, round_top, e3]
  rw [abs_of_pos (by linarith)]
  rw [abs_of_pos (by positivity)] at htop
  linarith

theorem sph_eq {w : DSph} {a b c : Dbl} (h0 : w.c0 = a) (h1 : w.c1 = b) (h2 : w.c2 = c) : w = ⟨a, b, c⟩ := by
  cases w
  subst h0 h1 h2
  rfl

end Astro
