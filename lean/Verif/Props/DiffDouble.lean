import Verif.Lemmas.DiffDouble
import Verif.Props.RepDouble

/-
C128: differentials in double arithmetic.
-/

set_option exponentiation.threshold 3000

namespace Astro

open Spec Time

attribute [local irreducible] FloatFmt.nearest FloatFmt.value Dbl.round

/-- The Cartesian coordinates of a differential. -/
theorem cartesian_chord {T : Trig} (hT : Accurate T) {s : Coord.System} {p : DSph} {v : Coord.Vec} (hp : Stands3 s p v) (v1 : (2 : ℝ) ^ (-900 : ℤ) ≤ size v)
    (v2 : size v ≤ 2 ^ (900 : ℤ)) : ∃ x y z : ℚ, Coords (p.toCartesian T s) x y z ∧ chord (vec x y z) v ≤ size v * (9 * unit53) := by
  obtain ⟨x, y, z, h, e1, e2, e3⟩ := stored_near hT hp v1 v2
  refine ⟨x, y, z, h, (chord_le_of (v := vec x y z) e1 e2 e3).trans ?_⟩
  have := mul_nonneg (size_nonneg v) unit53_pos.le
  linarith

/-- **C128.** A differential times a number: within 2^-23 of the exact product, within 2^-45 away from the polar axis. -/
theorem C128_times {T : Trig} {I : InverseTrig} (hT : Accurate T) (hI : AccurateInverse I) (junk : Dbl) (s : Coord.System) (p : DSph) (v : Coord.Vec) (k : ℚ)
    (hp : Stands3 s p v) (hv : Between 300 v) (hk : 2 ^ (-100 : ℤ) ≤ |(k : ℝ)|) (hk' : |(k : ℝ)| ≤ 2 ^ (100 : ℤ)) :
    ∃ z, Stands3 s (p.times T I junk s (.num k)) z ∧ chord z ((k : ℝ) • v) ≤ size ((k : ℝ) • v) * 2 ^ (-23 : ℤ) ∧
      (size v / 3 ≤ √(v 0 ^ 2 + v 1 ^ 2) → chord z ((k : ℝ) • v) ≤ size ((k : ℝ) • v) * 2 ^ (-45 : ℤ)) := by
  have u0 := unit53_pos
  have u1 := unit53_small
  have V0 : 0 < size v := lt_of_lt_of_le (by positivity) hv.1
  have k0 : 0 < |(k : ℝ)| := lt_of_lt_of_le (by positivity) hk
  have kv : (2 : ℝ) ^ (-400 : ℤ) ≤ |(k : ℝ)| * size v := by
    have := mul_le_mul hk hv.1 (by positivity) k0.le
    rwa [← zpow_add₀ (by norm_num), show (-100 + -300 : ℤ) = -400 by norm_num] at this
  have kv' : |(k : ℝ)| * size v ≤ 2 ^ (400 : ℤ) := by
    have := mul_le_mul hk' hv.2 V0.le (by positivity)
    rwa [← zpow_add₀ (by norm_num), show (100 + 300 : ℤ) = 400 by norm_num] at this
  have tiny : (2 : ℝ) ^ (-1075 : ℤ) ≤ |(k : ℝ)| * size v * (1 / 8 * unit53) := by
    refine le_trans ?_ (mul_le_mul_of_nonneg_right kv (by positivity))
    norm_num [unit53]
  have K0 := mul_pos k0 V0
  rw [size_smul]
  by_cases hs : s = .cartesian
  · subst hs
    obtain ⟨a, b, r, rfl, da, db, dr, rfl⟩ := hp
    obtain ⟨c0, c1, c2⟩ := coord_le_size (position .cartesian a b r)
    have part : ∀ {t : ℚ}, |(t : ℝ)| ≤ size (position .cartesian a b r) → ∃ q : ℚ, (Dbl.num t).mul (.num k) = .num q ∧ IsDouble q ∧
        |(q : ℝ) - k * t| ≤ |(k : ℝ)| * size (position .cartesian a b r) * (2 * unit53) := by
      intro t ht
      have h1 : |(t : ℝ) * k| ≤ |(k : ℝ)| * size (position .cartesian a b r) := by
        rw [abs_mul, mul_comm]
        exact mul_le_mul_of_nonneg_left ht k0.le
      obtain ⟨q, hq, dq, eq⟩ := scaled_near (h1.trans (kv'.trans (zpow_le_zpow_right₀ (by norm_num) (by norm_num))))
      refine ⟨q, hq, dq, ?_⟩
      rw [mul_comm (k : ℝ) (t : ℝ)]
      have h2 := mul_le_mul_of_nonneg_right h1 u0.le
      have h3 := mul_pos K0 u0
      clear kv kv' hk hk'
      generalize (2 : ℝ) ^ (-1075 : ℤ) = ε at *
      linarith
    obtain ⟨x, hx, dx, ex⟩ := part c0
    obtain ⟨y, hy, dy, ey⟩ := part c1
    obtain ⟨z, hz, dz, ez⟩ := part c2
    have main : chord (position .cartesian x y z) ((k : ℝ) • position .cartesian a b r) ≤ 7 / 4 * (|(k : ℝ)| * size (position .cartesian a b r) * (2 * unit53)) :=
      chord_le_of (by simpa [position] using ex) (by simpa [position] using ey) (by simpa [position] using ez)
    have P := mul_pos K0 u0
    refine ⟨_, ⟨x, y, z, ?_, dx, dy, dz, rfl⟩, main.trans ?_, fun _ => main.trans ?_⟩
    · show (⟨(Dbl.num a).mul (.num k), (Dbl.num b).mul (.num k), (Dbl.num r).mul (.num k)⟩ : DSph) = _
      rw [hx, hy, hz]
    · have : |(k : ℝ)| * size (position .cartesian a b r) * (4 * unit53) ≤ |(k : ℝ)| * size (position .cartesian a b r) * 2 ^ (-23 : ℤ) :=
        mul_le_mul_of_nonneg_left (by norm_num [unit53]) K0.le
      refine le_trans ?_ this
      linarith
    · rw [pow45]
      linarith
  · obtain ⟨w1, w2⟩ := between_wide (by norm_num) hv
    obtain ⟨x, y, z, hc, ec⟩ := cartesian_chord hT hp w1 w2
    obtain ⟨w, hw, f1, f2⟩ := back_exact_near hI junk (s := s) hc ec
      (by have := mul_le_mul_of_nonneg_left (show 15 * (9 * unit53) ≤ 1 by linarith) V0.le; linarith)
      (le_trans (zpow_le_zpow_right₀ (by norm_num) (by norm_num)) hv.1) (hv.2.trans (zpow_le_zpow_right₀ (by norm_num) (by norm_num)))
    obtain ⟨a, b, r, hpt, da, db, dr, rfl⟩ := hw
    have near : chord (position s a b r) v ≤ size v * (1 / 1000) := by
      refine f1.trans ?_
      have := mul_le_mul_of_nonneg_left (show 7 / 8 * 2 ^ (-23 : ℤ) + 9 / 8 * (9 * unit53) ≤ (1 / 1000 : ℝ) by norm_num [unit53]) V0.le
      linarith
    have hr : |(r : ℝ)| ≤ size v * (1001 / 1000) := by
      have := size_sub (position s a b r) v
      rw [position_size s hs] at this
      linarith
    have hrk : |(r : ℝ) * k| ≤ |(k : ℝ)| * size v * (1001 / 1000) := by
      rw [abs_mul, mul_comm, mul_assoc]
      exact mul_le_mul_of_nonneg_left hr k0.le
    obtain ⟨q, hq, dq, eq⟩ := scaled_near (x := r) (k := k) (hrk.trans (by
      have : (2 : ℝ) ^ (400 : ℤ) * 2 ≤ 2 ^ (1000 : ℤ) := by norm_num
      linarith))
    have P := mul_pos K0 u0
    have eq' : |(q : ℝ) - k * r| ≤ |(k : ℝ)| * size v * (2 * unit53) := by
      rw [mul_comm (k : ℝ) (r : ℝ)]
      have h2 := mul_le_mul_of_nonneg_right hrk u0.le
      clear kv kv' hk hk' w1 w2 f1 f2
      generalize (2 : ℝ) ^ (-1075 : ℤ) = ε at *
      linarith
    have main : chord (position s a b q) ((k : ℝ) • v) ≤ |(k : ℝ)| * size v * (2 * unit53) + |(k : ℝ)| * chord (position s a b r) v := by
      refine (chord_triangle _ ((k : ℝ) • position s a b r) _).trans (add_le_add ?_ (le_of_eq (chord_smul _ _ _)))
      rw [position_smul s hs, position_chord s hs]
      exact eq'
    refine ⟨_, ⟨a, b, q, ?_, da, db, dq, rfl⟩, main.trans ?_, fun ha => main.trans ?_⟩
    · have e : p.times T I junk s (.num k) = ⟨(DSph.ofPoint T I junk s s p).c0, (DSph.ofPoint T I junk s s p).c1, (DSph.ofPoint T I junk s s p).c2.mul (.num k)⟩ := by
        cases s with
        | cartesian => exact absurd rfl hs
        | spherical => rfl
        | equatorial => rfl
      have e2 : DSph.ofPoint T I junk s s p = ⟨.num a, .num b, .num r⟩ := hpt
      rw [e, e2]
      dsimp only
      rw [hq]
    · have h1 := mul_le_mul_of_nonneg_left f1 k0.le
      have h2 := mul_le_mul_of_nonneg_left (show 2 * unit53 + (7 / 8 * 2 ^ (-23 : ℤ) + 9 / 8 * (9 * unit53)) ≤ (2 : ℝ) ^ (-23 : ℤ) by norm_num [unit53]) K0.le
      clear kv kv' hk hk' w1 w2 f1 f2 tiny eq
      generalize (2 : ℝ) ^ (-23 : ℤ) = ε at *
      linarith
    · have h1 := mul_le_mul_of_nonneg_left (f2 ha) k0.le
      rw [pow45]
      linarith

/-- **C128.** The magnitude of a differential of any kind is accurate to a fraction of 2^-49. -/
theorem C128_magnitude {T : Trig} (hT : Accurate T) (s : Coord.System) (p : DSph) (v : Coord.Vec) (hp : Stands3 s p v) (hv : Between 400 v) :
    ∃ m : ℚ, p.diffMagnitude T s = .num m ∧ |(m : ℝ) - size v| ≤ size v * 2 ^ (-49 : ℤ) := by
  have u0 := unit53_pos
  have u1 := unit53_small
  have V0 : 0 < size v := lt_of_lt_of_le (by positivity) hv.1
  obtain ⟨w1, w2⟩ := between_wide (by norm_num) hv
  obtain ⟨x, y, z, hc, ec⟩ := cartesian_chord hT hp w1 w2
  have small := mul_le_mul_of_nonneg_left (show 9 * unit53 ≤ 1 / 100 by linarith) V0.le
  have a1 := size_sub (vec x y z) v
  have a2 := size_sub v (vec x y z)
  rw [chord_comm] at a2
  obtain ⟨r1, r2⟩ := vec_range (x := x) (y := y) (z := z) (by
      have : (2 : ℝ) ^ (-480 : ℤ) * 2 ≤ 2 ^ (-(400 : ℤ)) := by norm_num
      have := hv.1
      linarith) (by
      have : (2 : ℝ) ^ (400 : ℤ) * 2 ≤ 2 ^ (500 : ℤ) := by norm_num
      have := hv.2
      linarith)
  obtain ⟨m, hm, em, -⟩ := C106_error _ x y z hc r1 r2
  refine ⟨m, by rw [diffMagnitude_eq hc, hm], ?_⟩
  rw [← vec_size, show (2 : ℝ) ^ (-51 : ℤ) = 4 * unit53 by norm_num [unit53]] at em
  rw [pow49]
  have e1 : (m : ℝ) - size v = (m - size (vec x y z)) + (size (vec x y z) - size v) := by ring
  have e2 : |size (vec x y z) - size v| ≤ size v * (9 * unit53) := by rw [abs_le]; constructor <;> linarith
  rw [e1]
  refine (abs_add_le _ _).trans ((add_le_add em e2).trans ?_)
  have h1 : 4 * unit53 * size (vec x y z) ≤ 4 * unit53 * (size v * (101 / 100)) := mul_le_mul_of_nonneg_left (by linarith) (by positivity)
  have := mul_pos V0 u0
  linarith

/-- **C128.** The unit vector of a differential, in any system: within 2^-23 of the exact direction, within 2^-45 away from the polar axis. -/
theorem C128_unit {T : Trig} {I : InverseTrig} (hT : Accurate T) (hI : AccurateInverse I) (junk : Dbl) (target s : Coord.System) (p : DSph) (v : Coord.Vec)
    (hp : Stands3 s p v) (hv : Between 400 v) :
    ∃ z, Stands3 target (p.diffUnit T I junk target s) z ∧ chord z ((1 / size v) • v) ≤ 2 ^ (-23 : ℤ) ∧
      (size v / 3 ≤ √(v 0 ^ 2 + v 1 ^ 2) → chord z ((1 / size v) • v) ≤ 2 ^ (-45 : ℤ)) := by
  have u0 := unit53_pos
  have u1 := unit53_small
  have V0 : 0 < size v := lt_of_lt_of_le (by positivity) hv.1
  obtain ⟨w1, w2⟩ := between_wide (by norm_num) hv
  obtain ⟨x, y, z, hc, ec⟩ := cartesian_chord hT hp w1 w2
  have small := mul_le_mul_of_nonneg_left (show 9 * unit53 ≤ 1 / 100 by linarith) V0.le
  have a1 := size_sub (vec x y z) v
  have a2 := size_sub v (vec x y z)
  rw [chord_comm] at a2
  obtain ⟨r1, r2⟩ := vec_range (x := x) (y := y) (z := z) (by
      have : (2 : ℝ) ^ (-480 : ℤ) * 2 ≤ 2 ^ (-(400 : ℤ)) := by norm_num
      have := hv.1
      linarith) (by
      have : (2 : ℝ) ^ (400 : ℤ) * 2 ≤ 2 ^ (500 : ℤ) := by norm_num
      have := hv.2
      linarith)
  obtain ⟨a, b, c, hu, -, -, -, -, ea, eb, ecc, -⟩ := C107_error _ x y z hc r1 r2 _ rfl
  rw [← vec_size] at ea eb ecc
  have L0 : 0 < size (vec x y z) := by linarith
  obtain ⟨b0, b1, b2⟩ := coord_le_size (vec x y z)
  have part : ∀ {t T' : ℝ}, |T'| ≤ size (vec x y z) → |t - T' / size (vec x y z)| ≤ 2 ^ (-50 : ℤ) * (|T'| / size (vec x y z)) + 2 ^ (-1075 : ℤ) →
      |t - 1 / size (vec x y z) * T'| ≤ 9 * unit53 := by
    intro t T' h1 h2
    have h3 : |T'| / size (vec x y z) ≤ 1 := (div_le_one L0).2 h1
    have h4 : (2 : ℝ) ^ (-50 : ℤ) * (|T'| / size (vec x y z)) ≤ 2 ^ (-50 : ℤ) * 1 := mul_le_mul_of_nonneg_left h3 (by positivity)
    have h5 : (2 : ℝ) ^ (-50 : ℤ) * 1 + 2 ^ (-1075 : ℤ) ≤ 9 * unit53 := by norm_num [unit53]
    rw [one_div_mul_eq_div]
    exact h2.trans ((add_le_add h4 le_rfl).trans h5)
  have c1 : chord (vec a b c) ((1 / size (vec x y z)) • vec x y z) ≤ 7 / 4 * (9 * unit53) := chord_le_of (part b0 ea) (part b1 eb) (part b2 ecc)
  have c2 : chord ((1 / size (vec x y z)) • vec x y z) ((1 / size v) • v) ≤ 18 * unit53 := by
    have e1 : chord ((1 / size (vec x y z)) • vec x y z) ((1 / size v) • vec x y z) = |1 / size (vec x y z) - 1 / size v| * size (vec x y z) := by
      rw [← size_smul, sub_smul]
      unfold size chord
      simp
    have e2 : |1 / size (vec x y z) - 1 / size v| * size (vec x y z) = |size v - size (vec x y z)| / size v := by
      rw [div_sub_div _ _ L0.ne' V0.ne', abs_div, abs_of_pos (mul_pos L0 V0), one_mul, mul_one]
      field_simp
    have e3 : |size v - size (vec x y z)| / size v ≤ 9 * unit53 := by
      rw [div_le_iff₀ V0, abs_le]
      constructor <;> linarith
    have e4 : chord ((1 / size v) • vec x y z) ((1 / size v) • v) ≤ 9 * unit53 := by
      rw [chord_smul, abs_of_pos (by positivity), one_div_mul_eq_div, div_le_iff₀ V0]
      linarith
    refine (chord_triangle _ ((1 / size v) • vec x y z) _).trans ?_
    rw [e1, e2]
    linarith
  have one : size ((1 / size v) • v) = 1 := by
    rw [size_smul, abs_of_pos (by positivity)]
    field_simp
  have E : chord (vec a b c) ((1 / size v) • v) ≤ 34 * unit53 := by
    have := chord_triangle (vec a b c) ((1 / size (vec x y z)) • vec x y z) ((1 / size v) • v)
    linarith
  have hd : p.diffUnit T I junk target s = (p.toCartesian T s).unitVector.toAngular I junk target := by
    show DVec.toAngular I junk target ⟨_, _, _⟩ = _
    rw [diffMagnitude_eq hc]
    rfl
  obtain ⟨w, hw, f1, f2⟩ := back_exact_near hI junk (s := target) hu E (by rw [one]; linarith) (by rw [one]; exact zpow_le_one_of_nonpos₀ (by norm_num) (by norm_num))
    (by rw [one]; exact one_le_zpow₀ (by norm_num) (by norm_num))
  rw [one, one_mul] at f1
  rw [one, one_mul, axis_smul, abs_of_pos (by positivity)] at f2
  refine ⟨w, by rw [hd]; exact hw, f1.trans (by norm_num [unit53]), fun ha => (f2 ?_).trans (by rw [pow45]; linarith)⟩
  rw [one_div_mul_eq_div, le_div_iff₀ V0]
  linarith

/-- **C128.** Times one is not the same differential: with the best possible sine and cosine all polar angles up to 2^-28 become that of the axis; it is zero when
`acos(1)` is zero, so none of them but zero is kept. -/
theorem C128_times_one {T : Trig} (hT : BestPossible T) (I : InverseTrig) (junk : Dbl) (φ θ : ℚ) (h0 : IsDouble φ) (h1 : IsDouble θ) (h : |θ| ≤ 2 ^ (-28 : ℤ)) :
    (DSph.times T I junk .spherical ⟨.num φ, .num θ, .num 1⟩ (.num 1)).c1 = (DVec.toAngular I junk .spherical ⟨.num 0, .num 0, .num 1⟩).c1 ∧
      (I.acos (.num 1) = .num 0 → (DSph.times T I junk .spherical ⟨.num φ, .num θ, .num 1⟩ (.num 1)).c1 = .num 0 ∧
        (θ ≠ 0 → DSph.times T I junk .spherical ⟨.num φ, .num θ, .num 1⟩ (.num 1) ≠ ⟨.num φ, .num θ, .num 1⟩)) := by
  have main : (DSph.times T I junk .spherical ⟨.num φ, .num θ, .num 1⟩ (.num 1)).c1 = (DVec.toAngular I junk .spherical ⟨.num 0, .num 0, .num 1⟩).c1 :=
    C118_polar hT I junk φ θ h0 h1 h
  refine ⟨main, fun ha => ?_⟩
  have z0 : |(0 : ℚ)| ≤ 2 ^ (-27 : ℤ) := by rw [abs_zero]; exact (two_zpow_pos _).le
  have axis : (DVec.toAngular I junk .spherical ⟨.num 0, .num 0, .num 1⟩).c1 = .num 0 := by
    have e1 : (squares ⟨.num 0, .num 0, .num 1⟩).sqrt = .num 1 := by rw [squares_axis z0 z0]; decide +kernel
    have e2 : (Dbl.num 1).div (.num 1) = .num 1 := by decide +kernel
    show (if (Dbl.num 0).less (squares ⟨.num 0, .num 0, .num 1⟩).sqrt then (if Coord.System.spherical = .spherical then
      I.acos ((Dbl.num 1).div (squares ⟨.num 0, .num 0, .num 1⟩).sqrt) else I.asin ((Dbl.num 1).div (squares ⟨.num 0, .num 0, .num 1⟩).sqrt)) else junk) = _
    rw [e1, if_pos (by simp [Dbl.less]), if_pos rfl, e2, ha]
  have zero := main.trans axis
  refine ⟨zero, fun hn he => hn ?_⟩
  rw [he] at zero
  exact Dbl.num.inj zero

/-- **C128.** A coslat differential with the azimuth `φ`, the product `w` of polar angle and cosine, and the length `r`, made Cartesian: the polar angle `w / cos φ`
is found again, and the error grows with the inverse square of the cosine. -/
theorem C128_coslat {T : Trig} (hT : Accurate T) (φ w r : ℚ) (h0 : IsDouble φ) (hc : 2 ^ (-20 : ℤ) ≤ |Real.cos φ|) (hw : |(w : ℝ)| ≤ 4)
    (hlo : 2 ^ (-900 : ℤ) ≤ |r|) (hhi : |r| ≤ 2 ^ (900 : ℤ)) :
    Close (DSph.cosLatCartesian T ⟨.num φ, .num w, .num r⟩) (position .spherical φ (w / Real.cos φ) r) (|(r : ℝ)| * (2 ^ (-48 : ℤ) / Real.cos φ ^ 2)) := by
  have u0 := unit53_pos
  obtain ⟨q, hq, dq, eq⟩ := cosLat_angle hT h0 hc hw
  have e : DSph.cosLatCartesian T ⟨.num φ, .num w, .num r⟩ = DSph.makeCartesian T .spherical ⟨.num φ, .num q, .num r⟩ := by
    show DSph.toCartesian T .spherical ⟨.num φ, (Dbl.num w).div (T.cos (.num φ)), .num r⟩ = _
    rw [hq]
    rfl
  have c0 : 0 < Real.cos φ ^ 2 := by
    rw [← sq_abs]
    exact pow_pos (lt_of_lt_of_le (by positivity) hc) 2
  have c1 : Real.cos φ ^ 2 ≤ 1 := Real.cos_sq_le_one _
  have main := C117_spherical hT φ q r h0 dq hlo hhi
  rw [e]
  have key : ∀ {d : Dbl} {i : Fin 3}, Near d (position .spherical φ q r i) (|(r : ℝ)| * 2 ^ (-50 : ℤ)) →
      Near d (position .spherical φ (w / Real.cos φ) r i) (|(r : ℝ)| * (2 ^ (-48 : ℤ) / Real.cos φ ^ 2)) := by
    rintro d i ⟨t, ht, dt, et⟩
    refine ⟨t, ht, dt, ?_⟩
    have h1 := position_close (s := .spherical) (by decide) (r := r) (show |(φ : ℝ) - φ| ≤ 0 by simp) eq i
    have e1 : (t : ℝ) - position .spherical φ (w / Real.cos φ) r i = (t - position .spherical φ q r i) + (position .spherical φ q r i - position .spherical φ (w / Real.cos φ) r i) := by ring
    rw [e1]
    refine (abs_add_le _ _).trans ((add_le_add et h1).trans ?_)
    rw [← mul_add]
    refine mul_le_mul_of_nonneg_left ?_ (abs_nonneg _)
    rw [pow48, show (2 : ℝ) ^ (-50 : ℤ) = 8 * unit53 by norm_num [unit53], zero_add, le_div_iff₀ c0, add_mul, div_mul_cancel₀ _ c0.ne']
    have := mul_le_mul_of_nonneg_left c1 (show 0 ≤ 8 * unit53 by positivity)
    linarith
  exact ⟨key (i := 0) main.1, key (i := 1) main.2.1, key (i := 2) main.2.2⟩

/-- Half the differential (3, 0, 4). -/
example (T : Trig) (I : InverseTrig) (junk : Dbl) : DSph.times T I junk .cartesian ⟨.num 3, .num 0, .num 4⟩ (.num (1 / 2)) = ⟨.num (3 / 2), .num 0, .num 2⟩ ∧
    DSph.diffMagnitude T .cartesian ⟨.num 3, .num 0, .num 4⟩ = .num 5 := by
  constructor
  · show (⟨(Dbl.num 3).mul (.num (1 / 2)), (Dbl.num 0).mul (.num (1 / 2)), (Dbl.num 4).mul (.num (1 / 2))⟩ : DSph) = _
    decide +kernel
  · show (((((Dbl.num 0).add ((Dbl.num 3).mul (.num 3))).add ((Dbl.num 0).mul (.num 0))).add ((Dbl.num 4).mul (.num 4))).sqrt) = _
    decide +kernel

end Astro
