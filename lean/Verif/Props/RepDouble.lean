import Verif.Lemmas.RepDouble

/-
C117 and C118: conversions between Cartesian and angular representations of doubles.
-/

set_option exponentiation.threshold 3000

namespace Astro

open Spec Time

attribute [local irreducible] FloatFmt.nearest FloatFmt.value Dbl.round Nat.sqrt

/-! ### C117: from angles to Cartesian coordinates -/

/-- **C117.** The Cartesian coordinates of a spherical representation are accurate to 2^-50 of the distance. -/
theorem C117_spherical {T : Trig} (hT : Accurate T) (φ θ r : ℚ) (h0 : IsDouble φ) (h1 : IsDouble θ) (hlo : 2 ^ (-900 : ℤ) ≤ |r|) (hhi : |r| ≤ 2 ^ (900 : ℤ)) :
    Close (DSph.makeCartesian T .spherical ⟨.num φ, .num θ, .num r⟩)
      ![r * Real.sin θ * Real.cos φ, r * Real.sin θ * Real.sin φ, r * Real.cos θ] (|(r : ℝ)| * 2 ^ (-50 : ℤ)) := by
  obtain ⟨ts, tc⟩ := hT φ h0
  obtain ⟨us, uc⟩ := hT θ h1
  have hb : |(r : ℝ)| * (5 * unit53) ≤ |(r : ℝ)| * 2 ^ (-50 : ℤ) := mul_le_mul_of_nonneg_left (by norm_num [unit53]) (abs_nonneg _)
  refine ⟨?_, ?_, ?_⟩
  · have := scaled_two ⟨hlo, hhi⟩ us (Real.abs_sin_le_one _) tc (Real.abs_cos_le_one _)
    rw [← mul_assoc] at this
    exact near_mono this hb
  · have := scaled_two ⟨hlo, hhi⟩ us (Real.abs_sin_le_one _) ts (Real.abs_sin_le_one _)
    rw [← mul_assoc] at this
    exact near_mono this hb
  · exact near_mono (scaled_one ⟨hlo, hhi⟩ uc (Real.abs_cos_le_one _)) hb

/-- **C117.** The same for an equatorial representation. -/
theorem C117_equatorial {T : Trig} (hT : Accurate T) (α δ r : ℚ) (h0 : IsDouble α) (h1 : IsDouble δ) (hlo : 2 ^ (-900 : ℤ) ≤ |r|) (hhi : |r| ≤ 2 ^ (900 : ℤ)) :
    Close (DSph.makeCartesian T .equatorial ⟨.num α, .num δ, .num r⟩)
      ![r * Real.cos δ * Real.cos α, r * Real.cos δ * Real.sin α, r * Real.sin δ] (|(r : ℝ)| * 2 ^ (-50 : ℤ)) := by
  obtain ⟨ts, tc⟩ := hT α h0
  obtain ⟨us, uc⟩ := hT δ h1
  have hb : |(r : ℝ)| * (5 * unit53) ≤ |(r : ℝ)| * 2 ^ (-50 : ℤ) := mul_le_mul_of_nonneg_left (by norm_num [unit53]) (abs_nonneg _)
  refine ⟨?_, ?_, ?_⟩
  · have := scaled_two ⟨hlo, hhi⟩ uc (Real.abs_cos_le_one _) tc (Real.abs_cos_le_one _)
    rw [← mul_assoc] at this
    exact near_mono this hb
  · have := scaled_two ⟨hlo, hhi⟩ uc (Real.abs_cos_le_one _) ts (Real.abs_sin_le_one _)
    rw [← mul_assoc] at this
    exact near_mono this hb
  · exact near_mono (scaled_one ⟨hlo, hhi⟩ us (Real.abs_sin_le_one _)) hb

/-- **C117.** With the best possible sine and cosine, a point on the polar axis or on the first axis is exact. -/
theorem C117_axis {T : Trig} (hT : BestPossible T) (φ r : ℚ) (h0 : IsDouble φ) (hr : IsDouble r) :
    DSph.makeCartesian T .spherical ⟨.num φ, .num 0, .num r⟩ = ⟨.num 0, .num 0, .num r⟩ ∧
      DSph.makeCartesian T .equatorial ⟨.num 0, .num 0, .num r⟩ = ⟨.num r, .num 0, .num 0⟩ := by
  have s0 : T.sin (.num 0) = .num 0 := closest_self (hT 0 isDouble_zero).1 isDouble_zero (by simp)
  have c0 : T.cos (.num 0) = .num 1 := closest_self (hT 0 isDouble_zero).2 isDouble_one (by simp)
  obtain ⟨a, ha, -⟩ := (hT φ h0).1
  obtain ⟨b, hb, -⟩ := (hT φ h0).2
  constructor
  · unfold DSph.makeCartesian DSph.toCartesian
    dsimp only
    rw [s0, c0, ha, hb, mul_num, mul_zero, round_zero, mul_num, zero_mul, round_zero, mul_num, zero_mul, round_zero, mul_num, mul_one, round_exact hr]
  · unfold DSph.makeCartesian DSph.toCartesian
    dsimp only
    rw [s0, c0, mul_num, mul_one, round_exact hr, mul_num, mul_one, round_exact hr, mul_num, mul_zero, round_zero]

/-- There are such functions, and with them the point at distance 5 on the polar axis is (0, 0, 5). -/
example : ∃ T : Trig, Accurate T ∧ DSph.makeCartesian T .spherical ⟨.num 1, .num 0, .num 5⟩ = ⟨.num 0, .num 0, .num 5⟩ := by
  obtain ⟨T, hT⟩ := best_exists
  exact ⟨T, best_accurate hT, (C117_axis hT 1 5 isDouble_one (by simpa using isDouble_int (i := 5) (by norm_num))).1⟩

/-! ### C118: to angles and back -/

/-- **C118.** A Cartesian point given to the constructor of an angular representation and taken back: the first two coordinates keep about half of the
digits, the third nearly all. -/
theorem C118_constructor {T : Trig} {I : InverseTrig} (hT : Accurate T) (hI : AccurateInverse I) (junk : Dbl) (s : Coord.System) (hs : s ≠ .cartesian) (v : DVec)
    (x y z : ℚ) (h : Coords v x y z) (hlo : 2 ^ (-960 : ℤ) ≤ x * x + y * y + z * z) (hhi : x * x + y * y + z * z ≤ 2 ^ (1000 : ℤ)) (L : ℝ)
    (hL : L = √(x * x + y * y + z * z : ℝ)) :
    ∃ x' y' z' : ℚ, Coords ((DSph.ofPoint T I junk s .cartesian ⟨v.x, v.y, v.z⟩).makeCartesian T s) x' y' z' ∧
      |(x' : ℝ) - x| ≤ L * 2 ^ (-24 : ℤ) ∧ |(y' : ℝ) - y| ≤ L * 2 ^ (-24 : ℤ) ∧ |(z' : ℝ) - z| ≤ L * 2 ^ (-48 : ℤ) := by
  have L0 : 0 ≤ L := by rw [hL]; exact Real.sqrt_nonneg _
  obtain ⟨x', y', z', S, hc, S1, S0, -, ex, ey, ez⟩ := trip_parts hT hI junk hs h hlo hhi L hL
  have hS : S + 14 * unit53 ≤ 2 ^ (-24 : ℤ) := by
    have h1 : S ≤ 3 / 4 * 2 ^ (-24 : ℤ) := by
      apply le_of_sq_le_sq _ (by positivity)
      refine S1.trans ?_
      norm_num [unit53]
    have h2 : 14 * unit53 ≤ 1 / 4 * 2 ^ (-24 : ℤ) := by norm_num [unit53]
    have h3 : (2 : ℝ) ^ (-24 : ℤ) = 3 / 4 * 2 ^ (-24 : ℤ) + 1 / 4 * 2 ^ (-24 : ℤ) := by ring
    rw [h3]
    exact add_le_add h1 h2
  have h48 : 21 * unit53 ≤ 2 ^ (-48 : ℤ) := by norm_num [unit53]
  exact ⟨x', y', z', hc, ex.trans (mul_le_mul_of_nonneg_left hS L0), ey.trans (mul_le_mul_of_nonneg_left hS L0), ez.trans (mul_le_mul_of_nonneg_left h48 L0)⟩

/-- **C118.** Away from the polar axis all of them keep nearly all digits. -/
theorem C118_away {T : Trig} {I : InverseTrig} (hT : Accurate T) (hI : AccurateInverse I) (junk : Dbl) (s : Coord.System) (hs : s ≠ .cartesian) (v : DVec)
    (x y z : ℚ) (h : Coords v x y z) (hlo : 2 ^ (-960 : ℤ) ≤ x * x + y * y + z * z) (hhi : x * x + y * y + z * z ≤ 2 ^ (1000 : ℤ)) (L : ℝ)
    (hL : L = √(x * x + y * y + z * z : ℝ)) (ha : L / 4 ≤ √(x * x + y * y : ℝ)) :
    ∃ x' y' z' : ℚ, Coords ((DSph.ofPoint T I junk s .cartesian ⟨v.x, v.y, v.z⟩).makeCartesian T s) x' y' z' ∧
      |(x' : ℝ) - x| ≤ L * 2 ^ (-46 : ℤ) ∧ |(y' : ℝ) - y| ≤ L * 2 ^ (-46 : ℤ) ∧ |(z' : ℝ) - z| ≤ L * 2 ^ (-48 : ℤ) := by
  have hSr : (0 : ℝ) < (x * x + y * y + z * z : ℝ) := by exact_mod_cast lt_of_lt_of_le (two_zpow_pos _) hlo
  have L0 : 0 < L := by rw [hL]; exact Real.sqrt_pos.2 hSr
  obtain ⟨x', y', z', S, hc, -, S0, S2, ex, ey, ez⟩ := trip_parts hT hI junk hs h hlo hhi L hL
  have u0 := unit53_pos
  have hS : S + 14 * unit53 ≤ 2 ^ (-46 : ℤ) := by
    have h1 : S ≤ 68 * unit53 := by
      have h2 : S * (L / 4) ≤ L * (17 * unit53) := (mul_le_mul_of_nonneg_left ha S0).trans S2
      have h3 : L * S ≤ L * (68 * unit53) := by linarith
      exact le_of_mul_le_mul_left h3 L0
    have h2 : (2 : ℝ) ^ (-46 : ℤ) = 128 * unit53 := by norm_num [unit53]
    rw [h2]
    linarith
  have h48 : 21 * unit53 ≤ 2 ^ (-48 : ℤ) := by norm_num [unit53]
  exact ⟨x', y', z', hc, ex.trans (mul_le_mul_of_nonneg_left hS L0.le), ey.trans (mul_le_mul_of_nonneg_left hS L0.le), ez.trans (mul_le_mul_of_nonneg_left h48 L0.le)⟩

/-- **C118.** The make functions convert twice, with twice the loss. -/
theorem C118_make {T : Trig} {I : InverseTrig} (hT : Accurate T) (hI : AccurateInverse I) (junk : Dbl) (s : Coord.System) (hs : s ≠ .cartesian) (v : DVec)
    (x y z : ℚ) (h : Coords v x y z) (hlo : 2 ^ (-900 : ℤ) ≤ x * x + y * y + z * z) (hhi : x * x + y * y + z * z ≤ 2 ^ (900 : ℤ)) (L : ℝ)
    (hL : L = √(x * x + y * y + z * z : ℝ)) :
    ∃ x' y' z' : ℚ, Coords ((v.makeAngular T I junk s).makeCartesian T s) x' y' z' ∧
      |(x' : ℝ) - x| ≤ L * 2 ^ (-22 : ℤ) ∧ |(y' : ℝ) - y| ≤ L * 2 ^ (-22 : ℤ) ∧ |(z' : ℝ) - z| ≤ L * 2 ^ (-46 : ℤ) := by
  have hSr : (0 : ℝ) < (x * x + y * y + z * z : ℝ) := by exact_mod_cast lt_of_lt_of_le (two_zpow_pos _) hlo
  have L0 : 0 < L := by rw [hL]; exact Real.sqrt_pos.2 hSr
  have hLL : L * L = x * x + y * y + z * z := by rw [hL]; exact Real.mul_self_sqrt hSr.le
  obtain ⟨x₁, y₁, z₁, hc, ex, ey, ez⟩ := C118_constructor hT hI (.num 0) s hs v x y z h (le_trans (zpow_le_zpow_right₀ (by norm_num) (by norm_num)) hlo)
    (hhi.trans (zpow_le_zpow_right₀ (by norm_num) (by norm_num))) L hL
  have near : ∀ {t t' : ℝ}, t * t ≤ L * L → |t' - t| ≤ L * 2 ^ (-24 : ℤ) → |t' * t' - t * t| ≤ L * L / 1000 := by
    intro t t' ht hd
    have e : t' * t' - t * t = (t' - t) * (t' - t) + 2 * (t * (t' - t)) := by ring
    have h1 : |t| ≤ L := abs_le_of_sq_le_sq (by rw [sq, sq]; exact ht) L0.le
    have h2 : L * 2 ^ (-24 : ℤ) ≤ L * (1 / 10000) := mul_le_mul_of_nonneg_left (by norm_num) L0.le
    rw [e]
    refine (abs_add_le _ _).trans ?_
    rw [abs_mul, abs_mul, abs_mul, abs_two]
    have h3 := mul_le_mul (hd.trans h2) (hd.trans h2) (abs_nonneg _) (by positivity)
    have h4 := mul_le_mul h1 (hd.trans h2) (abs_nonneg _) L0.le
    have : 0 < L * L := mul_pos L0 L0
    linarith
  have q1 := near (by nlinarith [mul_self_nonneg (x : ℝ), mul_self_nonneg (y : ℝ), mul_self_nonneg (z : ℝ)]) ex
  have q2 := near (by nlinarith [mul_self_nonneg (x : ℝ), mul_self_nonneg (y : ℝ), mul_self_nonneg (z : ℝ)]) ey
  have q3 := near (by nlinarith [mul_self_nonneg (x : ℝ), mul_self_nonneg (y : ℝ), mul_self_nonneg (z : ℝ)])
    (ez.trans (mul_le_mul_of_nonneg_left (by norm_num) L0.le))
  have LL0 : 0 < L * L := mul_pos L0 L0
  have r1 : (x₁ * x₁ + y₁ * y₁ + z₁ * z₁ : ℝ) ≤ 2 * (L * L) := by
    linarith [(abs_le.1 q1).2, (abs_le.1 q2).2, (abs_le.1 q3).2]
  have r2 : L * L / 2 ≤ (x₁ * x₁ + y₁ * y₁ + z₁ * z₁ : ℝ) := by
    linarith [(abs_le.1 q1).1, (abs_le.1 q2).1, (abs_le.1 q3).1]
  rw [hLL] at r1 r2
  have r1' : x₁ * x₁ + y₁ * y₁ + z₁ * z₁ ≤ 2 * (x * x + y * y + z * z) := by exact_mod_cast r1
  have r2' : (x * x + y * y + z * z) / 2 ≤ x₁ * x₁ + y₁ * y₁ + z₁ * z₁ := by exact_mod_cast r2
  have lo1 : 2 ^ (-960 : ℤ) ≤ x₁ * x₁ + y₁ * y₁ + z₁ * z₁ := by
    refine le_trans ?_ r2'
    rw [le_div_iff₀ (by norm_num), ← zpow_add_one₀ (by norm_num)]
    exact le_trans (zpow_le_zpow_right₀ (by norm_num) (by norm_num)) hlo
  have hi1 : x₁ * x₁ + y₁ * y₁ + z₁ * z₁ ≤ 2 ^ (1000 : ℤ) := by
    refine r1'.trans ((mul_le_mul_of_nonneg_left hhi (by norm_num)).trans ?_)
    rw [mul_comm, ← zpow_add_one₀ (by norm_num)]
    exact zpow_le_zpow_right₀ (by norm_num) (by norm_num)
  obtain ⟨x₂, y₂, z₂, hc2, fx, fy, fz⟩ := C118_constructor hT hI junk s hs _ x₁ y₁ z₁ hc lo1 hi1 _ rfl
  have hL2 : √(x₁ * x₁ + y₁ * y₁ + z₁ * z₁ : ℝ) ≤ 2 * L := by
    rw [← hLL] at r1
    apply Real.sqrt_le_iff.2
    exact ⟨by linarith, by nlinarith⟩
  generalize √(x₁ * x₁ + y₁ * y₁ + z₁ * z₁ : ℝ) = M at *
  have four : ∀ k l : ℤ, l = k + 2 → ∀ {a b c : ℝ}, |b - a| ≤ L * 2 ^ k → |c - b| ≤ M * 2 ^ k → |c - a| ≤ L * 2 ^ l := by
    intro k l hl a b c h1 h2
    have e : c - a = (c - b) + (b - a) := by ring
    have p := two_zpow_real k
    rw [e, hl, zpow_add₀ (by norm_num)]
    refine (abs_add_le _ _).trans ?_
    have h3 := mul_le_mul_of_nonneg_right hL2 p.le
    have h4 : L * (2 ^ k * 2 ^ (2 : ℤ)) = 4 * (L * 2 ^ k) := by norm_num; ring
    have h5 : 0 < L * 2 ^ k := mul_pos L0 p
    rw [h4]
    linarith
  exact ⟨x₂, y₂, z₂, hc2, four _ _ (by norm_num) ex fx, four _ _ (by norm_num) ey fy, four _ _ (by norm_num) ez fz⟩

/-- **C118.** Next to the polar axis the angle from the axis is lost: it is the same as on the axis, whatever the inverse functions do. -/
theorem C118_lost (I : InverseTrig) (old : Dbl) (s : Coord.System) (hs : s ≠ .cartesian) (x y : ℚ) (hx : |x| ≤ 2 ^ (-27 : ℤ)) (hy : |y| ≤ 2 ^ (-27 : ℤ)) :
    (DVec.toAngular I old s ⟨.num x, .num y, .num 1⟩).c1 = (DVec.toAngular I old s ⟨.num 0, .num 0, .num 1⟩).c1 ∧
      (DVec.toAngular I old s ⟨.num x, .num y, .num 1⟩).c2 = .num 1 := by
  have e1 : (Dbl.num 1).sqrt = .num 1 := by decide +kernel
  have key : ∀ x y : ℚ, |x| ≤ 2 ^ (-27 : ℤ) → |y| ≤ 2 ^ (-27 : ℤ) → DVec.toAngular I old s ⟨.num x, .num y, .num 1⟩ =
      ⟨I.atan2 (.num y) (.num x), if s = .spherical then I.acos ((Dbl.num 1).div (.num 1)) else I.asin ((Dbl.num 1).div (.num 1)), .num 1⟩ := by
    intro x y hx hy
    have hform : DVec.toAngular I old s ⟨.num x, .num y, .num 1⟩ = ⟨I.atan2 (.num y) (.num x),
        if (Dbl.num 0).less (squares ⟨.num x, .num y, .num 1⟩).sqrt then (if s = .spherical then I.acos ((Dbl.num 1).div (squares ⟨.num x, .num y, .num 1⟩).sqrt)
        else I.asin ((Dbl.num 1).div (squares ⟨.num x, .num y, .num 1⟩).sqrt)) else old, (squares ⟨.num x, .num y, .num 1⟩).sqrt⟩ := by
      cases s
      · exact absurd rfl hs
      · rfl
      · rfl
    rw [hform, squares_axis hx hy, e1, if_pos (by simp [Dbl.less])]
  have z0 : |(0 : ℚ)| ≤ 2 ^ (-27 : ℤ) := by rw [abs_zero]; exact (two_zpow_pos _).le
  rw [key x y hx hy, key 0 0 z0 z0]
  exact ⟨rfl, rfl⟩

/-- **C118.** So with the best possible functions the point comes back on the axis, from the constructor as from make_spherical_representation. -/
theorem C118_axis {T : Trig} {I : InverseTrig} (hT : BestPossible T) (hI : AccurateInverse I) (h1 : I.acos (.num 1) = .num 0) (junk : Dbl) (x y : ℚ) (dx : IsDouble x)
    (dy : IsDouble y) (hx : |x| ≤ 2 ^ (-27 : ℤ)) (hy : |y| ≤ 2 ^ (-27 : ℤ)) :
    (DSph.ofPoint T I junk .spherical .cartesian ⟨.num x, .num y, .num 1⟩).makeCartesian T .spherical = ⟨.num 0, .num 0, .num 1⟩ ∧
      (DVec.makeAngular T I junk .spherical ⟨.num x, .num y, .num 1⟩).makeCartesian T .spherical = ⟨.num 0, .num 0, .num 1⟩ := by
  have z0 : |(0 : ℚ)| ≤ 2 ^ (-27 : ℤ) := by rw [abs_zero]; exact (two_zpow_pos _).le
  have one : (DVec.toAngular I junk .spherical ⟨.num 0, .num 0, .num 1⟩).c1 = .num 0 := by
    have e1 : (squares ⟨.num 0, .num 0, .num 1⟩).sqrt = .num 1 := by rw [squares_axis z0 z0]; decide +kernel
    have e2 : (Dbl.num 1).div (.num 1) = .num 1 := by decide +kernel
    show (if (Dbl.num 0).less (squares ⟨.num 0, .num 0, .num 1⟩).sqrt then (if Coord.System.spherical = .spherical then
      I.acos ((Dbl.num 1).div (squares ⟨.num 0, .num 0, .num 1⟩).sqrt) else I.asin ((Dbl.num 1).div (squares ⟨.num 0, .num 0, .num 1⟩).sqrt)) else junk) = _
    rw [e1, if_pos (by simp [Dbl.less]), if_pos rfl, e2, h1]
  have back : ∀ (old : Dbl) (a b : ℚ), IsDouble a → IsDouble b → |a| ≤ 2 ^ (-27 : ℤ) → |b| ≤ 2 ^ (-27 : ℤ) →
      (DVec.toAngular I old .spherical ⟨.num 0, .num 0, .num 1⟩).c1 = .num 0 →
      (DVec.toAngular I old .spherical ⟨.num a, .num b, .num 1⟩).toCartesian T .spherical = ⟨.num 0, .num 0, .num 1⟩ := by
    intro old a b da db ha hb h0
    obtain ⟨g1, g2⟩ := C118_lost I old .spherical (by decide) a b ha hb
    obtain ⟨k, p, hp, dp, -⟩ := hI.atan2 b a db da
    have g0 : (DVec.toAngular I old .spherical ⟨.num a, .num b, .num 1⟩).c0 = .num p := hp
    rw [h0] at g1
    have : DVec.toAngular I old .spherical ⟨.num a, .num b, .num 1⟩ = ⟨.num p, .num 0, .num 1⟩ := sph_eq g0 g1 g2
    rw [this]
    exact (C117_axis hT p 1 dp isDouble_one).1
  have zero : (DVec.toAngular I (.num 0) .spherical ⟨.num 0, .num 0, .num 1⟩).c1 = .num 0 := by
    have e1 : (squares ⟨.num 0, .num 0, .num 1⟩).sqrt = .num 1 := by rw [squares_axis z0 z0]; decide +kernel
    have e2 : (Dbl.num 1).div (.num 1) = .num 1 := by decide +kernel
    show (if (Dbl.num 0).less (squares ⟨.num 0, .num 0, .num 1⟩).sqrt then (if Coord.System.spherical = .spherical then
      I.acos ((Dbl.num 1).div (squares ⟨.num 0, .num 0, .num 1⟩).sqrt) else I.asin ((Dbl.num 1).div (squares ⟨.num 0, .num 0, .num 1⟩).sqrt)) else (.num 0 : Dbl)) = _
    rw [e1, if_pos (by simp [Dbl.less]), if_pos rfl, e2, h1]
  refine ⟨back junk x y dx dy hx hy one, ?_⟩
  have h2 : DVec.makeAngular T I junk .spherical ⟨.num x, .num y, .num 1⟩ = DVec.toAngular I junk .spherical ⟨.num 0, .num 0, .num 1⟩ := by
    show DVec.toAngular I junk .spherical ((DVec.toAngular I (.num 0) .spherical ⟨.num x, .num y, .num 1⟩).toCartesian T .spherical) = _
    rw [back (.num 0) x y dx dy hx hy zero]
  rw [h2]
  exact back junk 0 0 isDouble_zero isDouble_zero z0 z0 one

/-- **C118.** A spherical point given to the constructor of a spherical representation goes through Cartesian coordinates: polar angles up to 2^-28, about
0.8 milliarcseconds, become the polar angle of the axis. -/
theorem C118_polar {T : Trig} (hT : BestPossible T) (I : InverseTrig) (junk : Dbl) (φ θ : ℚ) (h0 : IsDouble φ) (h1 : IsDouble θ) (h : |θ| ≤ 2 ^ (-28 : ℤ)) :
    (DSph.ofPoint T I junk .spherical .spherical ⟨.num φ, .num θ, .num 1⟩).c1 = (DVec.toAngular I junk .spherical ⟨.num 0, .num 0, .num 1⟩).c1 := by
  obtain ⟨ts, tc⟩ := best_accurate hT φ h0
  have uc := (hT θ h1).2
  have hr : |(θ : ℝ)| ≤ 2 ^ (-28 : ℤ) := by
    have := (Rat.cast_le (K := ℝ)).2 h
    rw [Rat.cast_abs, Rat.cast_zpow, Rat.cast_ofNat] at this
    exact this
  -- the cosine is one
  have c1 : T.cos (.num θ) = .num 1 := by
    have one : IsDouble (((2 : ℤ) ^ 53 : ℤ) * 2 ^ (-53 : ℤ)) := by
      have e : (((2 : ℤ) ^ 53 : ℤ) : ℚ) * 2 ^ (-53 : ℤ) = 1 := by norm_num
      rw [e]
      exact isDouble_one
    have e := closest_eq (m := 2 ^ 53) (e := -53) uc (by norm_num) one ?_
    · rw [e]
      norm_num
    · have h2 := Real.one_sub_sq_div_two_le_cos (x := (θ : ℝ))
      have h3 := Real.cos_le_one (θ : ℝ)
      have h4 : (θ : ℝ) ^ 2 ≤ 2 ^ (-56 : ℤ) := by
        rw [← sq_abs, sq, show (-56 : ℤ) = -28 + -28 by norm_num, zpow_add₀ (by norm_num)]
        exact mul_le_mul hr hr (abs_nonneg _) (two_zpow_real _).le
      norm_num at h4 ⊢
      rw [abs_lt]
      constructor <;> linarith
  obtain ⟨q, hq, dq, eq⟩ := (best_accurate hT θ h1).1
  have q1 : |(q : ℝ)| ≤ 11 / 10 * 2 ^ (-28 : ℤ) := by
    have e : (q : ℝ) = (q - Real.sin θ) + Real.sin θ := by ring
    rw [e]
    refine (abs_add_le _ _).trans ((add_le_add eq (Real.abs_sin_le_abs.trans hr)).trans ?_)
    norm_num
  have q2 : |q| ≤ 11 / 10 * 2 ^ (-28 : ℤ) := by
    have : ((|q| : ℚ) : ℝ) ≤ ((11 / 10 * 2 ^ (-28 : ℤ) : ℚ) : ℝ) := by push_cast; exact q1
    exact (Rat.cast_le (K := ℝ)).1 this
  have small : ∀ {b : Dbl} {w : ℝ}, |w| ≤ 1 → Near b w (2 ^ (-53 : ℤ)) → ∃ p, ((Dbl.num 1).mul (.num q)).mul b = .num p ∧ |p| ≤ 2 ^ (-27 : ℤ) := by
    rintro - w hw ⟨b, rfl, -, eb⟩
    have b1 : |b| ≤ 11 / 10 := by
      have : |(b : ℝ)| ≤ 11 / 10 := by
        have e : (b : ℝ) = (b - w) + w := by ring
        rw [e]
        refine (abs_add_le _ _).trans ((add_le_add eb hw).trans ?_)
        norm_num
      have h2 : ((|b| : ℚ) : ℝ) ≤ ((11 / 10 : ℚ) : ℝ) := by push_cast; exact this
      exact (Rat.cast_le (K := ℝ)).1 h2
    have hqb : |q * b| ≤ 13 / 10 * 2 ^ (-28 : ℤ) := by
      rw [abs_mul]
      exact (mul_le_mul q2 b1 (abs_nonneg _) (by positivity)).trans (by norm_num)
    obtain ⟨p, hp, -, ep, -⟩ := mul_err (x := q) (y := b) (hqb.trans (le_trans (by norm_num : _ ≤ (2 : ℚ) ^ (0 : ℤ)) (zpow_le_zpow_right₀ (by norm_num) (by norm_num))))
    refine ⟨p, ?_, ?_⟩
    · rw [mul_num 1 q, one_mul, round_exact dq, hp]
    · have h2 := abs_of_near ep
      have h3 : |q * b| * ulp ≤ |q * b| / 1024 := mul_ulp (abs_nonneg _)
      have h4 : speck ≤ 2 ^ (-40 : ℤ) := zpow_le_zpow_right₀ (by norm_num) (by norm_num)
      generalize |q * b| = t at *
      norm_num at h4 hqb ⊢
      linarith
  obtain ⟨x, hx, x1⟩ := small (Real.abs_cos_le_one _) tc
  obtain ⟨y, hy, y1⟩ := small (Real.abs_sin_le_one _) ts
  have hcart : DSph.toCartesian T .spherical ⟨.num φ, .num θ, .num 1⟩ = ⟨.num x, .num y, .num 1⟩ := by
    unfold DSph.toCartesian
    dsimp only
    rw [hq, c1, hx, hy, mul_num, one_mul, round_exact isDouble_one]
  unfold DSph.ofPoint
  rw [hcart]
  exact (C118_lost I junk .spherical (by decide) x y x1 y1).1

/-- There are such functions. -/
example : ∃ T I, BestPossible T ∧ Accurate T ∧ AccurateInverse I ∧ I.acos (.num 1) = .num 0 := by
  obtain ⟨T, hT⟩ := best_exists
  obtain ⟨I, hI⟩ := inverse_exists
  refine ⟨T, ⟨fun d => if d = .num 1 then .num 0 else I.acos d, I.asin, I.atan2⟩, hT, best_accurate hT, ?_, by simp⟩
  refine ⟨?_, fun c dc hc => hI.asin c dc hc, fun y x dy dx => hI.atan2 y x dy dx⟩
  intro c dc hc
  show Near (if Dbl.num c = .num 1 then .num 0 else I.acos (.num c)) _ _
  split
  · next h =>
    rw [Dbl.num.inj h]
    exact ⟨0, rfl, isDouble_zero, by simp⟩
  · exact hI.acos c dc hc

end Astro
