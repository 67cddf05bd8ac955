import Verif.Lemmas.AngDouble

/-
C123: arithmetic on angular representations in doubles.
-/

set_option exponentiation.threshold 3000

namespace Astro

open Spec Time

attribute [local irreducible] FloatFmt.nearest FloatFmt.value Dbl.round

theorem between_wide {w : Coord.Vec} {n : ℤ} (hn : n ≤ 900) (h : Between n w) : (2 : ℝ) ^ (-900 : ℤ) ≤ size w ∧ size w ≤ 2 ^ (900 : ℤ) :=
  ⟨(zpow_le_zpow_right₀ (by norm_num) (by omega)).trans h.1, h.2.trans (zpow_le_zpow_right₀ (by norm_num) hn)⟩

/-- The length of a sum. -/
theorem sum_range {v w : Coord.Vec} {k : ℝ} (hk : 2 ^ (-60 : ℤ) ≤ k) (hv : Between 400 v) (hw : Between 400 w) (hc : k * (size v + size w) ≤ size (v + w)) :
    (2 : ℝ) ^ (-460 : ℤ) ≤ size (v + w) ∧ size (v + w) ≤ 2 ^ (490 : ℤ) ∧ 0 < size v + size w := by
  have S0 : 2 ^ (-(400 : ℤ)) ≤ size v + size w := by
    have := hv.1
    have := size_nonneg w
    linarith
  have S1 : 0 < size v + size w := lt_of_lt_of_le (by positivity) S0
  refine ⟨?_, ?_, S1⟩
  · refine le_trans ?_ hc
    have h3 : (2 : ℝ) ^ (-60 : ℤ) * 2 ^ (-(400 : ℤ)) ≤ k * (size v + size w) := mul_le_mul hk S0 (by positivity) ((by positivity : (0 : ℝ) ≤ 2 ^ (-60 : ℤ)).trans hk)
    refine le_trans ?_ h3
    rw [← zpow_add₀ (by norm_num)]
    exact zpow_le_zpow_right₀ (by norm_num) (by norm_num)
  · have h1 := size_add v w
    have h2 := hv.2
    have h3 := hw.2
    have : (2 : ℝ) ^ (400 : ℤ) + 2 ^ (400 : ℤ) ≤ 2 ^ (490 : ℤ) := by norm_num
    linarith

theorem pow45 : (2 : ℝ) ^ (-45 : ℤ) = 256 * unit53 := by norm_num [unit53]
theorem pow44 : (2 : ℝ) ^ (-44 : ℤ) = 512 * unit53 := by norm_num [unit53]
theorem pow43 : (2 : ℝ) ^ (-43 : ℤ) = 1024 * unit53 := by norm_num [unit53]
theorem pow46 : (2 : ℝ) ^ (-46 : ℤ) = 128 * unit53 := by norm_num [unit53]
theorem pow47 : (2 : ℝ) ^ (-47 : ℤ) = 64 * unit53 := by norm_num [unit53]
theorem pow48 : (2 : ℝ) ^ (-48 : ℤ) = 32 * unit53 := by norm_num [unit53]
theorem pow49 : (2 : ℝ) ^ (-49 : ℤ) = 16 * unit53 := by norm_num [unit53]

theorem half_size (v : Coord.Vec) : size ((1 / 2 : ℝ) • v) = size v / 2 := by
  rw [size_eq, size_eq]
  have : ((1 / 2 : ℝ) • v) 0 ^ 2 + ((1 / 2 : ℝ) • v) 1 ^ 2 + ((1 / 2 : ℝ) • v) 2 ^ 2 = (v 0 ^ 2 + v 1 ^ 2 + v 2 ^ 2) / 2 ^ 2 := by
    simp
    ring
  rw [this, Real.sqrt_div' _ (by norm_num), Real.sqrt_sq (by norm_num)]

/-- **C123.** The sum of two representations: the position it stands for is within 2^-23 of the exact sum, compared with the length of that, plus 2^-48 of the
lengths of the operands; away from the polar axis the first part is 2^-45.  The operands must not cancel to less than 2^-45 of their lengths. -/
theorem C123_sum {T : Trig} {I : InverseTrig} (hT : Accurate T) (hI : AccurateInverse I) (junk : Dbl) (s s' : Coord.System) (p q : DSph) (v w : Coord.Vec)
    (hp : Stands3 s p v) (hq : Stands3 s' q w) (hv : Between 400 v) (hw : Between 400 w) (hc : 2 ^ (-45 : ℤ) * (size v + size w) ≤ size (v + w)) :
    ∃ z, Stands3 s (DSph.sum T I junk s s' p q) z ∧ chord z (v + w) ≤ size (v + w) * 2 ^ (-23 : ℤ) + (size v + size w) * 2 ^ (-48 : ℤ) ∧
      (size (v + w) / 3 ≤ √((v + w) 0 ^ 2 + (v + w) 1 ^ 2) → chord z (v + w) ≤ size (v + w) * 2 ^ (-45 : ℤ) + (size v + size w) * 2 ^ (-48 : ℤ)) := by
  obtain ⟨v1, v2⟩ := between_wide (by norm_num) hv
  obtain ⟨w1, w2⟩ := between_wide (by norm_num) hw
  obtain ⟨⟨a, b, c, habc, hE⟩, -⟩ := sum_coords hT hp hq v1 v2 w1 w2
  obtain ⟨lo, hi, S0⟩ := sum_range (by norm_num) hv hw hc
  have u0 := unit53_pos
  have k0 := mul_pos S0 u0
  have m0 := mul_nonneg (size_nonneg (v + w)) u0.le
  rw [pow45] at hc
  obtain ⟨z, hz, z1, z2⟩ := back_exact_near hI junk (s := s) habc hE (by linarith) ((by norm_num : (2 : ℝ) ^ (-470 : ℤ) ≤ 2 ^ (-460 : ℤ)).trans lo) hi
  have m1 : 0 ≤ size (v + w) * 2 ^ (-23 : ℤ) := mul_nonneg (size_nonneg _) (by positivity)
  refine ⟨z, hz, z1.trans ?_, fun h => (z2 h).trans ?_⟩
  · rw [pow48]
    generalize (2 : ℝ) ^ (-23 : ℤ) = ε at *
    linarith
  · rw [pow48, pow45]; linarith

/-- **C123.** The same for the mean. -/
theorem C123_mean {T : Trig} {I : InverseTrig} (hT : Accurate T) (hI : AccurateInverse I) (junk : Dbl) (s s' : Coord.System) (p q : DSph) (v w m : Coord.Vec)
    (hp : Stands3 s p v) (hq : Stands3 s' q w) (hm : ∀ i, m i = (v i + w i) / 2) (hv : Between 400 v) (hw : Between 400 w)
    (hc : 2 ^ (-45 : ℤ) * (size v + size w) ≤ size m) :
    ∃ z, Stands3 s (DSph.mean T I junk s s' p q) z ∧ chord z m ≤ size m * 2 ^ (-23 : ℤ) + (size v + size w) * 2 ^ (-49 : ℤ) ∧
      (size m / 3 ≤ √(m 0 ^ 2 + m 1 ^ 2) → chord z m ≤ size m * 2 ^ (-45 : ℤ) + (size v + size w) * 2 ^ (-49 : ℤ)) := by
  obtain rfl : m = (1 / 2 : ℝ) • (v + w) := by
    funext i
    rw [hm]
    simp
    ring
  clear hm
  obtain ⟨v1, v2⟩ := between_wide (by norm_num) hv
  obtain ⟨w1, w2⟩ := between_wide (by norm_num) hw
  obtain ⟨-, a, b, c, habc, hE⟩ := sum_coords hT hp hq v1 v2 w1 w2
  have hs := half_size (v + w)
  obtain ⟨lo, hi, S0⟩ := sum_range (k := 2 ^ (-44 : ℤ)) (by norm_num) hv hw (by
    rw [pow44]
    rw [pow45] at hc
    linarith)
  have u0 := unit53_pos
  have k0 := mul_pos S0 u0
  have m0 := mul_nonneg (size_nonneg ((1 / 2 : ℝ) • (v + w))) u0.le
  rw [pow45] at hc
  obtain ⟨z, hz, z1, z2⟩ := back_exact_near hI junk (s := s) habc hE (by linarith) (by
    rw [hs]
    have : (2 : ℝ) ^ (-470 : ℤ) ≤ 2 ^ (-460 : ℤ) / 2 := by norm_num
    refine this.trans ?_
    generalize (2 : ℝ) ^ (-460 : ℤ) = δ at *
    linarith) (by have := size_nonneg (v + w); linarith)
  have m1 : 0 ≤ size ((1 / 2 : ℝ) • (v + w)) * 2 ^ (-23 : ℤ) := mul_nonneg (size_nonneg _) (by positivity)
  refine ⟨z, hz, z1.trans ?_, fun h => (z2 h).trans ?_⟩
  · rw [pow49]
    generalize (2 : ℝ) ^ (-23 : ℤ) = ε at *
    linarith
  · rw [pow49, pow45]; linarith

/-- **C123.** The cross product. -/
theorem C123_cross {T : Trig} {I : InverseTrig} (hT : Accurate T) (hI : AccurateInverse I) (junk : Dbl) (s s' : Coord.System) (p q : DSph) (v w : Coord.Vec)
    (hp : Stands3 s p v) (hq : Stands3 s' q w) (hv : Between 200 v) (hw : Between 200 w) (hc : 2 ^ (-43 : ℤ) * (size v * size w) ≤ size (crossed v w)) :
    ∃ z, Stands3 s (DSph.cross T I junk s s' p q) z ∧ chord z (crossed v w) ≤ size (crossed v w) * 2 ^ (-23 : ℤ) + size v * size w * 2 ^ (-47 : ℤ) ∧
      (size (crossed v w) / 3 ≤ √(crossed v w 0 ^ 2 + crossed v w 1 ^ 2) →
        chord z (crossed v w) ≤ size (crossed v w) * 2 ^ (-45 : ℤ) + size v * size w * 2 ^ (-47 : ℤ)) := by
  obtain ⟨⟨a, b, c, habc, hE⟩, -⟩ := product_coords hT hp hq hv.1 hv.2 hw.1 hw.2
  have K0 : (2 : ℝ) ^ (-400 : ℤ) ≤ size v * size w := by
    have := mul_le_mul hv.1 hw.1 (by positivity) (size_nonneg v)
    rwa [← zpow_add₀ (by norm_num)] at this
  have K1 : size v * size w ≤ 2 ^ (400 : ℤ) := by
    have := mul_le_mul hv.2 hw.2 (size_nonneg w) (by positivity)
    rwa [← zpow_add₀ (by norm_num)] at this
  have lo : (2 : ℝ) ^ (-470 : ℤ) ≤ size (crossed v w) := by
    refine le_trans ?_ hc
    refine le_trans ?_ (mul_le_mul_of_nonneg_left K0 (by positivity))
    rw [← zpow_add₀ (by norm_num)]
    exact zpow_le_zpow_right₀ (by norm_num) (by norm_num)
  have hi : size (crossed v w) ≤ 2 ^ (490 : ℤ) := by
    obtain ⟨c0, c1, c2⟩ := coord_le_size v
    obtain ⟨d0, d1, d2⟩ := coord_le_size w
    have key {a b c d : ℝ} (ha : |a| ≤ size v) (hb : |b| ≤ size w) (hc : |c| ≤ size v) (hd : |d| ≤ size w) : |a * b - c * d - 0| ≤ 2 * (size v * size w) := by
      rw [sub_zero]
      refine (abs_sub _ _).trans ?_
      rw [abs_mul, abs_mul]
      have := mul_le_mul ha hb (abs_nonneg _) (size_nonneg v)
      have := mul_le_mul hc hd (abs_nonneg _) (size_nonneg v)
      linarith
    have := chord_le_of (v := crossed v w) (w := 0) (key c1 d2 c2 d1) (key c2 d0 c0 d2) (key c0 d1 c1 d0)
    refine le_trans this ?_
    have : 7 / 4 * (2 * (2 : ℝ) ^ (400 : ℤ)) ≤ 2 ^ (490 : ℤ) := by norm_num
    linarith
  have u0 := unit53_pos
  have S0 : 0 < size v * size w := lt_of_lt_of_le (by positivity) K0
  have k0 := mul_pos S0 u0
  have m0 := mul_nonneg (size_nonneg (crossed v w)) u0.le
  rw [pow43] at hc
  obtain ⟨z, hz, z1, z2⟩ := back_exact_near hI junk (s := s) habc hE (by linarith) lo hi
  have m1 : 0 ≤ size (crossed v w) * 2 ^ (-23 : ℤ) := mul_nonneg (size_nonneg _) (by positivity)
  refine ⟨z, hz, z1.trans ?_, fun h => (z2 h).trans ?_⟩
  · rw [pow47]
    generalize (2 : ℝ) ^ (-23 : ℤ) = ε at *
    linarith
  · rw [pow47, pow45]; linarith

/-- **C123.** The dot product. -/
theorem C123_dot {T : Trig} (hT : Accurate T) (s s' : Coord.System) (p q : DSph) (v w : Coord.Vec)
    (hp : Stands3 s p v) (hq : Stands3 s' q w) (hv : Between 200 v) (hw : Between 200 w) :
    ∃ d : ℚ, DSph.dot T s s' p q = .num d ∧ |(d : ℝ) - (v 0 * w 0 + v 1 * w 1 + v 2 * w 2)| ≤ size v * size w * 2 ^ (-47 : ℤ) := by
  rw [pow47]
  exact (product_coords hT hp hq hv.1 hv.2 hw.1 hw.2).2

/-- **C123.** operator+ converts the sum twice: the error near the axis may be twice as large. -/
theorem C123_plus {T : Trig} {I : InverseTrig} (hT : Accurate T) (hI : AccurateInverse I) (junk : Dbl) (s s' : Coord.System) (p q : DSph) (v w : Coord.Vec)
    (hp : Stands3 s p v) (hq : Stands3 s' q w) (hv : Between 400 v) (hw : Between 400 w) (hc : 2 ^ (-44 : ℤ) * (size v + size w) ≤ size (v + w)) :
    ∃ z, Stands3 s (DSph.plus T I junk s s' p q) z ∧ chord z (v + w) ≤ size (v + w) * 2 ^ (-22 : ℤ) + (size v + size w) * 2 ^ (-48 : ℤ) ∧
      (size (v + w) / 3 ≤ √((v + w) 0 ^ 2 + (v + w) 1 ^ 2) → chord z (v + w) ≤ size (v + w) * 2 ^ (-44 : ℤ) + (size v + size w) * 2 ^ (-48 : ℤ)) := by
  obtain ⟨v1, v2⟩ := between_wide (by norm_num) hv
  obtain ⟨w1, w2⟩ := between_wide (by norm_num) hw
  obtain ⟨⟨a, b, c, habc, hE⟩, -⟩ := sum_coords hT hp hq v1 v2 w1 w2
  obtain ⟨lo, hi, S0⟩ := sum_range (by norm_num) hv hw hc
  have u0 := unit53_pos
  have u1 := unit53_small
  have k0 := mul_pos S0 u0
  have m0 := mul_nonneg (size_nonneg (v + w)) u0.le
  have lo' := (by norm_num : (2 : ℝ) ^ (-470 : ℤ) ≤ 2 ^ (-460 : ℤ)).trans lo
  rw [pow44] at hc
  obtain ⟨z, hz, z1, z2⟩ := back_exact_near hI (.num 0) (s := s) habc hE (by linarith) lo' hi
  have m1 : 0 ≤ size (v + w) * 2 ^ (-23 : ℤ) := mul_nonneg (size_nonneg _) (by positivity)
  have m2 : size (v + w) * 2 ^ (-23 : ℤ) ≤ size (v + w) * (1 / 1000) := mul_le_mul_of_nonneg_left (by norm_num) (size_nonneg _)
  have m3 : size (v + w) * unit53 ≤ size (v + w) * (1 / 1000) * 2 ^ (-23 : ℤ) := by
    rw [mul_assoc]
    exact mul_le_mul_of_nonneg_left (by norm_num [unit53]) (size_nonneg _)
  have p22 : (2 : ℝ) ^ (-22 : ℤ) = 2 * 2 ^ (-23 : ℤ) := by norm_num
  have q1 := size_sub z (v + w)
  have q2 := size_sub (v + w) z
  rw [chord_comm] at q2
  have W0 := size_nonneg (v + w)
  have n1 : size z ≤ 2 * size (v + w) := by
    generalize (2 : ℝ) ^ (-23 : ℤ) = ε at *
    linarith
  have n2 : size (v + w) / 2 ≤ size z := by
    generalize (2 : ℝ) ^ (-23 : ℤ) = ε at *
    linarith
  obtain ⟨x, y, t, hx, ex, ey, et⟩ := stored_near hT hz (by
      have : (2 : ℝ) ^ (-900 : ℤ) ≤ 2 ^ (-460 : ℤ) / 2 := by norm_num
      refine this.trans ?_
      generalize (2 : ℝ) ^ (-460 : ℤ) = δ at *
      linarith) (by
      have : 2 * (2 : ℝ) ^ (490 : ℤ) ≤ 2 ^ (900 : ℤ) := by norm_num
      linarith)
  have hd : chord (vec x y t) z ≤ _ := chord_le_of ex ey et
  have n3 := mul_le_mul_of_nonneg_right n1 (show 0 ≤ 7 / 4 * (5 * unit53) by positivity)
  have tri := chord_triangle (vec x y t) z (v + w)
  obtain ⟨z', hz', y1, y2⟩ := back_exact_near hI junk (s := s) hx (E := chord z (v + w) + size (v + w) * (18 * unit53)) (W := v + w) (by linarith) (by
      generalize (2 : ℝ) ^ (-23 : ℤ) = ε at *
      linarith) lo' hi
  refine ⟨z', hz', y1.trans ?_, fun h => (y2 h).trans ?_⟩
  · rw [pow48, p22]
    generalize (2 : ℝ) ^ (-23 : ℤ) = ε at *
    linarith
  · have := z2 h
    rw [pow48, pow44]
    linarith

theorem neg_mul_left (a b : Dbl) : a.neg.mul b = (a.mul b).neg := by
  have dx (x : ℚ) (h : x ≠ 0) : decide (-x < 0) = !decide (x < 0) := by
    rcases lt_or_gt_of_ne h with h | h
    · simp [h, h.le]
    · simp [h, h.le]
  cases a with
  | num x =>
    cases b with
    | num y =>
      show Dbl.round (-x * y) = _
      rw [neg_mul, round_neg']
      rfl
    | inf b =>
      show (if -x = 0 then Dbl.nan else .inf (decide (-x < 0) != b)) = Dbl.neg (if x = 0 then Dbl.nan else .inf (decide (x < 0) != b))
      by_cases h : x = 0
      · simp [h, Dbl.neg]
      · rw [if_neg (by simpa using h), if_neg h, dx x h]
        cases decide (x < 0) <;> cases b <;> rfl
    | nan => rfl
  | inf a =>
    cases b with
    | num y =>
      show (if y = 0 then Dbl.nan else .inf ((!a) != decide (y < 0))) = Dbl.neg (if y = 0 then Dbl.nan else .inf (a != decide (y < 0)))
      by_cases h : y = 0
      · simp [h, Dbl.neg]
      · rw [if_neg h, if_neg h]
        cases decide (y < 0) <;> cases a <;> rfl
    | inf b => cases a <;> cases b <;> rfl
    | nan => rfl
  | nan => rfl

/-- **C123.** When the operands cancel the distance is zero, but the second coordinate of the result is not set at all: it is what the memory held. -/
theorem C123_cancel {T : Trig} {I : InverseTrig} (hT : Accurate T) (junk : Dbl) (s : Coord.System) (hs : s ≠ .cartesian) (p : DSph) (v : Coord.Vec)
    (hp : Stands3 s p v) (hv : Between 400 v) :
    (DSph.sum T I junk s s p ⟨p.c0, p.c1, p.c2.neg⟩).c2 = .num 0 ∧ (DSph.sum T I junk s s p ⟨p.c0, p.c1, p.c2.neg⟩).c1 = junk := by
  obtain ⟨v1, v2⟩ := between_wide (by norm_num) hv
  obtain ⟨x, y, z, hxyz, -⟩ := stored_near hT hp v1 v2
  have opp : DSph.toCartesian T s ⟨p.c0, p.c1, p.c2.neg⟩ = opposite (p.toCartesian T s) := by
    cases s with
    | cartesian => exact absurd rfl hs
    | spherical =>
      unfold DSph.toCartesian opposite
      dsimp only
      simp only [neg_mul_left]
    | equatorial =>
      unfold DSph.toCartesian opposite
      dsimp only
      simp only [neg_mul_left]
  have zero := ((C108_laws (p.toCartesian T s)).2 x y z hxyz).2
  have root : ((((Dbl.num 0).mul (.num 0)).add ((Dbl.num 0).mul (.num 0))).add ((Dbl.num 0).mul (.num 0))).sqrt = .num 0 := by decide +kernel
  unfold DSph.sum
  rw [opp, zero]
  cases s with
  | cartesian => exact absurd rfl hs
  | spherical =>
    refine ⟨root, ?_⟩
    show (if (Dbl.num 0).less ((((Dbl.num 0).mul (.num 0)).add ((Dbl.num 0).mul (.num 0))).add ((Dbl.num 0).mul (.num 0))).sqrt then _ else junk) = junk
    rw [root]
    exact if_neg (by decide)
  | equatorial =>
    refine ⟨root, ?_⟩
    show (if (Dbl.num 0).less ((((Dbl.num 0).mul (.num 0)).add ((Dbl.num 0).mul (.num 0))).add ((Dbl.num 0).mul (.num 0))).sqrt then _ else junk) = junk
    rw [root]
    exact if_neg (by decide)

/-- A spherical and an equatorial position, 2 and 3 away: all conditions are met. -/
example : ∃ (T : Trig) (I : InverseTrig) (v w : Coord.Vec), Accurate T ∧ AccurateInverse I ∧ Stands3 .spherical ⟨.num 1, .num 1, .num 2⟩ v ∧
    Stands3 .equatorial ⟨.num 0, .num 1, .num 3⟩ w ∧ Between 400 v ∧ Between 400 w ∧ 2 ^ (-44 : ℤ) * (size v + size w) ≤ size (v + w) := by
  obtain ⟨T, hT⟩ := best_exists
  obtain ⟨I, hI⟩ := inverse_exists
  have d (i : ℤ) (h : |i| ≤ 2 ^ 53) : IsDouble i := isDouble_int h
  have d0 : IsDouble 0 := isDouble_zero
  have d1 : IsDouble 1 := by simpa using d 1 (by norm_num)
  have d2 : IsDouble 2 := by simpa using d 2 (by norm_num)
  have d3 : IsDouble 3 := by simpa using d 3 (by norm_num)
  have s2 : size (position .spherical (1 : ℚ) (1 : ℚ) (2 : ℚ)) = 2 := by
    rw [position_size _ (by decide)]
    norm_num
  have s3 : size (position .equatorial (0 : ℚ) (1 : ℚ) (3 : ℚ)) = 3 := by
    rw [position_size _ (by decide)]
    norm_num
  refine ⟨T, I, _, _, best_accurate hT, hI, ⟨1, 1, 2, rfl, d1, d1, d2, rfl⟩, ⟨0, 1, 3, rfl, d0, d1, d3, rfl⟩, ?_, ?_, ?_⟩
  · unfold Between
    rw [s2]
    norm_num
  · unfold Between
    rw [s3]
    norm_num
  · rw [s2, s3]
    have h := size_add (position .spherical (1 : ℚ) (1 : ℚ) (2 : ℚ) + position .equatorial (0 : ℚ) (1 : ℚ) (3 : ℚ)) (-position .spherical (1 : ℚ) (1 : ℚ) (2 : ℚ))
    have e : size (-position .spherical (1 : ℚ) (1 : ℚ) (2 : ℚ)) = 2 := by
      rw [← s2, size_eq, size_eq]
      congr 1
      simp only [Pi.neg_apply]
      ring
    rw [e, add_neg_cancel_comm, s3] at h
    have : (2 : ℝ) ^ (-44 : ℤ) * (2 + 3) ≤ 1 := by norm_num
    linarith

end Astro
