import Verif.Lemmas.FrameBuildDouble
import Verif.Spec.MixedSum

/-
Lemmas on sums of objects with different units.
-/

set_option exponentiation.threshold 3000

namespace Astro

open Spec Time

attribute [local irreducible] FloatFmt.nearest FloatFmt.value Dbl.round

variable {U : Type} {len : U → ℝ} {F : Factors U} {rad : U} {ε : ℝ}

/-- One number converted to the unit `u`, when it is near the coordinate `t` of a vector of length `S`. -/
theorem converted_part (hF : AccurateFactors len F ε) (h0 : 0 ≤ ε) (h1 : ε ≤ 2 ^ (-20 : ℤ)) {u' u : U} {x : ℚ} {t S : ℝ}
    (ex : |x * len u' - t| ≤ S * (5 * unit53)) (ht : |t| ≤ S) (lo : 2 ^ (-400 : ℤ) * len u ≤ S) (hi : S ≤ 2 ^ (400 : ℤ) * len u) :
    ∃ p, (Dbl.num x).mul (F u' u) = .num p ∧ IsDouble p ∧ |p * len u - t| ≤ S * (101 / 100 * ε + 7 * unit53) := by
  obtain ⟨E0, E1, E2⟩ := castErr_tiny h0 h1
  have u0 := unit53_pos
  have u1 : unit53 ≤ 1 / 1000000 := by norm_num [unit53]
  have h2 : ε ≤ 1 / 1000000 := h1.trans (by norm_num)
  have L0 := hF.positive u
  have S0 : 0 ≤ S := (abs_nonneg _).trans ht
  have X1 : |x * len u'| ≤ S * (1001 / 1000) := by
    have := abs_sub_abs_le_abs_sub (x * len u') t
    have : S * (5 * unit53) ≤ S * (1 / 1000) := mul_le_mul_of_nonneg_left (by linarith) S0
    linarith
  obtain ⟨p, hp, dp, ep⟩ := factor_step hF u' u (x := x) rfl (by
    have a1 : |x * len u'| * (1 + ε) ≤ S * (1001 / 1000) * 2 := mul_le_mul X1 (by linarith) (by linarith) (by positivity)
    have a2 : 4 * (2 : ℝ) ^ (400 : ℤ) ≤ 2 ^ (900 : ℤ) := by norm_num
    have a3 := mul_le_mul_of_nonneg_right a2 L0.le
    generalize (2 : ℝ) ^ (400 : ℤ) = α at *
    generalize (2 : ℝ) ^ (900 : ℤ) = β at *
    linarith)
  refine ⟨p, hp, dp, ?_⟩
  have tri : |p * len u - t| ≤ |p * len u - x * len u'| + |x * len u' - t| := abs_sub_le _ _ _
  have b1 : |x * len u'| * castErr ε ≤ S * (1001 / 1000) * (ε + 107 / 100 * unit53) := mul_le_mul X1 E2 E0 (by positivity)
  have b2 : (2 : ℝ) ^ (-1075 : ℤ) * len u ≤ S * (1 / 10 * unit53) := by
    have a1 : (2 : ℝ) ^ (-1075 : ℤ) ≤ 2 ^ (-400 : ℤ) * (1 / 10 * unit53) := by norm_num [unit53]
    have a2 := mul_le_mul_of_nonneg_right a1 L0.le
    have a3 := mul_le_mul_of_nonneg_right lo (show 0 ≤ 1 / 10 * unit53 by positivity)
    refine a2.trans (le_trans (le_of_eq ?_) a3)
    ring
  have c1 := mul_nonneg S0 h0
  have c2 := mul_nonneg S0 u0.le
  generalize (2 : ℝ) ^ (-1075 : ℤ) = α at *
  nlinarith

/-- The rounded sum of two numbers near coordinates of two vectors of the lengths `R`, `R'`. -/
theorem added_part {x x' : ℚ} {t t' R R' δ : ℝ} (h0 : 0 ≤ δ) (h1 : δ ≤ 1 / 1000) (dx : IsDouble x) (dx' : IsDouble x')
    (ex : |(x : ℝ) - t| ≤ R * (5 * unit53)) (ht : |t| ≤ R) (ex' : |(x' : ℝ) - t'| ≤ R' * (δ + 7 * unit53)) (ht' : |t'| ≤ R') (hR : R + R' ≤ 2 ^ (1000 : ℤ)) :
    ∃ p, (Dbl.num x).add (.num x') = .num p ∧ IsDouble p ∧ |(p : ℝ) - (t + t')| ≤ (R + R') * (δ + 9 * unit53) := by
  have u0 := unit53_pos
  have u1 : unit53 ≤ 1 / 1000000 := by norm_num [unit53]
  have R0 : 0 ≤ R := (abs_nonneg _).trans ht
  have R0' : 0 ≤ R' := (abs_nonneg _).trans ht'
  have a1 := near_size ex ht
  have a2 : |(x' : ℝ)| ≤ R' * (101 / 100) := by
    have := abs_sub_abs_le_abs_sub (x' : ℝ) t'
    have : R' * (δ + 7 * unit53) ≤ R' * (1 / 100) := mul_le_mul_of_nonneg_left (by linarith) R0'
    linarith
  have a3 := abs_add_le (x : ℝ) x'
  have top : |x + x'| ≤ 2 ^ (1023 : ℤ) := by
    apply rat_le_of_real
    push_cast
    have : (2 : ℝ) ^ (1000 : ℤ) * 2 ≤ 2 ^ (1023 : ℤ) := by norm_num
    linarith
  obtain ⟨p, hp, dp, ep, -⟩ := add_err dx dx' top
  refine ⟨p, hp, dp, ?_⟩
  have ep' := (Rat.cast_le (K := ℝ)).2 ep
  have eu : ((ulp : ℚ) : ℝ) = unit53 := by norm_num [ulp, unit53]
  rw [Rat.cast_mul, Rat.cast_abs, Rat.cast_abs, Rat.cast_sub, Rat.cast_add, eu] at ep'
  have e : (p : ℝ) - (t + t') = (p - (x + x')) + (x - t) + (x' - t') := by ring
  rw [e]
  have b1 := abs_add_le ((p : ℝ) - (x + x') + (x - t)) (x' - t')
  have b2 := abs_add_le ((p : ℝ) - (x + x')) (x - t)
  have b3 : |(x : ℝ) + x'| * unit53 ≤ (R + R') * (101 / 100) * unit53 := mul_le_mul_of_nonneg_right (by linarith) u0.le
  have c1 := mul_nonneg R0 u0.le
  have c2 := mul_nonneg R0' u0.le
  have c3 := mul_nonneg R0 h0
  clear hR top
  nlinarith

/-- Coordinates near a vector, converted twice. -/
theorem twice_back {T : Trig} {I : InverseTrig} (hT : Accurate T) (hI : AccurateInverse I) (junk : Dbl) {s : Coord.System} {d : DVec} {a b c : ℚ}
    (h : Coords d a b c) {W : Coord.Vec} {E : ℝ} (hE : chord (vec a b c) W ≤ E) (hs : 40 * E ≤ size W) (lo : (2 : ℝ) ^ (-460 : ℤ) ≤ size W)
    (hi : size W ≤ 2 ^ (490 : ℤ)) :
    ∃ z, Stands3 s (d.makeAngular T I junk s) z ∧ chord z W ≤ size W * 2 ^ (-22 : ℤ) + 4 / 3 * E ∧
      (size W / 3 ≤ √(W 0 ^ 2 + W 1 ^ 2) → chord z W ≤ size W * 2 ^ (-44 : ℤ) + 4 / 3 * E) := by
  have u0 := unit53_pos
  have E0 : 0 ≤ E := (chord_nonneg _ _).trans hE
  have W0 := size_nonneg W
  have lo' := (by norm_num : (2 : ℝ) ^ (-470 : ℤ) ≤ 2 ^ (-460 : ℤ)).trans lo
  obtain ⟨z, hz, z1, z2⟩ := back_exact_near hI (.num 0) (s := s) h hE (by linarith) lo' hi
  have m1 : 0 ≤ size W * 2 ^ (-23 : ℤ) := mul_nonneg W0 (by positivity)
  have m2 : size W * 2 ^ (-23 : ℤ) ≤ size W * (1 / 1000) := mul_le_mul_of_nonneg_left (by norm_num) W0
  have m3 : size W * unit53 ≤ size W * (1 / 1000) * 2 ^ (-23 : ℤ) := by
    rw [mul_assoc]
    exact mul_le_mul_of_nonneg_left (by norm_num [unit53]) W0
  have m4 := mul_nonneg W0 u0.le
  have p22 : (2 : ℝ) ^ (-22 : ℤ) = 2 * 2 ^ (-23 : ℤ) := by norm_num
  have p44 : (2 : ℝ) ^ (-44 : ℤ) = 512 * unit53 := by norm_num [unit53]
  have q1 := size_sub z W
  have q2 := size_sub W z
  rw [chord_comm] at q2
  have n1 : size z ≤ 2 * size W := by
    clear lo lo' hi
    generalize (2 : ℝ) ^ (-23 : ℤ) = ε at *
    linarith
  have n2 : size W / 2 ≤ size z := by
    clear lo lo' hi
    generalize (2 : ℝ) ^ (-23 : ℤ) = ε at *
    linarith
  obtain ⟨x, y, t, hx, ex, ey, et⟩ := stored_near hT hz (by
      have : (2 : ℝ) ^ (-900 : ℤ) ≤ 2 ^ (-460 : ℤ) / 2 := by norm_num
      refine this.trans ?_
      generalize (2 : ℝ) ^ (-460 : ℤ) = δ at *
      linarith) (by
      have : 2 * (2 : ℝ) ^ (490 : ℤ) ≤ 2 ^ (900 : ℤ) := by norm_num
      linarith)
  have hd : chord (vec x y t) z ≤ _ := chord_le_of ex ey et
  have n3 := mul_le_mul_of_nonneg_right n1 (show 0 ≤ 7 / 4 * (5 * unit53) by positivity)
  have tri := chord_triangle (vec x y t) z W
  obtain ⟨z', hz', y1, y2⟩ := back_exact_near hI junk (s := s) hx (E := chord z W + size W * (18 * unit53)) (W := W) (by linarith) (by
      clear lo lo' hi
      generalize (2 : ℝ) ^ (-23 : ℤ) = ε at *
      linarith) lo' hi
  clear lo lo' hi
  refine ⟨z', hz', y1.trans ?_, fun h => (y2 h).trans ?_⟩
  · rw [p22]
    generalize (2 : ℝ) ^ (-23 : ℤ) = ε at *
    linarith
  · have := z2 h
    rw [p44]
    linarith

/-- Cartesian coordinates of an object with units, converted to the unit `u`. -/
theorem converted (hF : AccurateFactors len F ε) (h0 : 0 ≤ ε) (h1 : ε ≤ 2 ^ (-20 : ℤ)) {T : Trig} (hT : Accurate T) {s : Coord.System} {b : QSph U} {w : Coord.Vec}
    (hb : StandsFor len s b w) (u1 u2 u3 : U) (hu : s ≠ .cartesian → Manageable len b.u3 w) (m1 : Manageable len u1 w) (m2 : Manageable len u2 w) (m3 : Manageable len u3 w) :
    ∃ p q r : ℚ, (b.cartesian T s).v.x.mul (F (b.cartesian T s).u1 u1) = .num p ∧ (b.cartesian T s).v.y.mul (F (b.cartesian T s).u2 u2) = .num q ∧
      (b.cartesian T s).v.z.mul (F (b.cartesian T s).u3 u3) = .num r ∧ IsDouble p ∧ IsDouble q ∧ IsDouble r ∧
      |p * len u1 - w 0| ≤ size w * (101 / 100 * ε + 7 * unit53) ∧ |q * len u2 - w 1| ≤ size w * (101 / 100 * ε + 7 * unit53) ∧
      |r * len u3 - w 2| ≤ size w * (101 / 100 * ε + 7 * unit53) := by
  have u0 := unit53_pos
  obtain ⟨c0, c1, c2⟩ := coord_le_size w
  have S0 := size_nonneg w
  have K : ∃ x y z : ℚ, (b.cartesian T s).v = ⟨.num x, .num y, .num z⟩ ∧ |x * len (b.cartesian T s).u1 - w 0| ≤ size w * (5 * unit53) ∧
      |y * len (b.cartesian T s).u2 - w 1| ≤ size w * (5 * unit53) ∧ |z * len (b.cartesian T s).u3 - w 2| ≤ size w * (5 * unit53) := by
    obtain ⟨p, q, r, hp, dp, dq, dr, hw⟩ := hb
    by_cases hs : s = .cartesian
    · subst hs
      refine ⟨p, q, r, ?_, ?_, ?_, ?_⟩
      · show b.p.toCartesian T .cartesian = _
        rw [hp]; rfl
      all_goals
        rw [hw]
        show |_ - _| ≤ _
        simp only [QSph.cartesian, Matrix.cons_val]
        rw [sub_self, abs_zero]
        exact mul_nonneg (size_nonneg _) (by positivity)
    · have L0 := hF.positive b.u3
      have hw' : w = len b.u3 • position s p q r := by
        rw [position_smul s hs, mul_comm]
        cases s with
        | cartesian => exact absurd rfl hs
        | spherical => exact hw
        | equatorial => exact hw
      have hsz : size w = len b.u3 * size (position s p q r) := by
        rw [hw', size, size, show (0 : Coord.Vec) = len b.u3 • 0 by simp, chord_smul, abs_of_pos L0]
        simp
      obtain ⟨g1, g2⟩ := hu hs
      obtain ⟨x, y, z, hxyz, ex, ey, ez⟩ := stored_near hT (s := s) (p := b.p) (w := position s p q r) ⟨p, q, r, hp, dp, dq, dr, rfl⟩
        (by
          have : (2 : ℝ) ^ (-900 : ℤ) ≤ 2 ^ (-400 : ℤ) := by norm_num
          refine this.trans ?_
          rw [hsz, mul_comm] at g1
          exact le_of_mul_le_mul_left g1 L0)
        (by
          have : (2 : ℝ) ^ (400 : ℤ) ≤ 2 ^ (900 : ℤ) := by norm_num
          refine le_trans ?_ this
          rw [hsz, mul_comm _ (len b.u3)] at g2
          exact le_of_mul_le_mul_left g2 L0)
      have part : ∀ (i : Fin 3) (x : ℚ), |(x : ℝ) - position s p q r i| ≤ size (position s p q r) * (5 * unit53) →
          |x * len b.u3 - w i| ≤ size w * (5 * unit53) := by
        intro i x hx
        have e : x * len b.u3 - w i = len b.u3 * (x - position s p q r i) := by rw [hw']; simp; ring
        rw [e, hsz, abs_mul, abs_of_pos L0, mul_assoc]
        exact mul_le_mul_of_nonneg_left hx L0.le
      refine ⟨x, y, z, ?_, ?_⟩
      · cases s with
        | cartesian => exact absurd rfl hs
        | spherical => exact hxyz.1
        | equatorial => exact hxyz.1
      · cases s with
        | cartesian => exact absurd rfl hs
        | spherical => exact ⟨part 0 x ex, part 1 y ey, part 2 z ez⟩
        | equatorial => exact ⟨part 0 x ex, part 1 y ey, part 2 z ez⟩
  obtain ⟨x, y, z, hv, ex, ey, ez⟩ := K
  obtain ⟨p, hp, dp, ep⟩ := converted_part hF h0 h1 (u := u1) ex c0 m1.1 m1.2
  obtain ⟨q, hq, dq, eq⟩ := converted_part hF h0 h1 (u := u2) ey c1 m2.1 m2.2
  obtain ⟨r, hr, dr, er⟩ := converted_part hF h0 h1 (u := u3) ez c2 m3.1 m3.2
  rw [hv]
  exact ⟨p, q, r, hp, hq, hr, dp, dq, dr, ep, eq, er⟩

/-- An angular object, measured in the unit of its distance. -/
theorem own_unit {s : Coord.System} (hs : s ≠ .cartesian) {a : QSph U} {w : Coord.Vec} :
    StandsFor len s a w ↔ ∃ v, Stands3 s a.p v ∧ w = len a.u3 • v := by
  have e : ∀ p q r : ℝ, position s p q (r * len a.u3) = len a.u3 • position s p q r := by
    intro p q r
    rw [position_smul s hs, mul_comm]
  constructor
  · rintro ⟨p, q, r, hp, dp, dq, dr, hw⟩
    refine ⟨position s p q r, ⟨p, q, r, hp, dp, dq, dr, rfl⟩, ?_⟩
    cases s with
    | cartesian => exact absurd rfl hs
    | spherical => exact hw.trans (e _ _ _)
    | equatorial => exact hw.trans (e _ _ _)
  · rintro ⟨v, ⟨p, q, r, hp, dp, dq, dr, rfl⟩, hw⟩
    refine ⟨p, q, r, hp, dp, dq, dr, ?_⟩
    cases s with
    | cartesian => exact absurd rfl hs
    | spherical => exact hw.trans (e _ _ _).symm
    | equatorial => exact hw.trans (e _ _ _).symm

/-- The three numbers of a sum whose first operand is angular, in the unit of its distance. -/
theorem mixed_numbers (hF : AccurateFactors len F ε) (h0 : 0 ≤ ε) (h1 : ε ≤ 2 ^ (-20 : ℤ)) {T : Trig} (hT : Accurate T) {s s' : Coord.System} (hs : s ≠ .cartesian)
    {a b : QSph U} {v w : Coord.Vec} (ha : Stands3 s a.p v) (hb : StandsFor len s' b (len a.u3 • w)) (hu : s' ≠ .cartesian → Manageable len b.u3 (len a.u3 • w))
    (v1 : (2 : ℝ) ^ (-400 : ℤ) ≤ size v) (v2 : size v ≤ 2 ^ (400 : ℤ)) (w1 : (2 : ℝ) ^ (-400 : ℤ) ≤ size w) (w2 : size w ≤ 2 ^ (400 : ℤ)) :
    ∃ x y z : ℚ, Coords ((a.cartesian T s).sum F (b.cartesian T s')).v x y z ∧
      chord (vec x y z) (v + w) ≤ 7 / 4 * ((size v + size w) * (101 / 100 * ε + 9 * unit53)) := by
  have L0 := hF.positive a.u3
  have h2 : ε ≤ 1 / 1000000 := h1.trans (by norm_num)
  obtain ⟨x, y, z, hxyz, ex, ey, ez⟩ := stored_near hT ha ((by norm_num : (2 : ℝ) ^ (-900 : ℤ) ≤ 2 ^ (-400 : ℤ)).trans v1)
    (v2.trans (by norm_num))
  have m : Manageable len a.u3 (len a.u3 • w) := by
    rw [Manageable, size_smul, abs_of_pos L0, mul_comm (len a.u3)]
    exact ⟨mul_le_mul_of_nonneg_right w1 L0.le, mul_le_mul_of_nonneg_right w2 L0.le⟩
  obtain ⟨p, q, r, hp, hq, hr, dp, dq, dr, ep, eq, er⟩ := converted hF h0 h1 hT hb a.u3 a.u3 a.u3 hu m m m
  rw [size_smul, abs_of_pos L0] at ep eq er
  have part : ∀ (i : Fin 3) (p : ℚ), |p * len a.u3 - (len a.u3 • w) i| ≤ len a.u3 * size w * (101 / 100 * ε + 7 * unit53) →
      |(p : ℝ) - w i| ≤ size w * (101 / 100 * ε + 7 * unit53) := by
    intro i p hp
    have e : p * len a.u3 - (len a.u3 • w) i = len a.u3 * (p - w i) := by simp; ring
    rw [e, abs_mul, abs_of_pos L0, mul_assoc] at hp
    exact le_of_mul_le_mul_left hp L0
  obtain ⟨a0, a1, a2⟩ := coord_le_size v
  obtain ⟨c0, c1, c2⟩ := coord_le_size w
  have top : size v + size w ≤ 2 ^ (1000 : ℤ) := (add_le_add v2 w2).trans (by norm_num)
  have d0 : 0 ≤ 101 / 100 * ε := by positivity
  have d1 : 101 / 100 * ε ≤ 1 / 1000 := by linarith
  obtain ⟨hv, dx, dy, dz⟩ := hxyz
  obtain ⟨x', hx', dx', ex'⟩ := added_part d0 d1 dx dp ex a0 (part 0 p ep) c0 top
  obtain ⟨y', hy', dy', ey'⟩ := added_part d0 d1 dy dq ey a1 (part 1 q eq) c1 top
  obtain ⟨z', hz', dz', ez'⟩ := added_part d0 d1 dz dr ez a2 (part 2 r er) c2 top
  refine ⟨x', y', z', ⟨?_, dx', dy', dz'⟩, chord_le_of ex' ey' ez'⟩
  have hc : a.cartesian T s = ⟨⟨.num x, .num y, .num z⟩, a.u3, a.u3, a.u3⟩ := by
    rw [← hv]
    cases s with
    | cartesian => exact absurd rfl hs
    | spherical => rfl
    | equatorial => rfl
  rw [hc]
  simp only [QVec.sum, hp, hq, hr, hx', hy', hz']

/-- What is stored after a conversion from Cartesian coordinates: both angles are at most 4. -/
theorem short_angles {T : Trig} {I : InverseTrig} (hT : Accurate T) (hI : AccurateInverse I) (hz : ShortAzimuth I) (junk : Dbl) {s : Coord.System} (hs : s ≠ .cartesian)
    {p : DSph} {v : Coord.Vec} (hp : Stands3 s p v) (lo : (2 : ℝ) ^ (-400 : ℤ) ≤ size v) (hi : size v ≤ 2 ^ (400 : ℤ)) :
    ∃ a b r : ℚ, DSph.ofPoint T I junk s s p = ⟨.num a, .num b, .num r⟩ ∧ IsDouble a ∧ IsDouble b ∧ IsDouble r ∧ |(a : ℝ)| ≤ 4 ∧ |(b : ℝ)| ≤ 4 := by
  have u0 := unit53_pos
  have S0 := size_nonneg v
  obtain ⟨x, y, z, hc, ec⟩ := cartesian_chord hT hp (le_trans (by norm_num) lo) (hi.trans (by norm_num))
  have n1 := size_sub (vec x y z) v
  have n2 := size_sub v (vec x y z)
  rw [chord_comm] at n2
  have mu : size v * unit53 ≤ size v * (1 / 1000000) := mul_le_mul_of_nonneg_left (by norm_num [unit53]) S0
  obtain ⟨r1, r2⟩ := vec_range (x := x) (y := y) (z := z) (by
      have t1 : (2 : ℝ) ^ (-480 : ℤ) ≤ 2 ^ (-400 : ℤ) / 2 := by norm_num
      refine t1.trans ?_
      clear hi
      generalize (2 : ℝ) ^ (-400 : ℤ) = δ at *
      linarith) (by
      have t1 : 2 * (2 : ℝ) ^ (400 : ℤ) ≤ 2 ^ (500 : ℤ) := by norm_num
      refine le_trans ?_ t1
      clear lo
      generalize (2 : ℝ) ^ (400 : ℤ) = δ at *
      linarith)
  obtain ⟨m, c, k, a, b, hform, da, db, dm, -, -, -, -, -, eb⟩ := angular_parts hI junk hs hc r1 r2 _ rfl
  refine ⟨a, b, m, hform, da, db, dm, ?_, ?_⟩
  · cases s with
    | cartesian => exact absurd rfl hs
    | spherical => exact hz _ _ _ (congrArg DSph.c0 hform)
    | equatorial => exact hz _ _ _ (congrArg DSph.c0 hform)
  · have q := Real.pi_lt_d2
    norm_num at q
    have u1 : 2 * unit53 ≤ 1 / 100 := by norm_num [unit53]
    obtain ⟨l, h⟩ := abs_le.1 eb
    rw [abs_le]
    split at l
    · rename_i e
      rw [if_pos e] at h
      have := Real.arccos_nonneg c
      have := Real.arccos_le_pi c
      constructor <;> linarith
    · rename_i e
      rw [if_neg e] at h
      have := Real.neg_pi_div_two_le_arcsin c
      have := Real.arcsin_le_pi_div_two c
      constructor <;> linarith

end Astro
