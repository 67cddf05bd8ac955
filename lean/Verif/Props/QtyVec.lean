import Verif.Lemmas.QtyVec
import Verif.Props.RepDouble

/-
C127: arithmetic on Cartesian vectors whose quantities have different units, in double arithmetic.
-/

set_option exponentiation.threshold 3000

namespace Astro

open Spec Time

attribute [local irreducible] FloatFmt.nearest FloatFmt.value Dbl.round

variable {U : Type} {size : U → ℝ} {F : Factors U} {ε : ℝ}

/-- **C127.** Other units for a vector: every coordinate stays what it is up to the error of the factor and one rounding. -/
theorem C127_units (hF : AccurateFactors size F ε) (h0 : 0 ≤ ε) (h1 : ε ≤ 1 / 16) (a : QVec U) (v1 v2 v3 : U) {X Y Z : ℝ} (ha : Measures size a X Y Z)
    (oX : Ordinary size v1 X) (oY : Ordinary size v2 Y) (oZ : Ordinary size v3 Z) :
    ∃ P Q R, Measures size (a.changeUnits F v1 v2 v3) P Q R ∧
      |P - X| ≤ |X| * (ε + 2 ^ (-52 : ℤ)) ∧ |Q - Y| ≤ |Y| * (ε + 2 ^ (-52 : ℤ)) ∧ |R - Z| ≤ |Z| * (ε + 2 ^ (-52 : ℤ)) := by
  obtain ⟨x, y, z, ⟨hv, dx, dy, dz⟩, hX, hY, hZ⟩ := ha
  obtain ⟨p, hp, dp, ep⟩ := cast_rel hF h0 h1 hX oX
  obtain ⟨q, hq, dq, eq⟩ := cast_rel hF h0 h1 hY oY
  obtain ⟨r, hr, dr, er⟩ := cast_rel hF h0 h1 hZ oZ
  have key : ∀ {t : ℚ} {T : ℝ} {u : U}, Rel t (T / size u) (castErr ε) → |t * size u - T| ≤ |T| * (ε + 2 ^ (-52 : ℤ)) := by
    intro t T u h
    have h2 := scale_rel hF h
    refine h2.trans (mul_le_mul_of_nonneg_left ?_ (abs_nonneg _))
    have := castErr_le h1
    have := unit53_pos
    rw [show (2 : ℝ) ^ (-52 : ℤ) = 2 * unit53 by norm_num [unit53]]
    linarith
  refine ⟨_, _, _, ⟨p, q, r, ⟨?_, dp, dq, dr⟩, rfl, rfl, rfl⟩, key ep, key eq, key er⟩
  unfold QVec.changeUnits
  rw [hv]
  show DVec.mk _ _ _ = _
  rw [hp, hq, hr]

/-- **C127.** The sum of vectors with different units: accurate compared with the sum of the absolute values of the coordinates. -/
theorem C127_sum (hF : AccurateFactors size F ε) (h0 : 0 ≤ ε) (h1 : ε ≤ 1 / 16) (a b : QVec U) {X Y Z X' Y' Z' : ℝ} (ha : Measures size a X Y Z)
    (hb : Measures size b X' Y' Z') (oX : Ordinary size a.u1 X ∧ Ordinary size a.u1 X') (oY : Ordinary size a.u2 Y ∧ Ordinary size a.u2 Y')
    (oZ : Ordinary size a.u3 Z ∧ Ordinary size a.u3 Z') :
    ∃ P Q R, Measures size (a.sum F b) P Q R ∧ |P - (X + X')| ≤ (|X| + |X'|) * (ε + 2 ^ (-51 : ℤ)) ∧ |Q - (Y + Y')| ≤ (|Y| + |Y'|) * (ε + 2 ^ (-51 : ℤ)) ∧
      |R - (Z + Z')| ≤ (|Z| + |Z'|) * (ε + 2 ^ (-51 : ℤ)) := by
  obtain ⟨x, y, z, ⟨hv, dx, dy, dz⟩, hX, hY, hZ⟩ := ha
  obtain ⟨x', y', z', ⟨hv', dx', dy', dz'⟩, hX', hY', hZ'⟩ := hb
  have key : ∀ {t t' : ℚ} {T T' : ℝ} {u u' : U}, IsDouble t → T = t * size u → T' = t' * size u' → Ordinary size u T → Ordinary size u T' →
      ∃ s, (Dbl.num t).add ((Dbl.num t').mul (F u' u)) = .num s ∧ IsDouble s ∧ |s * size u - (T + T')| ≤ (|T| + |T'|) * (ε + 2 ^ (-51 : ℤ)) := by
    intro t t' T T' u u' dt hT hT' o o'
    obtain ⟨p, hp, dp, ep⟩ := cast_rel hF h0 h1 hT' o'
    have s0 := hF.positive u
    have et : Rel t (T / size u) (castErr ε) := by
      have : (t : ℝ) = T / size u := by rw [hT]; field_simp
      rw [← this]
      exact rel_mono (rel_self t) (castErr_nonneg h0)
    obtain ⟨s, hs, ds, es⟩ := sum_rel dt dp et ep (by have := castErr_small h1; linarith) ((usual_le (usual_of hF o)).trans (zpow_le_zpow_right₀ (by norm_num) (by norm_num)))
      ((usual_le (usual_of hF o')).trans (zpow_le_zpow_right₀ (by norm_num) (by norm_num)))
    refine ⟨s, by rw [hp, hs], ds, ?_⟩
    have e1 : s * size u - (T + T') = (s - (T / size u + T' / size u)) * size u := by field_simp
    rw [e1, abs_mul, abs_of_pos s0]
    refine (mul_le_mul_of_nonneg_right es s0.le).trans ?_
    rw [abs_div, abs_div, abs_of_pos s0]
    have e2 : (|T| / size u + |T'| / size u) * (castErr ε + (1 + castErr ε) * unit53) * size u = (|T| + |T'|) * (castErr ε + (1 + castErr ε) * unit53) := by field_simp
    rw [e2]
    refine mul_le_mul_of_nonneg_left ?_ (by positivity)
    have c1 := castErr_le h1
    have c2 := castErr_small h1
    have u0 := unit53_pos
    have c3 : (1 + castErr ε) * unit53 ≤ (1 + 1 / 15) * unit53 := mul_le_mul_of_nonneg_right (by linarith) u0.le
    rw [show (2 : ℝ) ^ (-51 : ℤ) = 4 * unit53 by norm_num [unit53]]
    linarith
  obtain ⟨p, hp, dp, ep⟩ := key dx hX hX' oX.1 oX.2
  obtain ⟨q, hq, dq, eq⟩ := key dy hY hY' oY.1 oY.2
  obtain ⟨r, hr, dr, er⟩ := key dz hZ hZ' oZ.1 oZ.2
  refine ⟨_, _, _, ⟨p, q, r, ⟨?_, dp, dq, dr⟩, rfl, rfl, rfl⟩, ep, eq, er⟩
  unfold QVec.sum
  rw [hv, hv']
  show DVec.mk _ _ _ = _
  rw [hp, hq, hr]

/-- **C127.** The mean. -/
theorem C127_mean (hF : AccurateFactors size F ε) (h0 : 0 ≤ ε) (h1 : ε ≤ 1 / 16) (a b : QVec U) {X Y Z X' Y' Z' : ℝ} (ha : Measures size a X Y Z)
    (hb : Measures size b X' Y' Z') (oX : Ordinary size a.u1 X ∧ Ordinary size a.u1 X') (oY : Ordinary size a.u2 Y ∧ Ordinary size a.u2 Y')
    (oZ : Ordinary size a.u3 Z ∧ Ordinary size a.u3 Z') :
    ∃ P Q R, Measures size (a.mean F b) P Q R ∧ |P - (X + X') / 2| ≤ (|X| + |X'|) / 2 * (ε + 2 ^ (-51 : ℤ)) ∧
      |Q - (Y + Y') / 2| ≤ (|Y| + |Y'|) / 2 * (ε + 2 ^ (-51 : ℤ)) ∧ |R - (Z + Z') / 2| ≤ (|Z| + |Z'|) / 2 * (ε + 2 ^ (-51 : ℤ)) := by
  obtain ⟨x, y, z, ⟨hv, dx, dy, dz⟩, hX, hY, hZ⟩ := ha
  obtain ⟨x', y', z', ⟨hv', dx', dy', dz'⟩, hX', hY', hZ'⟩ := hb
  have key : ∀ {t t' : ℚ} {T T' : ℝ} {u u' : U}, IsDouble t → T = t * size u → T' = t' * size u' → Ordinary size u T → Ordinary size u T' →
      ∃ s, ((Dbl.num t).add ((Dbl.num t').mul (F u' u))).div (.num 2) = .num s ∧ IsDouble s ∧
        |s * size u - (T + T') / 2| ≤ (|T| + |T'|) / 2 * (ε + 2 ^ (-51 : ℤ)) := by
    intro t t' T T' u u' dt hT hT' o o'
    obtain ⟨p, hp, dp, ep⟩ := cast_rel hF h0 h1 hT' o'
    have s0 := hF.positive u
    have et : Rel t (T / size u) (castErr ε) := by
      have : (t : ℝ) = T / size u := by rw [hT]; field_simp
      rw [← this]
      exact rel_mono (rel_self t) (castErr_nonneg h0)
    obtain ⟨s, hs, ds, es⟩ := mean_rel dt dp et ep (by have := castErr_small h1; linarith) (usual_of hF o) (usual_of hF o')
    refine ⟨s, by rw [hp, hs], ds, ?_⟩
    have e1 : s * size u - (T + T') / 2 = (s - (T / size u + T' / size u) / 2) * size u := by field_simp
    rw [e1, abs_mul, abs_of_pos s0]
    refine (mul_le_mul_of_nonneg_right es s0.le).trans ?_
    rw [abs_div, abs_div, abs_of_pos s0]
    have e2 : (|T| / size u + |T'| / size u) / 2 * (castErr ε + (2 + castErr ε) * unit53) * size u = (|T| + |T'|) / 2 * (castErr ε + (2 + castErr ε) * unit53) := by
      field_simp
    rw [e2]
    refine mul_le_mul_of_nonneg_left ?_ (by positivity)
    have c1 := castErr_le h1
    have c2 := castErr_small h1
    have u0 := unit53_pos
    have c3 : (2 + castErr ε) * unit53 ≤ (2 + 1 / 15) * unit53 := mul_le_mul_of_nonneg_right (by linarith) u0.le
    rw [show (2 : ℝ) ^ (-51 : ℤ) = 4 * unit53 by norm_num [unit53]]
    linarith
  obtain ⟨p, hp, dp, ep⟩ := key dx hX hX' oX.1 oX.2
  obtain ⟨q, hq, dq, eq⟩ := key dy hY hY' oY.1 oY.2
  obtain ⟨r, hr, dr, er⟩ := key dz hZ hZ' oZ.1 oZ.2
  refine ⟨_, _, _, ⟨p, q, r, ⟨?_, dp, dq, dr⟩, rfl, rfl, rfl⟩, ep, eq, er⟩
  unfold QVec.mean
  rw [hv, hv']
  show DVec.mk _ _ _ = _
  rw [hp, hq, hr]

/-- **C127.** The cross product: its numbers, in the products of the units, are accurate compared with the sum of the absolute products. -/
theorem C127_cross (hF : AccurateFactors size F ε) (h0 : 0 ≤ ε) (h1 : ε ≤ 1 / 16) (a b : QVec U) {X Y Z X' Y' Z' : ℝ} (ha : Measures size a X Y Z)
    (hb : Measures size b X' Y' Z') (oa : OrdinaryVector size a X Y Z) (ob : OrdinaryVector size b X' Y' Z') :
    ∃ p q r : ℚ, Coords (a.cross F b) p q r ∧
      |p * (size a.u2 * size b.u3) - (Y * Z' - Z * Y')| ≤ (|Y * Z'| + |Z * Y'|) * (3 * ε + 2 ^ (-50 : ℤ)) ∧
      |q * (size a.u3 * size b.u1) - (Z * X' - X * Z')| ≤ (|Z * X'| + |X * Z'|) * (3 * ε + 2 ^ (-50 : ℤ)) ∧
      |r * (size a.u1 * size b.u2) - (X * Y' - Y * X')| ≤ (|X * Y'| + |Y * X'|) * (3 * ε + 2 ^ (-50 : ℤ)) := by
  obtain ⟨x, y, z, ⟨hv, dx, dy, dz⟩, hX, hY, hZ⟩ := ha
  obtain ⟨x', y', z', ⟨hv', dx', dy', dz'⟩, hX', hY', hZ'⟩ := hb
  have a1 := oa a.u1 (by simp)
  have a2 := oa a.u2 (by simp)
  have a3 := oa a.u3 (by simp)
  have b1 := ob b.u1 (by simp)
  have b2 := ob b.u2 (by simp)
  have b3 := ob b.u3 (by simp)
  obtain ⟨p, hp, dp, ep⟩ := cross_part hF h0 h1 hY hZ' hZ hY' a2.2.1 b3.2.2 a2.2.2 b3.2.1
  obtain ⟨q, hq, dq, eq⟩ := cross_part hF h0 h1 hZ hX' hX hZ' a3.2.2 b1.1 a3.1 b1.2.2
  obtain ⟨r, hr, dr, er⟩ := cross_part hF h0 h1 hX hY' hY hX' a1.1 b2.2.1 a1.2.1 b2.1
  refine ⟨p, q, r, ⟨?_, dp, dq, dr⟩, ep, eq, er⟩
  unfold QVec.cross
  rw [hv, hv']
  show DVec.mk _ _ _ = _
  rw [hp, hq, hr]

/-- **C127.** The dot product: its number, in the product of the first units, is accurate compared with the sum of the absolute products. -/
theorem C127_dot (hF : AccurateFactors size F ε) (h0 : 0 ≤ ε) (h1 : ε ≤ 1 / 16) (a b : QVec U) {X Y Z X' Y' Z' : ℝ} (ha : Measures size a X Y Z)
    (hb : Measures size b X' Y' Z') (oa : OrdinaryVector size a X Y Z) (ob : OrdinaryVector size b X' Y' Z') :
    a.dot F b = b.dot F a ∧ ∃ d : ℚ, a.dot F b = .num d ∧
      |d * (size a.u1 * size b.u1) - (X * X' + Y * Y' + Z * Z')| ≤ (|X * X'| + |Y * Y'| + |Z * Z'|) * (3 * ε + 2 ^ (-50 : ℤ)) := by
  refine ⟨C104_comm _ _, ?_⟩
  have o := oa a.u1 (by simp)
  have o' := ob b.u1 (by simp)
  obtain ⟨p, q, r, hv, ep, eq, er⟩ := first_rel hF h0 h1 ha o
  obtain ⟨p', q', r', hv', ep', eq', er'⟩ := first_rel hF h0 h1 hb o'
  obtain ⟨d, hd, ed⟩ := dot_rel h0 h1 hv hv' ep eq er ep' eq' er' (usual_of hF o.1) (usual_of hF o.2.1) (usual_of hF o.2.2) (usual_of hF o'.1) (usual_of hF o'.2.1)
    (usual_of hF o'.2.2)
  refine ⟨d, hd, ?_⟩
  have s1 := hF.positive a.u1
  have s2 := hF.positive b.u1
  generalize size a.u1 = s at *
  generalize size b.u1 = s' at *
  have sp : 0 < s * s' := mul_pos s1 s2
  have e1 : d * (s * s') - (X * X' + Y * Y' + Z * Z') = (d - (X / s * (X' / s') + Y / s * (Y' / s') + Z / s * (Z' / s'))) * (s * s') := by field_simp
  rw [e1, abs_mul, abs_of_pos sp]
  refine (mul_le_mul_of_nonneg_right ed sp.le).trans (le_of_eq ?_)
  simp only [abs_mul, abs_div, abs_of_pos s1, abs_of_pos s2]
  field_simp

/-- **C127.** The magnitude: accurate, whatever the units. -/
theorem C127_magnitude (hF : AccurateFactors size F ε) (h0 : 0 ≤ ε) (h1 : ε ≤ 1 / 16) (a : QVec U) {X Y Z : ℝ} (ha : Measures size a X Y Z)
    (oa : OrdinaryVector size a X Y Z) :
    ∃ m : ℚ, a.magnitude F = .num m ∧ |m * size a.u1 - √(X * X + Y * Y + Z * Z)| ≤ √(X * X + Y * Y + Z * Z) * (ε + 2 ^ (-50 : ℤ)) := by
  have o := oa a.u1 (by simp)
  obtain ⟨p, q, r, hv, ep, eq, er⟩ := first_rel hF h0 h1 ha o
  obtain ⟨m, hm, em⟩ := mag_rel h0 h1 hv ep eq er (usual_of hF o.1) (usual_of hF o.2.1) (usual_of hF o.2.2)
  refine ⟨m, hm, ?_⟩
  have s1 := hF.positive a.u1
  rw [sqrt_scale s1] at em
  generalize √(X * X + Y * Y + Z * Z) = L at *
  generalize size a.u1 = s at *
  have e1 : m * s - L = (m - L / s) * s := by field_simp
  rw [e1, abs_mul, abs_of_pos s1]
  refine (mul_le_mul_of_nonneg_right em s1.le).trans (le_of_eq ?_)
  field_simp

/-- **C127.** Conversion of a vector with different units to angular coordinates and back gives the vector again. -/
theorem C127_angular {T : Trig} {I : InverseTrig} (hT : Accurate T) (hI : AccurateInverse I) (junk : Dbl) (s : Coord.System) (hs : s ≠ .cartesian)
    (hF : AccurateFactors size F ε) (h0 : 0 ≤ ε) (h1 : ε ≤ 1 / 16) (a : QVec U) {X Y Z L : ℝ} (ha : Measures size a X Y Z) (oa : OrdinaryVector size a X Y Z)
    (hL : L = √(X * X + Y * Y + Z * Z)) (hn : L ≠ 0) :
    ∃ x y z : ℚ, Coords (((a.inFirst F).makeAngular T I junk s).makeCartesian T s) x y z ∧ |x * size a.u1 - X| ≤ L * (ε + 2 ^ (-21 : ℤ)) ∧
      |y * size a.u1 - Y| ≤ L * (ε + 2 ^ (-21 : ℤ)) ∧ |z * size a.u1 - Z| ≤ L * (ε + 2 ^ (-45 : ℤ)) := by
  have o := oa a.u1 (by simp)
  have s1 := hF.positive a.u1
  have c0 := castErr_nonneg h0
  have c1 := castErr_le h1
  have c2 := castErr_small h1
  have u0 := unit53_pos
  obtain ⟨p, q, r, hv, ep, eq, er⟩ := first_rel hF h0 h1 ha o
  have hz : ¬ (X / size a.u1 = 0 ∧ Y / size a.u1 = 0 ∧ Z / size a.u1 = 0) := by
    rintro ⟨z1, z2, z3⟩
    apply hn
    rw [div_eq_zero_iff, or_iff_left s1.ne'] at z1 z2 z3
    rw [hL, z1, z2, z3]
    simp
  obtain ⟨lo, hi⟩ := square_range ep eq er (by linarith) (usual_of hF o.1) (usual_of hF o.2.1) (usual_of hF o.2.2) (not_all_zero hz)
  obtain ⟨x, y, z, hc, ex, ey, ez⟩ := C118_make hT hI junk s hs _ p q r hv lo hi _ rfl
  have hl := length_rel c0 ep eq er
  rw [sqrt_scale s1, ← hL] at hl
  have L0 : 0 ≤ L := by rw [hL]; exact Real.sqrt_nonneg _
  have lX : |X| ≤ L := by rw [hL]; apply Real.abs_le_sqrt; nlinarith [mul_self_nonneg Y, mul_self_nonneg Z]
  have lY : |Y| ≤ L := by rw [hL]; apply Real.abs_le_sqrt; nlinarith [mul_self_nonneg X, mul_self_nonneg Z]
  have lZ : |Z| ≤ L := by rw [hL]; apply Real.abs_le_sqrt; nlinarith [mul_self_nonneg X, mul_self_nonneg Y]
  refine ⟨x, y, z, hc, ?_⟩
  generalize √((p : ℝ) * p + q * q + r * r) = L' at *
  have hL' : L' * size a.u1 ≤ L * (16 / 15) := by
    have h2 : L' ≤ L / size a.u1 * (1 + castErr ε) := by linarith [(abs_le.1 hl).2]
    have h3 := mul_le_mul_of_nonneg_right h2 s1.le
    have h4 : L / size a.u1 * (1 + castErr ε) * size a.u1 = L * (1 + castErr ε) := by field_simp
    rw [h4] at h3
    exact h3.trans (mul_le_mul_of_nonneg_left (by linarith) L0)
  have key : ∀ {t t' : ℚ} {W e f : ℝ}, |(t : ℝ) - t'| ≤ L' * e → Rel t' (W / size a.u1) (castErr ε) → |W| ≤ L → 0 ≤ e → 16 / 15 * e + 107 / 100 * unit53 ≤ f →
      |t * size a.u1 - W| ≤ L * (ε + f) := by
    intro t t' W e f ht ht' hW he hf
    have h2 := scale_rel hF ht'
    have e1 : t * size a.u1 - W = (t - t') * size a.u1 + (t' * size a.u1 - W) := by ring
    rw [e1]
    refine (abs_add_le _ _).trans ?_
    rw [abs_mul, abs_of_pos s1]
    have h3 := mul_le_mul_of_nonneg_right ht s1.le
    have h4 := mul_le_mul_of_nonneg_right hL' he
    have h5 : |W| * castErr ε ≤ L * castErr ε := mul_le_mul_of_nonneg_right hW c0
    have h6 : 16 / 15 * e + castErr ε ≤ ε + f := by linarith
    have h7 := mul_le_mul_of_nonneg_left h6 L0
    have h8 : L' * e * size a.u1 = L' * size a.u1 * e := by ring
    rw [h8] at h3
    linarith
  exact ⟨key ex ep lX (by positivity) (by norm_num [unit53]), key ey eq lY (by positivity) (by norm_num [unit53]), key ez er lZ (by positivity) (by norm_num [unit53])⟩

/-- **C127.** With one unit throughout nothing is converted: the results are those of C104-C108. -/
theorem C127_same (hF : AccurateFactors size F ε) (u : U) (v w : DVec) (x y z x' y' z' : ℚ) (hv : Coords v x y z) (hw : Coords w x' y' z') :
    (QVec.sum F ⟨v, u, u, u⟩ ⟨w, u, u, u⟩).v = v.sum w ∧ (QVec.mean F ⟨v, u, u, u⟩ ⟨w, u, u, u⟩).v = v.mean w ∧
      QVec.dot F ⟨v, u, u, u⟩ ⟨w, u, u, u⟩ = v.dot w ∧ QVec.cross F ⟨v, u, u, u⟩ ⟨w, u, u, u⟩ = v.cross w ∧
      QVec.magnitude F ⟨v, u, u, u⟩ = v.magnitude ∧ QVec.changeUnits F ⟨v, u, u, u⟩ u u u = ⟨v, u, u, u⟩ := by
  have one : ∀ {t : ℚ}, IsDouble t → (Dbl.num t).mul (F u u) = .num t := by
    intro t ht
    rw [hF.same, mul_num, mul_one, round_exact ht]
  obtain ⟨rfl, dx, dy, dz⟩ := hv
  obtain ⟨rfl, dx', dy', dz'⟩ := hw
  refine ⟨?_, ?_, ?_, ?_, ?_, ?_⟩ <;>
    simp only [QVec.sum, QVec.mean, QVec.dot, QVec.cross, QVec.magnitude, QVec.changeUnits, QVec.inFirst, DVec.sum, DVec.mean, DVec.cross, one dx, one dy, one dz, one dx', one dy',
      one dz']

/-- Metres and kilometres: the factors are accurate to 2^-53. -/
def exampleFactors : Factors Bool := fun a b => if a = b then .num 1 else if a then .num 1000 else .round (1 / 1000)

theorem exampleFactors_accurate : AccurateFactors (fun b : Bool => if b then (1000 : ℝ) else 1) exampleFactors (2 ^ (-53 : ℤ)) where
  positive := by intro a; cases a <;> norm_num
  same := by intro a; cases a <;> rfl
  other := by
    intro a b
    cases a <;> cases b
    · exact ⟨1, rfl, isDouble_one, by norm_num⟩
    · obtain ⟨p, h1, h2, h3⟩ := round_rel (t := 1 / 1000) (Or.inr (by
        rw [abs_of_pos (by norm_num)]
        exact le_trans (zpow_le_zpow_right₀ (by norm_num) (show (-1021 : ℤ) ≤ -20 by norm_num)) (by norm_num))) (by
        rw [abs_of_pos (by norm_num)]
        exact le_trans (by norm_num) (one_le_zpow₀ (by norm_num) (by norm_num)))
      refine ⟨p, h1, h2, ?_⟩
      push_cast at h3
      rw [abs_of_pos (show (0 : ℝ) < 1 / 1000 by norm_num)] at h3
      exact h3
    · exact ⟨1000, rfl, ⟨1000, 0, by norm_num, by norm_num, by norm_num, by norm_num⟩, by norm_num⟩
    · exact ⟨1, rfl, isDouble_one, by norm_num⟩

/-- (1 km, 500 m, 0 m) + (250 m, 1 km, 3 km) = (1.25 km, 1500 m, 3000 m). -/
example : QVec.sum exampleFactors ⟨⟨.num 1, .num 500, .num 0⟩, true, false, false⟩ ⟨⟨.num 250, .num 1, .num 3⟩, false, true, true⟩ =
    ⟨⟨.num (5 / 4), .num 1500, .num 3000⟩, true, false, false⟩ := by
  have : QVec.sum exampleFactors ⟨⟨.num 1, .num 500, .num 0⟩, true, false, false⟩ ⟨⟨.num 250, .num 1, .num 3⟩, false, true, true⟩ =
    ⟨(QVec.sum exampleFactors ⟨⟨.num 1, .num 500, .num 0⟩, true, false, false⟩ ⟨⟨.num 250, .num 1, .num 3⟩, false, true, true⟩).v, true, false, false⟩ := rfl
  rw [this]
  congr 1
  decide +kernel

end Astro
