import Verif.Lemmas.MixedSum
import Verif.Lemmas.CosLatDouble
import Verif.Model.CosLatSum

/-
Lemmas on sums of coslat differentials with different units.
-/

set_option exponentiation.threshold 3000

namespace Astro

open Spec Time

attribute [local irreducible] FloatFmt.nearest FloatFmt.value Dbl.round

variable {U : Type} {len : U → ℝ} {F : Factors U} {rad : U} {ε : ℝ}

/-- Coordinates near a vector, converted twice to spherical ones: the polar angle is in the usual range. -/
theorem twice_polar {T : Trig} {I : InverseTrig} (hT : Accurate T) (hI : AccurateInverse I) (junk : Dbl) {d : DVec} {x y z : ℚ}
    (h : Coords d x y z) {W : Coord.Vec} {E : ℝ} (hE : chord (vec x y z) W ≤ E) (hs : 40 * E ≤ size W) (lo : (2 : ℝ) ^ (-460 : ℤ) ≤ size W)
    (hi : size W ≤ 2 ^ (490 : ℤ)) :
    ∃ a b r : ℚ, d.makeAngular T I junk .spherical = ⟨.num a, .num b, .num r⟩ ∧ IsDouble a ∧ IsDouble b ∧ IsDouble r ∧
      (0 ≤ (r : ℝ) ∧ -2 ^ (-52 : ℤ) ≤ (b : ℝ) ∧ (b : ℝ) ≤ Real.pi + 2 ^ (-52 : ℤ)) ∧
      chord (position .spherical a b r) W ≤ size W * 2 ^ (-22 : ℤ) + 4 / 3 * E ∧
      (size W / 3 ≤ √(W 0 ^ 2 + W 1 ^ 2) → chord (position .spherical a b r) W ≤ size W * 2 ^ (-44 : ℤ) + 4 / 3 * E) := by
  have u0 := unit53_pos
  have E0 : 0 ≤ E := (chord_nonneg _ _).trans hE
  have W0 := size_nonneg W
  obtain ⟨z', ⟨a, b, r, hpt, da, db, dr, rfl⟩, y1, y2⟩ := twice_back hT hI junk (s := .spherical) h hE hs lo hi
  refine ⟨a, b, r, hpt, da, db, dr, ?_, y1, y2⟩
  obtain ⟨w, hw, w1, -⟩ := back_exact_near hI (.num 0) (s := .spherical) h hE (by linarith) ((by norm_num : (2 : ℝ) ^ (-470 : ℤ) ≤ 2 ^ (-460 : ℤ)).trans lo) hi
  have m2 : size W * 2 ^ (-23 : ℤ) ≤ size W * (1 / 1000) := mul_le_mul_of_nonneg_left (by norm_num) W0
  have mu : size W * unit53 ≤ size W * (1 / 1000000) := mul_le_mul_of_nonneg_left (by norm_num [unit53]) W0
  have q1 := size_sub w W
  have q2 := size_sub W w
  rw [chord_comm] at q2
  have n0 : chord w W ≤ size W / 4 := by
    clear lo hi
    generalize (2 : ℝ) ^ (-23 : ℤ) = ε at *
    linarith
  obtain ⟨x', y', t, hx, ex, ey, et⟩ := stored_near hT hw (by
      have : (2 : ℝ) ^ (-900 : ℤ) ≤ 2 ^ (-460 : ℤ) / 2 := by norm_num
      refine this.trans ?_
      clear hi
      generalize (2 : ℝ) ^ (-460 : ℤ) = δ at *
      linarith) (by
      have : 2 * (2 : ℝ) ^ (490 : ℤ) ≤ 2 ^ (900 : ℤ) := by norm_num
      linarith)
  have hd : chord (vec x' y' t) w ≤ _ := chord_le_of ex ey et
  have n3 := mul_le_mul_of_nonneg_right (show size w ≤ 2 * size W by linarith) (show 0 ≤ 7 / 4 * (5 * unit53) by positivity)
  have tri := chord_triangle (vec x' y' t) w W
  have s1 := size_sub (vec x' y' t) W
  have s2 := size_sub W (vec x' y' t)
  rw [chord_comm] at s2
  clear w1 y1 y2 m2
  exact polar_range hI junk hx (by
      have : (2 : ℝ) ^ (-480 : ℤ) ≤ 2 ^ (-460 : ℤ) / 2 := by norm_num
      refine this.trans ?_
      clear this hi
      generalize (2 : ℝ) ^ (-460 : ℤ) = δ at *
      linarith) (by
      have : 2 * (2 : ℝ) ^ (490 : ℤ) ≤ 2 ^ (500 : ℤ) := by norm_num
      refine le_trans ?_ this
      clear this lo
      generalize (2 : ℝ) ^ (490 : ℤ) = δ at *
      linarith) hpt

/-- make_spherical_coslat_differential of Cartesian numbers and the conversion constructor: radians are not converted. -/
theorem cosLat_unconverted (hF : AccurateFactors len F ε) {T : Trig} {I : InverseTrig} (hT : Accurate T) (junk : Dbl) {d : DVec} {a b r : ℚ}
    (hd : d.makeAngular T I junk .spherical = ⟨.num a, .num b, .num r⟩) (da : IsDouble a) (db : IsDouble b) (hb : |(b : ℝ)| ≤ 4) {v : Coord.Vec}
    (hv : Stands3 .spherical (DSph.ofPoint T I junk .spherical .spherical ⟨.num a, (Dbl.num b).mul (T.cos (.num a)), .num r⟩) v) (u u1 u2 : U) :
    ((⟨⟨d.x, d.y, d.z⟩, u, u, u⟩ : QSph U).makeCosLat F rad T I junk .cartesian).convert F rad u1 u2 u =
      ⟨DSph.ofPoint T I junk .spherical .spherical ⟨.num a, (Dbl.num b).mul (T.cos (.num a)), .num r⟩, u1, u2, u⟩ := by
  obtain ⟨q, hq, dq, -⟩ := cosLat_product hT da hb
  have e : (⟨⟨d.x, d.y, d.z⟩, u, u, u⟩ : QSph U).makeSpherical rad T I junk .cartesian = ⟨⟨.num a, .num b, .num r⟩, rad, rad, u⟩ := by
    rw [← hd]; rfl
  simp only [QSph.makeCosLat, e, radians_same hF da, factor_same hF _ db, hq, factor_same hF _ dq] at hv ⊢
  obtain ⟨a', b', r', h', da', db', dr', -⟩ := hv
  rw [h', convert_same hF da' db' dr']

end Astro
