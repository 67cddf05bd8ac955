import Verif.Model.Rotation
import Mathlib.LinearAlgebra.Matrix.DotProduct
import Mathlib.LinearAlgebra.Matrix.Determinant.Basic
import Mathlib.Analysis.SpecialFunctions.Trigonometric.Bounds
import Mathlib.Analysis.Real.Pi.Bounds
import Mathlib.Tactic.FinCases

/-
Rotation matrices between coordinate systems (C53 to C58, C69).
-/

namespace Astro

open Astro.Coord Matrix

/-! Specification -/

/-- The matrix preserves inner products, hence lengths and angles. -/
def Spec.Isometry (m : Mat) : Prop := ∀ v w : Vec, (m *ᵥ v) ⬝ᵥ (m *ᵥ w) = v ⬝ᵥ w

/-- The matrices of the code that depend on an angle. -/
def Spec.AngleMatrix (m : Mat) : Prop := ∃ a, m = haDecHorizon a ∨ m = haDecRaDec a ∨ m = eclipticToRaDec a ∨ m = raDecToEcliptic a

theorem isometry_of_orthogonal {m : Mat} (h : mᵀ * m = 1) : Spec.Isometry m := by
  intro v w
  rw [dotProduct_mulVec, vecMul_mulVec, h, vecMul_one]

/-! C54, C55 -/

/-- C54: the hour-angle/horizon matrix is its own inverse. -/
theorem C54_horizon (phi : ℝ) (v : Vec) : haDecHorizon phi *ᵥ (haDecHorizon phi *ᵥ v) = v := by
  have h := Real.sin_sq_add_cos_sq phi
  have e : haDecHorizon phi * haDecHorizon phi = 1 := by
    ext i j
    fin_cases i <;> fin_cases j <;> simp [haDecHorizon, Matrix.mul_apply, Fin.sum_univ_three] <;> nlinarith
  rw [mulVec_mulVec, e, one_mulVec]

/-- C54: the hour-angle/right-ascension matrix is its own inverse. -/
theorem C54_ra (st : ℝ) (v : Vec) : haDecRaDec st *ᵥ (haDecRaDec st *ᵥ v) = v := by
  have h := Real.sin_sq_add_cos_sq st
  have e : haDecRaDec st * haDecRaDec st = 1 := by
    ext i j
    fin_cases i <;> fin_cases j <;> simp [haDecRaDec, Matrix.mul_apply, Fin.sum_univ_three] <;> nlinarith
  rw [mulVec_mulVec, e, one_mulVec]

/-- Sidereal time a quarter turn: the axes are exchanged, and exchanged back. -/
example : haDecRaDec (Real.pi / 2) *ᵥ ![1, 2, 3] = ![2, 1, 3] ∧ haDecRaDec (Real.pi / 2) *ᵥ ![2, 1, 3] = ![1, 2, 3] := by
  constructor <;> ext i <;> fin_cases i <;> simp [haDecRaDec, Matrix.mulVec, dotProduct, Fin.sum_univ_three]

/-- C55: the two ecliptic matrices are inverse to each other. -/
theorem C55_ecliptic (e : ℝ) (v : Vec) :
    raDecToEcliptic e *ᵥ (eclipticToRaDec e *ᵥ v) = v ∧ eclipticToRaDec e *ᵥ (raDecToEcliptic e *ᵥ v) = v := by
  have h := Real.sin_sq_add_cos_sq e
  have e1 : raDecToEcliptic e * eclipticToRaDec e = 1 := by
    ext i j
    fin_cases i <;> fin_cases j <;> simp [raDecToEcliptic, eclipticToRaDec, Matrix.mul_apply, Fin.sum_univ_three] <;> nlinarith
  have e2 : eclipticToRaDec e * raDecToEcliptic e = 1 := by
    ext i j
    fin_cases i <;> fin_cases j <;> simp [raDecToEcliptic, eclipticToRaDec, Matrix.mul_apply, Fin.sum_univ_three] <;> nlinarith
  exact ⟨by rw [mulVec_mulVec, e1, one_mulVec], by rw [mulVec_mulVec, e2, one_mulVec]⟩

/-- An obliquity of a quarter turn: the pole of the ecliptic lies on the equator. -/
example : eclipticToRaDec (Real.pi / 2) *ᵥ ![0, 0, 1] = ![0, -1, 0] ∧ raDecToEcliptic (Real.pi / 2) *ᵥ ![0, -1, 0] = ![0, 0, 1] := by
  constructor <;> ext i <;> fin_cases i <;> simp [eclipticToRaDec, raDecToEcliptic, Matrix.mulVec, dotProduct, Fin.sum_univ_three]

/-! C53 -/

/-- C53: the angle matrices preserve inner products of all vectors. -/
theorem C53_isometry (m : Mat) (h : Spec.AngleMatrix m) : Spec.Isometry m := by
  apply isometry_of_orthogonal
  obtain ⟨a, rfl | rfl | rfl | rfl⟩ := h <;> have h := Real.sin_sq_add_cos_sq a <;> ext i j <;>
    fin_cases i <;> fin_cases j <;>
    simp [haDecHorizon, haDecRaDec, eclipticToRaDec, raDecToEcliptic, Matrix.mul_apply, Fin.sum_univ_three] <;> nlinarith

/-- C53: the hour angle runs against the right ascension, so that matrix changes the orientation; the others are rotations. -/
theorem C53_orientation (a : ℝ) :
    (haDecHorizon a).det = 1 ∧ (haDecRaDec a).det = -1 ∧ (eclipticToRaDec a).det = 1 ∧ (raDecToEcliptic a).det = 1 := by
  have h := Real.sin_sq_add_cos_sq a
  refine ⟨?_, ?_, ?_, ?_⟩ <;>
    simp [haDecHorizon, haDecRaDec, eclipticToRaDec, raDecToEcliptic, det_fin_three] <;> nlinarith

/-- Inner products of two vectors that are not unit vectors are kept. -/
example : (haDecRaDec (Real.pi / 2) *ᵥ ![1, 2, 3]) ⬝ᵥ (haDecRaDec (Real.pi / 2) *ᵥ ![4, 5, 6]) = 32 := by
  rw [C53_isometry _ ⟨_, .inr (.inl rfl)⟩]
  simp [dotProduct, Fin.sum_univ_three]
  norm_num

/-! C82: what the matrices mean -/

/-- C82: the right ascension is the sidereal time minus the hour angle and the other way round; the declination stays. -/
theorem C82_right_ascension (st a dec : ℝ) : haDecRaDec st *ᵥ columnVector a dec = columnVector (st - a) dec := by
  ext i
  fin_cases i <;> simp [haDecRaDec, columnVector, mulVec, dotProduct, Fin.sum_univ_three, Real.cos_sub, Real.sin_sub] <;> ring

/-- C82: seen from latitude `phi` the celestial pole is at azimuth 0 (north) and altitude `phi`, the meridian point of declination `phi` is the
zenith, and the equator point of hour angle 90° is the west point, azimuth 270°. -/
theorem C82_horizon (phi : ℝ) :
    haDecHorizon phi *ᵥ columnVector 0 (Real.pi / 2) = columnVector 0 phi ∧
    haDecHorizon phi *ᵥ columnVector 0 phi = columnVector 0 (Real.pi / 2) ∧
    haDecHorizon phi *ᵥ columnVector (Real.pi / 2) 0 = columnVector (-(Real.pi / 2)) 0 := by
  have h := Real.sin_sq_add_cos_sq phi
  refine ⟨?_, ?_, ?_⟩ <;> ext i <;>
    fin_cases i <;> simp [haDecHorizon, columnVector, mulVec, dotProduct, Fin.sum_univ_three] <;> nlinarith

/-- C82: the altitude follows the astronomical triangle: sin a = sin φ sin δ + cos φ cos δ cos H. -/
theorem C82_altitude (phi ha dec : ℝ) :
    (haDecHorizon phi *ᵥ columnVector ha dec) 2 =
      Real.sin phi * Real.sin dec + Real.cos phi * Real.cos dec * Real.cos ha := by
  simp [haDecHorizon, columnVector, mulVec, dotProduct, Fin.sum_univ_three]
  ring

/-- C82: the equinox is fixed, and the summer solstice, ecliptic longitude 90°, has right ascension 90° and the obliquity as its declination; the
ecliptic pole has right ascension 270° and declination 90° minus obliquity. -/
theorem C82_ecliptic (e : ℝ) :
    eclipticToRaDec e *ᵥ columnVector 0 0 = columnVector 0 0 ∧
    eclipticToRaDec e *ᵥ columnVector (Real.pi / 2) 0 = columnVector (Real.pi / 2) e ∧
    eclipticToRaDec e *ᵥ columnVector 0 (Real.pi / 2) = columnVector (-(Real.pi / 2)) (Real.pi / 2 - e) := by
  refine ⟨?_, ?_, ?_⟩ <;> ext i <;>
    fin_cases i <;>
    simp [eclipticToRaDec, columnVector, mulVec, dotProduct, Fin.sum_univ_three, Real.cos_pi_div_two_sub, Real.sin_pi_div_two_sub]

/-- The south point of the equator culminates at the altitude 90° - φ. -/
example (phi : ℝ) : (haDecHorizon phi *ᵥ columnVector 0 0) 2 = Real.sin (Real.pi / 2 - phi) := by
  rw [C82_altitude, Real.sin_pi_div_two_sub]
  simp

/-! C56 -/

/-- The largest deviation of `m mᵀ` from the identity. -/
def Spec.NearlyOrthogonal (m : Mat) (eps : ℝ) : Prop := ∀ i j, |(m * mᵀ - 1) i j| ≤ eps

/-- C56: each galactic matrix is orthogonal to a millionth. -/
theorem C56_orthogonal : Spec.NearlyOrthogonal galacticToRaDec 1e-6 ∧ Spec.NearlyOrthogonal raDecToGalactic 1e-6 := by
  constructor <;> intro i j <;> rw [abs_le, Matrix.sub_apply, Matrix.mul_apply, Fin.sum_univ_three] <;>
    simp only [transpose_apply] <;> fin_cases i <;> fin_cases j <;>
    simp [galacticToRaDec, raDecToGalactic] <;> norm_num

/-- C56: the two galactic matrices do not undo each other: the celestial north pole, and the galactic one, come back more than 36° away (the cosine
of the angle is less than 0.8). -/
theorem C56_not_inverse :
    (galacticToRaDec *ᵥ (raDecToGalactic *ᵥ ![0, 0, 1])) ⬝ᵥ ![0, 0, 1] < 0.8 ∧
    (raDecToGalactic *ᵥ (galacticToRaDec *ᵥ ![0, 0, 1])) ⬝ᵥ ![0, 0, 1] < 0.8 := by
  constructor <;> simp [galacticToRaDec, raDecToGalactic, mulVec, dotProduct, Fin.sum_univ_three] <;> norm_num

/-- C56: the transposed matrix, which is not the one of the code, undoes the conversion to galactic coordinates up to a millionth. -/
theorem C56_transpose (v : Vec) (i : Fin 3) :
    |(raDecToGalacticᵀ *ᵥ (raDecToGalactic *ᵥ v)) i - v i| ≤ 1e-6 * (|v 0| + |v 1| + |v 2|) := by
  have key : ∀ a b c : ℝ, |a| ≤ 1e-6 → |b| ≤ 1e-6 → |c| ≤ 1e-6 →
      |a * v 0 + b * v 1 + c * v 2| ≤ 1e-6 * (|v 0| + |v 1| + |v 2|) := by
    intro a b c ha hb hc
    have h1 : |a * v 0| ≤ 1e-6 * |v 0| := by rw [abs_mul]; exact mul_le_mul_of_nonneg_right ha (abs_nonneg _)
    have h2 : |b * v 1| ≤ 1e-6 * |v 1| := by rw [abs_mul]; exact mul_le_mul_of_nonneg_right hb (abs_nonneg _)
    have h3 : |c * v 2| ≤ 1e-6 * |v 2| := by rw [abs_mul]; exact mul_le_mul_of_nonneg_right hc (abs_nonneg _)
    have := abs_add_three (a * v 0) (b * v 1) (c * v 2)
    linarith
  have e : (raDecToGalacticᵀ *ᵥ (raDecToGalactic *ᵥ v)) i - v i =
      (raDecToGalacticᵀ * raDecToGalactic - 1) i 0 * v 0 + (raDecToGalacticᵀ * raDecToGalactic - 1) i 1 * v 1 +
        (raDecToGalacticᵀ * raDecToGalactic - 1) i 2 * v 2 := by
    have : (raDecToGalacticᵀ *ᵥ (raDecToGalactic *ᵥ v)) i - v i = ((raDecToGalacticᵀ * raDecToGalactic - 1) *ᵥ v) i := by
      rw [mulVec_mulVec, sub_mulVec, one_mulVec, Pi.sub_apply]
    rw [this, mulVec, dotProduct, Fin.sum_univ_three]
  have b : ∀ i j, |(raDecToGalacticᵀ * raDecToGalactic - 1) i j| ≤ 1e-6 := by
    intro i j
    rw [abs_le, Matrix.sub_apply, Matrix.mul_apply, Fin.sum_univ_three]
    simp only [transpose_apply]
    fin_cases i <;> fin_cases j <;> simp [raDecToGalactic] <;> norm_num
  rw [e]
  exact key _ _ _ (b i 0) (b i 1) (b i 2)

/-- C56: what the code uses instead is the forward matrix with the second axis mirrored on both sides; the galactic pole then has the right declination
but not the right ascension the forward matrix gives it. -/
theorem C56_mirror (x y z : ℝ) :
    galacticToRaDec *ᵥ ![x, y, z] =
      ![(raDecToGalactic *ᵥ ![x, -y, z]) 0, -(raDecToGalactic *ᵥ ![x, -y, z]) 1, (raDecToGalactic *ᵥ ![x, -y, z]) 2] := by
  ext i
  fin_cases i <;> simp [galacticToRaDec, raDecToGalactic, mulVec, dotProduct, Fin.sum_univ_three] <;> ring

/-- Radians of degrees. -/
noncomputable def Spec.deg (x : ℝ) : ℝ := x * (Real.pi / 180)

/-- C82: the conversion to galactic coordinates takes the galactic north pole (right ascension 192.25°, declination 27.4°, equinox 1950) to latitude
90° and the galactic centre (265.6°, -28.9°) to longitude and latitude 0, within 8° (cosine above 0.99), and is a rotation. -/
theorem C82_galactic :
    0.99 < (raDecToGalactic *ᵥ columnVector (Spec.deg 192.25) (Spec.deg 27.4)) ⬝ᵥ ![0, 0, 1] ∧
    0.99 < (raDecToGalactic *ᵥ columnVector (Spec.deg 265.6) (Spec.deg (-28.9))) ⬝ᵥ ![1, 0, 0] ∧
    0 < raDecToGalactic.det := by
  have p1 := Real.pi_gt_d2
  have p2 := Real.pi_lt_d2
  have sb : ∀ x y : ℝ, 0 < x → x ≤ y → y ≤ 1 → x - x ^ 3 / 6 ≤ Real.sin y := by
    intro x y h0 h1 h2
    exact (Real.sin_gt_sub_cube h0).le.trans (Real.sin_le_sin_of_le_of_le_pi_div_two (by linarith) (by linarith) h1)
  have cb : ∀ x y : ℝ, 0 ≤ y → y ≤ x → 1 - x ^ 2 / 2 ≤ Real.cos y := by
    intro x y h0 h1
    have := Real.one_sub_sq_div_two_le_cos (x := y)
    nlinarith
  have e1 : Spec.deg 192.25 = Spec.deg 12.25 + Real.pi := by norm_num [Spec.deg]; ring
  have e2 : Spec.deg 265.6 = Real.pi / 2 - Spec.deg 4.4 + Real.pi := by norm_num [Spec.deg]; ring
  have e3 : Spec.deg (-28.9) = -Spec.deg 28.9 := by norm_num [Spec.deg]
  have a1 : 0.21 ≤ Spec.deg 12.25 ∧ Spec.deg 12.25 ≤ 0.22 := by simp only [Spec.deg]; constructor <;> linarith
  have a2 : 0.476 ≤ Spec.deg 27.4 ∧ Spec.deg 27.4 ≤ 0.48 := by simp only [Spec.deg]; constructor <;> linarith
  have a3 : 0.07 ≤ Spec.deg 4.4 ∧ Spec.deg 4.4 ≤ 0.08 := by simp only [Spec.deg]; constructor <;> linarith
  have a4 : 0.5 ≤ Spec.deg 28.9 ∧ Spec.deg 28.9 ≤ 0.506 := by simp only [Spec.deg]; constructor <;> linarith
  have s1 : 0.2 ≤ Real.sin (Spec.deg 12.25) := le_trans (by norm_num) (sb 0.21 _ (by norm_num) a1.1 (by linarith))
  have s2 : 0.458 ≤ Real.sin (Spec.deg 27.4) := le_trans (by norm_num) (sb 0.476 _ (by norm_num) a2.1 (by linarith))
  have s3 : 0.06 ≤ Real.sin (Spec.deg 4.4) := le_trans (by norm_num) (sb 0.07 _ (by norm_num) a3.1 (by linarith))
  have s4 : 0.479 ≤ Real.sin (Spec.deg 28.9) := le_trans (by norm_num) (sb 0.5 _ (by norm_num) a4.1 (by linarith))
  have c1 : 0.975 ≤ Real.cos (Spec.deg 12.25) := le_trans (by norm_num) (cb 0.22 _ (by linarith) a1.2)
  have c2 : 0.884 ≤ Real.cos (Spec.deg 27.4) := le_trans (by norm_num) (cb 0.48 _ (by linarith) a2.2)
  have c3 : 0.996 ≤ Real.cos (Spec.deg 4.4) := le_trans (by norm_num) (cb 0.08 _ (by linarith) a3.2)
  have c4 : 0.871 ≤ Real.cos (Spec.deg 28.9) := le_trans (by norm_num) (cb 0.506 _ (by linarith) a4.2)
  have m1 := mul_le_mul c1 c2 (by norm_num) (by linarith)
  have m2 := mul_le_mul s1 c2 (by norm_num) (by linarith)
  have m3 := mul_le_mul c3 c4 (by norm_num) (by linarith)
  have m4 := mul_le_mul s3 c4 (by norm_num) (by linarith)
  rw [e1, e2, e3]
  refine ⟨?_, ?_, ?_⟩
  · simp only [raDecToGalactic, columnVector, mulVec, dotProduct, Fin.sum_univ_three, Real.cos_add_pi, Real.sin_add_pi]
    simp
    linarith
  · simp only [raDecToGalactic, columnVector, mulVec, dotProduct, Fin.sum_univ_three, Real.cos_add_pi, Real.sin_add_pi,
      Real.cos_pi_div_two_sub, Real.sin_pi_div_two_sub, Real.cos_neg, Real.sin_neg]
    simp
    linarith
  · simp [raDecToGalactic, det_fin_three]
    norm_num

/-! C57 -/

/-- C57: the column vector of two angles has length one. -/
theorem C57_unit (u v : ℝ) : columnVector u v ⬝ᵥ columnVector u v = 1 := by
  have h1 := Real.sin_sq_add_cos_sq u
  have h2 := Real.sin_sq_add_cos_sq v
  simp only [columnVector, dotProduct, Fin.sum_univ_three, cons_val_zero, cons_val_one, cons_val]
  linear_combination (Real.cos v) ^ 2 * h1 + h2

/-- C57: extracting the angles of the column vector of two angles in the principal ranges gives these angles. -/
theorem C57_extract (u v : ℝ) (hu : -Real.pi < u ∧ u ≤ Real.pi) (hv : -(Real.pi / 2) < v ∧ v < Real.pi / 2) :
    extractCoordinates (columnVector u v) = (u, some v) := by
  have hc : 0 < Real.cos v := Real.cos_pos_of_mem_Ioo ⟨hv.1, hv.2⟩
  simp only [extractCoordinates, columnVector, cons_val_zero, cons_val_one, cons_val, asin, Real.neg_one_le_sin,
    Real.sin_le_one, and_self, if_true, Real.arcsin_sin hv.1.le hv.2.le, atan2]
  have : (⟨Real.cos u * Real.cos v, Real.sin u * Real.cos v⟩ : ℂ) =
      (Real.cos v : ℂ) * (Complex.cos u + Complex.sin u * Complex.I) := by
    apply Complex.ext <;> simp [Complex.cos_ofReal_re, Complex.sin_ofReal_re] <;> ring
  rw [this, Complex.arg_mul_cos_add_sin_mul_I hc ⟨hu.1, hu.2⟩]

/-- C57: every unit vector is the column vector of the angles extracted from it, and these are in the principal ranges. -/
theorem C57_column (v : Vec) (h : v ⬝ᵥ v = 1) :
    ∃ a b, extractCoordinates v = (a, some b) ∧ -Real.pi < a ∧ a ≤ Real.pi ∧ -(Real.pi / 2) ≤ b ∧ b ≤ Real.pi / 2 ∧
      columnVector a b = v := by
  simp only [dotProduct, Fin.sum_univ_three] at h
  have h2 : -1 ≤ v 2 ∧ v 2 ≤ 1 := by constructor <;> nlinarith [mul_self_nonneg (v 0), mul_self_nonneg (v 1)]
  refine ⟨_, Real.arcsin (v 2), Prod.ext rfl (if_pos h2), Complex.neg_pi_lt_arg _, Complex.arg_le_pi _, Real.neg_pi_div_two_le_arcsin _,
    Real.arcsin_le_pi_div_two _, ?_⟩
  have hn : ‖(⟨v 0, v 1⟩ : ℂ)‖ = Real.cos (Real.arcsin (v 2)) := by
    rw [Real.cos_arcsin, Complex.norm_def, Complex.normSq_mk]
    congr 1
    linarith
  have hre := Complex.norm_mul_cos_arg (⟨v 0, v 1⟩ : ℂ)
  have him := Complex.norm_mul_sin_arg (⟨v 0, v 1⟩ : ℂ)
  rw [hn] at hre him
  ext i
  fin_cases i
  · simpa [columnVector, extractCoordinates, atan2, mul_comm] using hre
  · simpa [columnVector, extractCoordinates, atan2, mul_comm] using him
  · simpa [columnVector] using Real.sin_arcsin h2.1 h2.2

/-- A unit vector that is not on an axis. -/
example : ∃ a b, extractCoordinates ![0, 0.6, 0.8] = (a, some b) ∧ columnVector a b = ![0, 0.6, 0.8] := by
  obtain ⟨a, b, h, -, -, -, -, e⟩ := C57_column ![0, 0.6, 0.8] (by rw [dotProduct, Fin.sum_univ_three]; show (0 : ℝ) * 0 + 0.6 * 0.6 + 0.8 * 0.8 = 1; norm_num)
  exact ⟨a, b, h, e⟩

/-- C57: of every vector the angles extracted, if there are two, are in the principal ranges, and the second has the third component as its sine. -/
theorem C57_ranges (v : Vec) : -Real.pi < (extractCoordinates v).1 ∧ (extractCoordinates v).1 ≤ Real.pi ∧
    ∀ b, (extractCoordinates v).2 = some b → -(Real.pi / 2) ≤ b ∧ b ≤ Real.pi / 2 ∧ Real.sin b = v 2 := by
  refine ⟨Complex.neg_pi_lt_arg _, Complex.arg_le_pi _, fun b hb => ?_⟩
  unfold extractCoordinates asin at hb
  simp only at hb
  split at hb
  · rename_i h
    cases hb
    exact ⟨Real.neg_pi_div_two_le_arcsin _, Real.arcsin_le_pi_div_two _, Real.sin_arcsin h.1 h.2⟩
  · cases hb

/-- C57: extraction gives no second angle exactly when the third component is outside [-1,1], whatever the other two are. -/
theorem C57_none (v : Vec) : (extractCoordinates v).2 = none ↔ 1 < |v 2| := by
  simp only [extractCoordinates, asin]
  split
  case isTrue h => simp [abs_le.2 h]
  case isFalse h => simpa [← not_le, abs_le] using h

example : (extractCoordinates ![0, 0, 1.0000001]).2 = none := by
  rw [C57_none]
  show 1 < |(1.0000001 : ℝ)|
  norm_num [abs_of_pos]

example : extractCoordinates ![0, 0, 1] = (0, some (Real.pi / 2)) := by
  simp [extractCoordinates, atan2, asin, Complex.arg]

example : extractCoordinates (columnVector 3 (-1)) = (3, some (-1)) :=
  C57_extract 3 (-1) ⟨by linarith [Real.pi_gt_three], Real.pi_gt_three.le⟩ ⟨by linarith [Real.pi_gt_three], by linarith [Real.pi_gt_three]⟩

/-! C58 -/

/-- The conversion of two angles as the user writes it: column vector, matrix, extraction; `none` is NaN. -/
noncomputable def Spec.convert (m : Mat) (p : ℝ × ℝ) : Option (ℝ × ℝ) :=
  let r := extractCoordinates (m *ᵥ columnVector p.1 p.2)
  r.2.map fun b => (r.1, b)

/-- `back` undoes `there` on angles: whatever angles in the principal ranges one starts with, poles excluded, the way there and back gives them. -/
def Spec.RoundTrip (there back : Mat) : Prop :=
  ∀ u v : ℝ, -Real.pi < u → u ≤ Real.pi → -(Real.pi / 2) < v → v < Real.pi / 2 →
    ∃ q, Spec.convert there (u, v) = some q ∧ Spec.convert back q = some (u, v)

theorem convert_round (there back : Mat) (iso : Spec.Isometry there) (inv : ∀ v : Vec, back *ᵥ (there *ᵥ v) = v) :
    Spec.RoundTrip there back := by
  intro u v h1 h2 h3 h4
  obtain ⟨a, b, e, -, -, -, -, ec⟩ := C57_column (there *ᵥ columnVector u v) (by rw [iso, C57_unit])
  refine ⟨(a, b), ?_, ?_⟩
  · simp only [Spec.convert, e, Option.map_some]
  · simp only [Spec.convert, ec, inv, C57_extract u v ⟨h1, h2⟩ ⟨h3, h4⟩, Option.map_some]

/-- C58: converting angles and converting them back gives the original angles, for every point but the poles of the system one starts in. -/
theorem C58_round_trip (a : ℝ) :
    Spec.RoundTrip (haDecHorizon a) (haDecHorizon a) ∧ Spec.RoundTrip (haDecRaDec a) (haDecRaDec a) ∧
    Spec.RoundTrip (eclipticToRaDec a) (raDecToEcliptic a) ∧ Spec.RoundTrip (raDecToEcliptic a) (eclipticToRaDec a) :=
  ⟨convert_round _ _ (C53_isometry _ ⟨a, by simp⟩) (C54_horizon a), convert_round _ _ (C53_isometry _ ⟨a, by simp⟩) (C54_ra a),
    convert_round _ _ (C53_isometry _ ⟨a, by simp⟩) fun v => (C55_ecliptic a v).1,
    convert_round _ _ (C53_isometry _ ⟨a, by simp⟩) fun v => (C55_ecliptic a v).2⟩

theorem pole_extract (u : ℝ) {v : ℝ} (h : v = Real.pi / 2 ∨ v = -(Real.pi / 2)) : extractCoordinates (columnVector u v) = (0, some v) := by
  have : (⟨0, 0⟩ : ℂ) = 0 := rfl
  rcases h with rfl | rfl <;> simp [extractCoordinates, columnVector, atan2, asin, this]

/-- At a pole, whatever the first angle, the way there and back keeps the second angle and makes the first one 0. -/
def Spec.PoleTrip (there back : Mat) : Prop :=
  ∀ u v : ℝ, v = Real.pi / 2 ∨ v = -(Real.pi / 2) → ∃ q, Spec.convert there (u, v) = some q ∧ Spec.convert back q = some (0, v)

theorem convert_pole (there back : Mat) (iso : Spec.Isometry there) (inv : ∀ v : Vec, back *ᵥ (there *ᵥ v) = v) : Spec.PoleTrip there back := by
  intro u v h
  obtain ⟨a, b, e, -, -, -, -, ec⟩ := C57_column (there *ᵥ columnVector u v) (by rw [iso, C57_unit])
  refine ⟨(a, b), ?_, ?_⟩
  · simp only [Spec.convert, e, Option.map_some]
  · simp only [Spec.convert, ec, inv, pole_extract u h, Option.map_some]

/-- C58: at a pole of the system one starts in the second angle survives and the first is lost: it becomes 0. -/
theorem C58_pole (a : ℝ) :
    Spec.PoleTrip (haDecHorizon a) (haDecHorizon a) ∧ Spec.PoleTrip (haDecRaDec a) (haDecRaDec a) ∧
    Spec.PoleTrip (eclipticToRaDec a) (raDecToEcliptic a) ∧ Spec.PoleTrip (raDecToEcliptic a) (eclipticToRaDec a) :=
  ⟨convert_pole _ _ (C53_isometry _ ⟨a, by simp⟩) (C54_horizon a), convert_pole _ _ (C53_isometry _ ⟨a, by simp⟩) (C54_ra a),
    convert_pole _ _ (C53_isometry _ ⟨a, by simp⟩) fun v => (C55_ecliptic a v).1,
    convert_pole _ _ (C53_isometry _ ⟨a, by simp⟩) fun v => (C55_ecliptic a v).2⟩

/-- The north pole of the sky seen from latitude 1 rad, and back: the hour angle 2 is lost. -/
example : ∃ q, Spec.convert (haDecHorizon 1) (2, Real.pi / 2) = some q ∧ Spec.convert (haDecHorizon 1) q = some (0, Real.pi / 2) :=
  (C58_pole 1).1 2 _ (.inl rfl)

/-- C58: the angle conversion from hour angle to right ascension, spelled out: sidereal time minus hour angle, brought into (-π, π]. -/
theorem C58_right_ascension (st ha dec : ℝ) (h : -Real.pi < st - ha ∧ st - ha ≤ Real.pi)
    (hd : -(Real.pi / 2) < dec ∧ dec < Real.pi / 2) : Spec.convert (haDecRaDec st) (ha, dec) = some (st - ha, dec) := by
  simp only [Spec.convert, C82_right_ascension, C57_extract _ _ h hd, Option.map_some]

example : Spec.convert (haDecRaDec 1) (-1, 0.5) = some (2, 0.5) := by
  have := C58_right_ascension 1 (-1) 0.5 ⟨by linarith [Real.pi_gt_three], by linarith [Real.pi_gt_three]⟩
    ⟨by linarith [Real.pi_gt_three], by linarith [Real.pi_gt_three]⟩
  rw [this]
  norm_num

/-! C69 -/

/-- Mean obliquity in degrees, `t` Julian centuries (36525 days) after J2000 (JD 2451545): 23.439292° - 46.815″t - 0.0006″t² + 0.00181″t³. -/
noncomputable def Spec.meanObliquity (t : ℝ) : ℝ := 23.439292 - 46.815 / 3600 * t - 0.0006 / 3600 * t ^ 2 + 0.00181 / 3600 * t ^ 3

/-- C69: the obliquity of a date is the polynomial at its Julian day number, turned into radians. -/
theorem C69_polynomial (jd : ℤ) : obliquity jd = Spec.meanObliquity ((jd - 2451545) / 36525) * (Real.pi / 180) := by
  norm_num [obliquity, obliquityDegrees, Spec.meanObliquity]
  ring

/-- C69: within 20 centuries of J2000 the obliquity is between 23.1 and 23.8 degrees. -/
theorem C69_range (jd : ℤ) (h : |jd - 2451545| ≤ 730500) :
    23.1 * (Real.pi / 180) < obliquity jd ∧ obliquity jd < 23.8 * (Real.pi / 180) := by
  have hp : 0 < Real.pi / 180 := by have := Real.pi_pos; positivity
  rw [C69_polynomial]
  rw [abs_le] at h
  have h1 : (-730500 : ℝ) ≤ (jd : ℝ) - 2451545 := by exact_mod_cast h.1
  have h2 : (jd : ℝ) - 2451545 ≤ 730500 := by exact_mod_cast h.2
  generalize ht : ((jd : ℝ) - 2451545) / 36525 = t
  have l : -20 ≤ t := by rw [← ht]; linarith
  have u : t ≤ 20 := by rw [← ht]; linarith
  have q : t ^ 2 ≤ 400 := by nlinarith
  have q0 := sq_nonneg t
  have c1 : t ^ 3 ≤ 8000 := by nlinarith
  have c2 : -8000 ≤ t ^ 3 := by nlinarith
  constructor <;> apply mul_lt_mul_of_pos_right _ hp <;> simp only [Spec.meanObliquity] <;> linarith

/-- C69: within 20 centuries of J2000 the obliquity decreases from day to day. -/
theorem C69_decreasing (a b : ℤ) (ha : |a - 2451545| ≤ 730500) (hb : |b - 2451545| ≤ 730500) (h : a < b) : obliquity b < obliquity a := by
  have hp : 0 < Real.pi / 180 := by have := Real.pi_pos; positivity
  rw [C69_polynomial, C69_polynomial]
  rw [abs_le] at ha hb
  have a1 : (-730500 : ℝ) ≤ (a : ℝ) - 2451545 := by exact_mod_cast ha.1
  have a2 : (a : ℝ) - 2451545 ≤ 730500 := by exact_mod_cast ha.2
  have b1 : (-730500 : ℝ) ≤ (b : ℝ) - 2451545 := by exact_mod_cast hb.1
  have b2 : (b : ℝ) - 2451545 ≤ 730500 := by exact_mod_cast hb.2
  have hab : (a : ℝ) < b := by exact_mod_cast h
  have hst : ((a : ℝ) - 2451545) / 36525 < ((b : ℝ) - 2451545) / 36525 := by linarith
  have sl : -20 ≤ ((a : ℝ) - 2451545) / 36525 := by linarith
  have tu : ((b : ℝ) - 2451545) / 36525 ≤ 20 := by linarith
  generalize ((a : ℝ) - 2451545) / 36525 = s at *
  generalize ((b : ℝ) - 2451545) / 36525 = t at *
  apply mul_lt_mul_of_pos_right _ hp
  have hq : t ^ 2 + t * s + s ^ 2 ≤ 1200 := by nlinarith
  have hd : 0 < 46.815 + 0.0006 * (t + s) - 0.00181 * (t ^ 2 + t * s + s ^ 2) := by linarith
  have := mul_pos (sub_pos.2 hst) hd
  simp only [Spec.meanObliquity]
  linarith

/-- A century after the epoch 2000 the obliquity is smaller, and still between 23.1 and 23.8 degrees. -/
example : obliquity (2451545 + 36525) < obliquity 2451545 ∧ 23.1 * (Real.pi / 180) < obliquity (2451545 + 36525) :=
  ⟨C69_decreasing _ _ (by norm_num) (by norm_num) (by norm_num), (C69_range _ (by norm_num)).1⟩

example : obliquity 2451545 = 23.439292 * (Real.pi / 180) := by
  rw [C69_polynomial]
  norm_num [Spec.meanObliquity]

end Astro
