import Verif.Lemmas.RotDouble
import Mathlib.Analysis.Real.Pi.Bounds

/-
C112, C113, C114: coordinate conversions in double arithmetic.
-/

set_option exponentiation.threshold 3000

namespace Astro

open Spec Time Matrix

attribute [local irreducible] FloatFmt.nearest FloatFmt.value Dbl.round

/-- C112: every coordinate of the converted direction is within 2^-49 of the exact one, whatever the angles are. -/
theorem C112_error {T : Trig} (hT : Accurate T) {a u v : ℚ} (ha : IsDouble a) (hu : IsDouble u) (hv : IsDouble v) {D : DMat} {M : Coord.Mat}
    (h : SameMatrix T a D M) : Close (D.prod (DVec.column T (.num u) (.num v))) (M *ᵥ Coord.columnVector u v) (2 ^ (-49 : ℤ)) := by
  have hc := near_column hT hu hv
  have s : Near (T.sin (.num a)) (Real.sin a) unit53 := (hT a ha).1
  have c : Near (T.cos (.num a)) (Real.cos a) unit53 := (hT a ha).2
  have s' := near_neg s
  have c' := near_neg c
  have z : Near (.num 0) 0 unit53 := near_const 0 isDouble_zero (by simp)
  have o : Near (.num 1) 1 unit53 := near_const 1 isDouble_one (by simp)
  have m : Near (.num (-1)) (-1) unit53 := near_const (-1) (isDouble_neg isDouble_one) (by simp)
  have hs := Real.abs_sin_le_one (a : ℝ)
  have hk := Real.abs_cos_le_one (a : ℝ)
  have hsc := Real.sin_sq_add_cos_sq (a : ℝ)
  cases h with
  | horizon =>
    refine ⟨row_of (m := Coord.haDecHorizon a) (i := 0) s' z c hc ?_ ?_ ?_ ?_, row_of (m := Coord.haDecHorizon a) (i := 1) z m z hc ?_ ?_ ?_ ?_,
      row_of (m := Coord.haDecHorizon a) (i := 2) c z s hc ?_ ?_ ?_ ?_⟩ <;>
      simp [Coord.haDecHorizon, hs, hk]
  | hourAngle =>
    refine ⟨row_of (m := Coord.haDecRaDec a) (i := 0) c s z hc ?_ ?_ ?_ ?_, row_of (m := Coord.haDecRaDec a) (i := 1) s c' z hc ?_ ?_ ?_ ?_,
      row_of (m := Coord.haDecRaDec a) (i := 2) z z o hc ?_ ?_ ?_ ?_⟩ <;>
      simp [Coord.haDecRaDec, hs, hk]
  | fromEcliptic =>
    refine ⟨row_of (m := Coord.eclipticToRaDec a) (i := 0) o z z hc ?_ ?_ ?_ ?_, row_of (m := Coord.eclipticToRaDec a) (i := 1) z c s' hc ?_ ?_ ?_ ?_,
      row_of (m := Coord.eclipticToRaDec a) (i := 2) z s c hc ?_ ?_ ?_ ?_⟩ <;>
      simp [Coord.eclipticToRaDec, hs, hk]
  | toEcliptic =>
    refine ⟨row_of (m := Coord.raDecToEcliptic a) (i := 0) o z z hc ?_ ?_ ?_ ?_, row_of (m := Coord.raDecToEcliptic a) (i := 1) z c s hc ?_ ?_ ?_ ?_,
      row_of (m := Coord.raDecToEcliptic a) (i := 2) z s' c hc ?_ ?_ ?_ ?_⟩ <;>
      simp [Coord.raDecToEcliptic, hs, hk]
  | fromGalactic =>
    have p (q : ℚ) (h : |q| ≤ 1) {r : ℝ} (hr : (q : ℝ) = r) := near_decimal q h hr
    have n (q : ℚ) (h : |q| ≤ 1) {r : ℝ} (hr : -(q : ℝ) = r) := near_decimal_neg q h hr
    refine ⟨row_of (m := Coord.galacticToRaDec) (i := 0) (n _ ?_ ?_) (p _ ?_ ?_) (n _ ?_ ?_) hc ?_ ?_ ?_ ?_,
      row_of (m := Coord.galacticToRaDec) (i := 1) (n _ ?_ ?_) (n _ ?_ ?_) (n _ ?_ ?_) hc ?_ ?_ ?_ ?_,
      row_of (m := Coord.galacticToRaDec) (i := 2) (n _ ?_ ?_) (p _ ?_ ?_) (p _ ?_ ?_) hc ?_ ?_ ?_ ?_⟩ <;>
      (try simp [Coord.galacticToRaDec]) <;> norm_num [abs_le]
  | toGalactic =>
    have p (q : ℚ) (h : |q| ≤ 1) {r : ℝ} (hr : (q : ℝ) = r) := near_decimal q h hr
    have n (q : ℚ) (h : |q| ≤ 1) {r : ℝ} (hr : -(q : ℝ) = r) := near_decimal_neg q h hr
    refine ⟨row_of (m := Coord.raDecToGalactic) (i := 0) (n _ ?_ ?_) (n _ ?_ ?_) (n _ ?_ ?_) hc ?_ ?_ ?_ ?_,
      row_of (m := Coord.raDecToGalactic) (i := 1) (p _ ?_ ?_) (n _ ?_ ?_) (p _ ?_ ?_) hc ?_ ?_ ?_ ?_,
      row_of (m := Coord.raDecToGalactic) (i := 2) (n _ ?_ ?_) (n _ ?_ ?_) (p _ ?_ ?_) hc ?_ ?_ ?_ ?_⟩ <;>
      (try simp [Coord.raDecToGalactic]) <;> norm_num [abs_le]

/-- A star at hour angle 0.5 and declination 0.75, seen from latitude 1. -/
example {T : Trig} (hT : Accurate T) : Close ((DMat.haDecHorizon T (.num 1)).prod (DVec.column T (.num (1 * 2 ^ (-1 : ℤ))) (.num (3 * 2 ^ (-2 : ℤ)))))
    (Coord.haDecHorizon (1 : ℚ) *ᵥ Coord.columnVector (1 * 2 ^ (-1 : ℤ) : ℚ) (3 * 2 ^ (-2 : ℤ) : ℚ)) (2 ^ (-49 : ℤ)) :=
  C112_error hT isDouble_one (by exact_mod_cast isDouble_mul 1 (-1) (by norm_num) (by norm_num) (by norm_num))
    (by exact_mod_cast isDouble_mul 3 (-2) (by norm_num) (by norm_num) (by norm_num)) .horizon

/-- C112: the latitude (altitude, declination) is within 2^-23 rad, 0.025 arc seconds, of the exact one wherever there is one. -/
theorem C112_latitude {T : Trig} (hT : Accurate T) {a u v : ℚ} (ha : IsDouble a) (hu : IsDouble u) (hv : IsDouble v) {D : DMat} {M : Coord.Mat}
    (h : SameMatrix T a D M) {p : ℚ} (hp : (D.prod (DVec.column T (.num u) (.num v))).latitude = some p) :
    |Real.arcsin p - Real.arcsin ((M *ᵥ Coord.columnVector u v) 2)| ≤ 2 ^ (-23 : ℤ) := by
  obtain ⟨-, -, q, h1, -, h2⟩ := C112_error hT ha hu hv h
  obtain ⟨h3, h4⟩ := latitude_some h1 hp
  subst h3
  exact arcsin_near h4 (third_le h _ _) h2

/-- C112: up to a latitude of 1 rad (57°) the error is at most 2^-47 rad. -/
theorem C112_moderate {T : Trig} (hT : Accurate T) {a u v : ℚ} (ha : IsDouble a) (hu : IsDouble u) (hv : IsDouble v) {D : DMat} {M : Coord.Mat}
    (h : SameMatrix T a D M) {p : ℚ} (hp : (D.prod (DVec.column T (.num u) (.num v))).latitude = some p)
    (hm : |Real.arcsin ((M *ᵥ Coord.columnVector u v) 2)| ≤ 1) :
    |Real.arcsin p - Real.arcsin ((M *ᵥ Coord.columnVector u v) 2)| ≤ 2 ^ (-47 : ℤ) := by
  have hl := C112_latitude hT ha hu hv h hp
  obtain ⟨-, -, q, h1, -, h2⟩ := C112_error hT ha hu hv h
  obtain ⟨h3, h4⟩ := latitude_some h1 hp
  subst h3
  have ht := third_le h u v
  generalize (M *ᵥ Coord.columnVector u v) 2 = t at *
  have pi3 := Real.pi_gt_d2
  have hm1 : |Real.arcsin t| ≤ Real.pi / 3 := hm.trans (by linarith)
  have hm2 : |Real.arcsin q| ≤ Real.pi / 3 := by
    have e : Real.arcsin q = Real.arcsin t + (Real.arcsin q - Real.arcsin t) := by ring
    rw [e]
    have k : (2 : ℝ) ^ (-23 : ℤ) ≤ 1 / 100 := by norm_num
    refine (abs_add_le _ _).trans ((add_le_add hm (hl.trans k)).trans ?_)
    linarith
  have e47 : (4 : ℝ) * 2 ^ (-49 : ℤ) = 2 ^ (-47 : ℤ) := by norm_num
  have p4 := Real.pi_le_four
  have hab := mul_le_mul p4 h2 (abs_nonneg _) (by norm_num)
  rw [e47] at hab
  rcases le_total t (q : ℝ) with h0 | h0
  · have := arcsin_moderate h4 ht h0 hm2 hm1
    rw [abs_of_nonneg (by linarith : 0 ≤ (q : ℝ) - t)] at hab
    rw [abs_of_nonneg (by linarith [Real.arcsin_le_arcsin h0])]
    exact this.trans hab
  · have := arcsin_moderate ht h4 h0 hm1 hm2
    rw [abs_of_nonpos (by linarith : (q : ℝ) - t ≤ 0), neg_sub] at hab
    rw [abs_of_nonpos (by linarith [Real.arcsin_le_arcsin h0]), neg_sub]
    exact this.trans hab

/-- C112: what a conversion leaves alone it leaves alone exactly: the declination between hour angle and right ascension, and the coordinate toward the
equinox between equator and ecliptic. -/
theorem C112_kept {T : Trig} (hT : Accurate T) (a : ℚ) {u v : ℚ} (hu : IsDouble u) (hv : IsDouble v) :
    let w := DVec.column T (.num u) (.num v)
    ((DMat.haDecRaDec T (.num a)).prod w).z = T.sin (.num v) ∧ ((DMat.eclipticToRaDec T (.num a)).prod w).x = w.x ∧
    ((DMat.raDecToEcliptic T (.num a)).prod w).x = w.x ∧ ((DMat.haDecHorizon T (.num a)).prod w).y = w.y.neg := by
  obtain ⟨h1, h2, h3⟩ := near_column hT hu hv
  have o : IsDouble 0 := isDouble_zero
  have z0 : (Dbl.num 0).add (.num 0) = .num 0 := zero_add_near (near_exact' o)
  refine ⟨?_, ?_, ?_, ?_⟩ <;> simp only [DMat.prod, DMat.row, DMat.haDecRaDec, DMat.eclipticToRaDec, DMat.raDecToEcliptic, DMat.haDecHorizon]
  · rw [zero_mul_near h1, zero_mul_near h2, one_mul_near h3, z0, z0, zero_add_near h3]; rfl
  · rw [zero_mul_near h2, zero_mul_near h3, one_mul_near h1, zero_add_near h1, add_zero_near h1, add_zero_near h1]
  · rw [zero_mul_near h2, zero_mul_near h3, one_mul_near h1, zero_add_near h1, add_zero_near h1, add_zero_near h1]
  · have h2' := near_neg h2
    rw [zero_mul_near h1, neg_one_mul_near h2, zero_mul_near h3, z0, zero_add_near h2', add_zero_near h2']

/-- At hour angle 1 and declination 2 with sidereal time 3, the declination's sine is untouched. -/
example {T : Trig} (hT : Accurate T) : ((DMat.haDecRaDec T (.num 3)).prod (DVec.column T (.num 1) (.num 2))).z = T.sin (.num 2) :=
  (C112_kept hT 3 isDouble_one (by simpa using isDouble_int (i := 2) (by norm_num))).1

/-- There is such an accurate library: one that always takes the closest double. -/
example : ∃ T, Accurate T := best_exists.imp fun _ => best_accurate

/-- C113: the star in the zenith of an observer 8° north has no altitude (NaN), even if sines and cosines are as good as they can be. -/
theorem C113_zenith {T : Trig} (hT : BestPossible T) :
    ((DMat.haDecHorizon T (.num eightDegrees)).prod (DVec.column T (.num 0) (.num eightDegrees))).latitude = none := by
  have c0 : T.cos (.num 0) = .num 1 := closest_self (hT 0 isDouble_zero).2 isDouble_one (by simp)
  have s0 : T.sin (.num 0) = .num 0 := closest_self (hT 0 isDouble_zero).1 isDouble_zero (by simp)
  unfold DMat.haDecHorizon DMat.prod DVec.column DMat.row DVec.latitude
  rw [eight_sin hT, eight_cos hT, c0, s0]
  decide +kernel

/-- C113: on the equator the same star gets exactly 90°. -/
theorem C113_equator {T : Trig} (hT : BestPossible T) :
    ((DMat.haDecHorizon T (.num 0)).prod (DVec.column T (.num 0) (.num 0))).latitude = some 1 := by
  have c0 : T.cos (.num 0) = .num 1 := closest_self (hT 0 isDouble_zero).2 isDouble_one (by simp)
  have s0 : T.sin (.num 0) = .num 0 := closest_self (hT 0 isDouble_zero).1 isDouble_zero (by simp)
  unfold DMat.haDecHorizon DMat.prod DVec.column DMat.row DVec.latitude
  rw [c0, s0]
  decide +kernel

/-- C113: the exact altitude is 90°. -/
theorem C113_exact : Real.arcsin ((Coord.haDecHorizon eightDegrees *ᵥ Coord.columnVector 0 eightDegrees) 2) = Real.pi / 2 := by
  have : (Coord.haDecHorizon eightDegrees *ᵥ Coord.columnVector 0 eightDegrees) 2 = 1 := by
    simp [Coord.haDecHorizon, Coord.columnVector, mulVec, dotProduct, Fin.sum_univ_three]
    have := Real.sin_sq_add_cos_sq ((eightDegrees : ℚ) : ℝ)
    linarith
  rw [this, Real.arcsin_one]

/-- C113: only directions within 2^-23 rad of a pole can lose their latitude. -/
theorem C113_only_pole {T : Trig} (hT : Accurate T) {a u v : ℚ} (ha : IsDouble a) (hu : IsDouble u) (hv : IsDouble v) {D : DMat} {M : Coord.Mat}
    (h : SameMatrix T a D M) (hp : (D.prod (DVec.column T (.num u) (.num v))).latitude = none) :
    Real.pi / 2 - 2 ^ (-23 : ℤ) ≤ |Real.arcsin ((M *ᵥ Coord.columnVector u v) 2)| := by
  obtain ⟨-, -, q, h1, -, h2⟩ := C112_error hT ha hu hv h
  have hq := latitude_none h1 hp
  have ht := third_le h u v
  generalize (M *ᵥ Coord.columnVector u v) 2 = t at *
  have hd := abs_le.1 h2
  obtain ⟨t1, t2⟩ := abs_le.1 ht
  rcases le_or_gt 0 (q : ℝ) with h0 | h0
  · rw [abs_of_nonneg h0] at hq
    have := arcsin_near (a := 1) (b := t) (by simp) ht (by rw [abs_of_nonneg (by linarith)]; linarith)
    rw [Real.arcsin_one] at this
    have h3 := (abs_le.1 this).2
    have h4 := le_abs_self (Real.arcsin t)
    linarith
  · rw [abs_of_neg h0] at hq
    have := arcsin_near (a := -1) (b := t) (by simp) ht (by rw [abs_of_nonpos (by linarith)]; linarith)
    rw [Real.arcsin_neg_one] at this
    have h3 := (abs_le.1 this).1
    have h4 := neg_abs_le (Real.arcsin t)
    linarith

/-- Where the declination is 0 the code finds one, and it is as accurate as C112 says. -/
example {T : Trig} (hT : Accurate T) : ∃ p : ℚ, ((DMat.haDecRaDec T (.num 1)).prod (DVec.column T (.num 1) (.num 0))).latitude = some p ∧ |Real.arcsin p| ≤ 2 ^ (-47 : ℤ) := by
  have e : (Coord.haDecRaDec (1 : ℚ) *ᵥ Coord.columnVector (1 : ℚ) (0 : ℚ)) 2 = 0 := by
    simp [Coord.haDecRaDec, Coord.columnVector, Matrix.mulVec, dotProduct, Fin.sum_univ_three]
  rcases h : ((DMat.haDecRaDec T (.num 1)).prod (DVec.column T (.num 1) (.num 0))).latitude with _ | p
  · have := C113_only_pole hT isDouble_one isDouble_one isDouble_zero .hourAngle h
    rw [e, Real.arcsin_zero, abs_zero] at this
    have p := Real.pi_gt_three
    norm_num at this
    linarith
  · refine ⟨p, rfl, ?_⟩
    have := C112_moderate hT isDouble_one isDouble_one isDouble_zero .hourAngle h (by rw [e]; simp)
    rwa [e, Real.arcsin_zero, sub_zero] at this

/-- C113: conversion to and from galactic coordinates always gives a latitude. -/
theorem C113_galactic {T : Trig} (hT : Accurate T) {u v : ℚ} (hu : IsDouble u) (hv : IsDouble v) :
    (DMat.galacticToRaDec.prod (DVec.column T (.num u) (.num v))).latitude ≠ none ∧
    (DMat.raDecToGalactic.prod (DVec.column T (.num u) (.num v))).latitude ≠ none := by
  have key : ∀ D M, SameMatrix T 0 D M → M = Coord.galacticToRaDec ∨ M = Coord.raDecToGalactic →
      (D.prod (DVec.column T (.num u) (.num v))).latitude ≠ none := by
    intro D M h hM hp
    obtain ⟨-, -, q, h1, -, h2⟩ := C112_error hT isDouble_zero hu hv h
    have hq := latitude_none h1 hp
    have ht := galactic_third hM u v
    have h3 : |(q : ℝ)| ≤ |(M *ᵥ Coord.columnVector u v) 2| + 2 ^ (-49 : ℤ) := by
      have : (q : ℝ) = (M *ᵥ Coord.columnVector u v) 2 + (q - (M *ᵥ Coord.columnVector u v) 2) := by ring
      rw [this]
      exact (abs_add_le _ _).trans (by linarith)
    have h4 : (2 : ℝ) ^ (-49 : ℤ) ≤ 1 / 10 ^ 10 := by norm_num
    have h5 : |(M *ᵥ Coord.columnVector u v) 2| ≤ 1 - 1 / 10 ^ 9 := by
      apply abs_le_of_sq_le_sq _ (by norm_num)
      exact ht.trans (by norm_num)
    have h6 := hq.trans_le (h3.trans (add_le_add h5 h4))
    norm_num at h6
  exact ⟨key _ _ .fromGalactic (Or.inl rfl), key _ _ .toGalactic (Or.inr rfl)⟩

example {T : Trig} (hT : Accurate T) : (DMat.galacticToRaDec.prod (DVec.column T (.num 0) (.num 1))).latitude ≠ none :=
  (C113_galactic hT isDouble_zero isDouble_one).1

/-- C114: there is a hole around the poles: a computed latitude is exactly a pole or at least 2^-26 rad away from it. -/
theorem C114_hole {D : DMat} {w : DVec} {p : ℚ} (hp : (D.prod w).latitude = some p) :
    |Real.arcsin p| = Real.pi / 2 ∨ |Real.arcsin p| ≤ Real.pi / 2 - 2 ^ (-26 : ℤ) := by
  have hz : DMat.row D.r2 w = .num p := latitude_num hp
  obtain ⟨h1, h2⟩ := latitude_bounds hp
  have pi0 := Real.pi_pos
  rcases pole_or_less (row_isDouble hz) h1 h2 with h | h
  · left
    rcases h with h | h <;> rw [h] <;> norm_num <;> linarith
  · right
    refine arcsin_away (two_zpow_real _).le ?_ (h.trans ?_)
    · refine le_trans ?_ Real.two_le_pi
      norm_num
    · refine le_trans (le_of_eq ?_) Real.one_sub_sq_div_two_le_cos
      norm_num [unit53]

/-- The value 1 that `C113_equator` computes is one end of the gap. -/
example {T : Trig} (hT : BestPossible T) : |Real.arcsin ((1 : ℚ) : ℝ)| = Real.pi / 2 ∨ |Real.arcsin ((1 : ℚ) : ℝ)| ≤ Real.pi / 2 - 2 ^ (-26 : ℤ) :=
  C114_hole (C113_equator hT)

/-- C114: no direction at all gets a galactic latitude (or, coming from galactic coordinates, a declination) within 16 arc seconds of a pole, already in
exact arithmetic. -/
theorem C114_galactic (u v : ℝ) :
    |Real.arcsin ((Coord.raDecToGalactic *ᵥ Coord.columnVector u v) 2)| ≤ Real.pi / 2 - 77 / 1000000 ∧
    |Real.arcsin ((Coord.galacticToRaDec *ᵥ Coord.columnVector u v) 2)| ≤ Real.pi / 2 - 77 / 1000000 := by
  have key : ∀ M, M = Coord.galacticToRaDec ∨ M = Coord.raDecToGalactic →
      |Real.arcsin ((M *ᵥ Coord.columnVector u v) 2)| ≤ Real.pi / 2 - 77 / 1000000 := by
    intro M hM
    refine arcsin_away (by norm_num) (le_trans (by norm_num) Real.two_le_pi) ?_
    have h1 : (1 : ℝ) - (77 / 1000000) ^ 2 / 2 ≤ Real.cos (77 / 1000000) := Real.one_sub_sq_div_two_le_cos
    refine le_trans ?_ h1
    apply abs_le_of_sq_le_sq _ (by norm_num)
    exact (galactic_third hM u v).trans (by norm_num)
  exact ⟨key _ (Or.inr rfl), key _ (Or.inl rfl)⟩

/-- C115: there is always a longitude (azimuth, right ascension), and times the cosine of the latitude its error is at most 2^-46 rad, up to full turns. -/
theorem C115_longitude {T : Trig} (hT : Accurate T) {a u v : ℚ} (ha : IsDouble a) (hu : IsDouble u) (hv : IsDouble v) {D : DMat} {M : Coord.Mat}
    (h : SameMatrix T a D M) :
    let z := M *ᵥ Coord.columnVector u v
    ∃ m n : ℚ, (D.prod (DVec.column T (.num u) (.num v))).longitude = some (m, n) ∧
      ∃ k : ℤ, |Coord.atan2 n m - Coord.atan2 (z 1) (z 0) - 2 * Real.pi * k| * Real.sqrt (z 0 ^ 2 + z 1 ^ 2) ≤ 2 ^ (-46 : ℤ) := by
  intro z
  obtain ⟨⟨m, h1, -, h2⟩, ⟨n, h3, -, h4⟩, -⟩ := C112_error hT ha hu hv h
  refine ⟨m, n, by simp [DVec.longitude, h1, h3], ?_⟩
  obtain ⟨k, hk⟩ := arg_near ⟨m, n⟩ ⟨z 0, z 1⟩
  refine ⟨k, ?_⟩
  have e1 : Real.sqrt (z 0 ^ 2 + z 1 ^ 2) = ‖(⟨z 0, z 1⟩ : ℂ)‖ := by
    rw [Complex.norm_def, Complex.normSq_mk, sq, sq]
  rw [e1]
  refine hk.trans ?_
  have e2 : ‖(⟨m, n⟩ : ℂ) - ⟨z 0, z 1⟩‖ ≤ 2 ^ (-49 : ℤ) + 2 ^ (-49 : ℤ) :=
    (Complex.norm_le_abs_re_add_abs_im _).trans (add_le_add h2 h4)
  have := mul_le_mul Real.pi_le_four e2 (norm_nonneg _) (by norm_num)
  refine this.trans (le_of_eq ?_)
  norm_num

/-- On the equator at right ascension 1 and sidereal time 1: the hour angle is 0 up to 2^-46 and full turns. -/
example {T : Trig} (hT : Accurate T) : ∃ m n : ℚ, ((DMat.haDecRaDec T (.num 1)).prod (DVec.column T (.num 1) (.num 0))).longitude = some (m, n) ∧
    ∃ k : ℤ, |Coord.atan2 n m - 2 * Real.pi * k| ≤ 2 ^ (-46 : ℤ) := by
  have e : Coord.haDecRaDec (1 : ℚ) *ᵥ Coord.columnVector (1 : ℚ) (0 : ℚ) = ![1, 0, 0] := by
    have := Real.sin_sq_add_cos_sq 1
    ext i
    fin_cases i <;> simp [Coord.haDecRaDec, Coord.columnVector, Matrix.mulVec, dotProduct, Fin.sum_univ_three] <;> linarith
  obtain ⟨m, n, h, k, hk⟩ := C115_longitude hT isDouble_one isDouble_one isDouble_zero .hourAngle
  refine ⟨m, n, h, k, ?_⟩
  rw [e] at hk
  simpa [Coord.atan2, show (⟨1, 0⟩ : ℂ) = 1 from rfl] using hk

end Astro
