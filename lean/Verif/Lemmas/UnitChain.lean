import Verif.Spec.UnitChain
import Verif.Lemmas.ChainDouble
import Verif.Lemmas.AngDouble
import Verif.Lemmas.QtyDouble
import Verif.Props.QtyDouble

/-
Helper lemmas: conversions by angles that are slightly off.
-/

set_option exponentiation.threshold 3000

namespace Astro

open Spec Time Matrix

attribute [local irreducible] FloatFmt.nearest FloatFmt.value Dbl.round

theorem arc_sq (a b : ℝ) : (Real.sin a - Real.sin b) ^ 2 + (Real.cos a - Real.cos b) ^ 2 ≤ (a - b) ^ 2 := by
  have h := exp_close a b
  have h2 := mul_self_le_mul_self (_root_.norm_nonneg _) h
  rw [abs_mul_abs_self, ← sq, Complex.sq_norm, Complex.normSq_apply, Complex.sub_re, Complex.sub_im, Complex.exp_ofReal_mul_I_re,
    Complex.exp_ofReal_mul_I_im, Complex.exp_ofReal_mul_I_re, Complex.exp_ofReal_mul_I_im] at h2
  linarith

theorem exact_angle (c : Conversion) (a : ℝ) : AngleMatrix (exactMatrix c a) := by
  cases c
  · exact ⟨a, .inl rfl⟩
  · exact ⟨a, .inr (.inl rfl)⟩
  · exact ⟨a, .inr (.inr (.inl rfl))⟩
  · exact ⟨a, .inr (.inr (.inr rfl))⟩

/-- Turning a vector by a slightly wrong angle. -/
theorem exact_close (c : Conversion) (a b : ℝ) (v : Coord.Vec) : chord (exactMatrix c a *ᵥ v) (exactMatrix c b *ᵥ v) ≤ |a - b| * size v := by
  have key := arc_sq a b
  rw [size_eq]
  unfold chord
  apply Real.sqrt_le_iff.2
  refine ⟨by positivity, ?_⟩
  rw [mul_pow, sq_abs, Real.sq_sqrt (by positivity)]
  generalize hs : Real.sin a - Real.sin b = s at *
  generalize hc : Real.cos a - Real.cos b = t at *
  have s0 : Real.sin a = Real.sin b + s := by linarith
  have c0 : Real.cos a = Real.cos b + t := by linarith
  have w (x y z : ℝ) (h : (x ^ 2 + y ^ 2) ≤ z) (i j k : ℝ) : (x ^ 2 + y ^ 2) * (i ^ 2 + j ^ 2) ≤ z * (i ^ 2 + j ^ 2 + k ^ 2) := by
    have h0 : 0 ≤ x ^ 2 + y ^ 2 := by positivity
    refine mul_le_mul h (by nlinarith [sq_nonneg k]) (by positivity) (by linarith)
  cases c
  · have := w s t _ key (v 0) (v 2) (v 1)
    simp [exactMatrix, Coord.haDecHorizon, mulVec, dotProduct, Fin.sum_univ_three, s0, c0]
    linarith
  · have := w s t _ key (v 0) (v 1) (v 2)
    simp [exactMatrix, Coord.haDecRaDec, mulVec, dotProduct, Fin.sum_univ_three, s0, c0]
    linarith
  · have := w s t _ key (v 1) (v 2) (v 0)
    simp [exactMatrix, Coord.eclipticToRaDec, mulVec, dotProduct, Fin.sum_univ_three, s0, c0]
    linarith
  · have := w s t _ key (v 1) (v 2) (v 0)
    simp [exactMatrix, Coord.raDecToEcliptic, mulVec, dotProduct, Fin.sum_univ_three, s0, c0]
    linarith

theorem column_size (u v : ℝ) : size (Coord.columnVector u v) = 1 := by
  rw [size_eq]
  rw [Real.sqrt_eq_one]
  simp [Coord.columnVector]
  nlinarith [Real.sin_sq_add_cos_sq u, Real.sin_sq_add_cos_sq v]

/-- Two directions whose angles differ little. -/
theorem column_close (u v u' v' : ℝ) : chord (Coord.columnVector u v) (Coord.columnVector u' v') ≤ |u - u'| + |v - v'| := by
  refine (chord_triangle _ (Coord.columnVector u' v) _).trans (add_le_add ?_ ?_)
  · have key := arc_sq u u'
    unfold chord
    apply Real.sqrt_le_iff.2
    refine ⟨by positivity, ?_⟩
    rw [sq_abs]
    simp [Coord.columnVector]
    have h1 : Real.cos v ^ 2 ≤ 1 := Real.cos_sq_le_one v
    have h2 : 0 ≤ (Real.sin u - Real.sin u') ^ 2 + (Real.cos u - Real.cos u') ^ 2 := by positivity
    nlinarith [sq_nonneg (Real.cos v)]
  · have key := arc_sq v v'
    unfold chord
    apply Real.sqrt_le_iff.2
    refine ⟨by positivity, ?_⟩
    rw [sq_abs]
    simp [Coord.columnVector]
    have h1 := Real.sin_sq_add_cos_sq u'
    have e : (Real.cos u' * Real.cos v - Real.cos u' * Real.cos v') ^ 2 + (Real.sin u' * Real.cos v - Real.sin u' * Real.cos v') ^ 2 =
        (Real.cos v - Real.cos v') ^ 2 := by linear_combination (Real.cos v - Real.cos v') ^ 2 * h1
    linarith

theorem size_rotate {M : Coord.Mat} (h : AngleMatrix M) (v : Coord.Vec) : size (M *ᵥ v) = size v := by
  have := chord_rotate h v 0
  rw [mulVec_zero] at this
  exact this

theorem size_turned (l : List (Conversion × ℝ)) (v : Coord.Vec) : size (turned l v) = size v := by
  induction l generalizing v with
  | nil => rfl
  | cons s l ih => exact (ih _).trans (size_rotate (exact_angle _ _) v)

theorem chord_turned (l : List (Conversion × ℝ)) (v w : Coord.Vec) : chord (turned l v) (turned l w) = chord v w := by
  induction l generalizing v w with
  | nil => rfl
  | cons s l ih => exact (ih _ _).trans (chord_rotate (exact_angle _ _) v w)

/-- One of the conversions with the angle as stored. -/
noncomputable def storedRotation (T : Trig) (c : Conversion) (q : ℚ) (h : IsDouble q) : Rotation T where
  angle := q
  computed := match c with
    | .horizon => DMat.haDecHorizon T (.num q)
    | .hourAngle => DMat.haDecRaDec T (.num q)
    | .fromEcliptic => DMat.eclipticToRaDec T (.num q)
    | .toEcliptic => DMat.raDecToEcliptic T (.num q)
  exact := exactMatrix c q
  double := h
  same := by cases c <;> constructor
  rotates := exact_angle c q

/-- A rotation with the angle as stored, and the conversion it stands for. -/
def StoredAs {T : Trig} (e : ℝ) (r : Rotation T) (s : Conversion × DAngle × ℝ) : Prop :=
  r.computed = s.1.matrix T s.2.1 ∧ ∀ v w, size w = 1 → chord (r.exact *ᵥ v) (exactMatrix s.1 s.2.2 *ᵥ w) ≤ chord v w + e

/-- The stored rotations of a list of conversions. -/
theorem stored_list (T : Trig) {e : ℝ} (steps : List (Conversion × DAngle × ℝ)) (hs : ∀ s ∈ steps, Near s.2.1.radians s.2.2 e) :
    ∃ l : List (Rotation T), List.Forall₂ (StoredAs e) l steps := by
  induction steps with
  | nil => exact ⟨[], .nil⟩
  | cons s steps ih =>
    obtain ⟨l, h1⟩ := ih fun t ht => hs t (List.mem_cons_of_mem _ ht)
    obtain ⟨q, hq, dq, eq⟩ := hs s List.mem_cons_self
    refine ⟨storedRotation T s.1 q dq :: l, .cons ⟨?_, ?_⟩ h1⟩
    · obtain ⟨c, a, r⟩ := s
      have ha : a.radians = .num q := hq
      cases c <;> simp [storedRotation, Conversion.matrix, ha]
    · intro v w hw
      have h4 := chord_triangle (exactMatrix s.1 q *ᵥ v) (exactMatrix s.1 q *ᵥ w) (exactMatrix s.1 s.2.2 *ᵥ w)
      rw [chord_rotate (exact_angle _ _)] at h4
      have h5 := exact_close s.1 q s.2.2 w
      rw [hw, mul_one] at h5
      have e1 : (storedRotation T s.1 q dq).exact = exactMatrix s.1 q := rfl
      rw [e1]
      linarith

theorem stored_computed {T : Trig} {e : ℝ} {l : List (Rotation T)} {steps : List (Conversion × DAngle × ℝ)} (h : List.Forall₂ (StoredAs e) l steps) :
    l.map (·.computed) = steps.map (fun s => s.1.matrix T s.2.1) := by
  induction h with
  | nil => rfl
  | cons h _ ih => rw [List.map_cons, List.map_cons, ih, h.1]

theorem stored_chord {T : Trig} {e : ℝ} {l : List (Rotation T)} {steps : List (Conversion × DAngle × ℝ)} (h : List.Forall₂ (StoredAs e) l steps)
    (v w : Coord.Vec) (hw : size w = 1) : chord (rotated l v) (turned (steps.map fun s => (s.1, s.2.2)) w) ≤ chord v w + steps.length * e := by
  induction h generalizing v w with
  | nil => simp [rotated, turned]
  | @cons r s l steps h _ ih =>
    have h3 := ih (r.exact *ᵥ v) (exactMatrix s.1 s.2.2 *ᵥ w) (by rw [size_rotate (exact_angle _ _), hw])
    have h4 := h.2 v w hw
    have e1 : rotated (r :: l) v = rotated l (r.exact *ᵥ v) := rfl
    have e2 : turned ((s :: steps).map fun s => (s.1, s.2.2)) w = turned (steps.map fun s => (s.1, s.2.2)) (exactMatrix s.1 s.2.2 *ᵥ w) := rfl
    rw [e1, e2, List.length_cons]
    push_cast
    linarith

/-- Angles of up to a full turn in degrees. -/
theorem degrees_near (x : ℚ) (hx : |x| ≤ 360) : Near (inDegrees x).radians (degree x) (2 ^ (-40 : ℤ)) := by
  have hk : |((5030569068109444 * 2 ^ (-58 : ℤ) : ℚ) : ℝ) - Real.pi / 180| ≤ |Real.pi / 180| * (66 / 10 ^ 15) := by
    obtain ⟨c1, c2⟩ := degree_close
    have := Real.pi_pos
    rw [abs_of_nonneg (le_trans (by positivity) c1), abs_of_pos (by positivity)]
    exact c2
  have hm : |x * (5030569068109444 * 2 ^ (-58 : ℤ))| ≤ (2 : ℚ) ^ (1023 : ℤ) := by
    rw [abs_mul]
    refine (mul_le_mul hx (show _ ≤ (1 : ℚ) by rw [abs_of_pos (by positivity)]; norm_num) (abs_nonneg _) (by norm_num)).trans ?_
    refine le_trans ?_ (zpow_le_zpow_right₀ (by norm_num) (show (10 : ℤ) ≤ 1023 by norm_num))
    norm_num
  obtain ⟨q, h1, h2, h3⟩ := C126_stored hk (by norm_num) hm
  unfold DAngle.radians inDegrees degree
  rw [degree_num]
  refine ⟨q, h1, h2, h3.trans ?_⟩
  have hx' : |(x : ℝ)| ≤ 360 := by
    have := (Rat.cast_le (K := ℝ)).2 hx
    push_cast at this
    exact this
  have p : |x * (Real.pi / 180)| ≤ 63 / 10 := by
    have h4 := Real.pi_lt_d2
    have h5 := Real.pi_pos
    rw [abs_mul, abs_of_pos (show 0 < Real.pi / 180 by positivity)]
    refine (mul_le_mul hx' (show Real.pi / 180 ≤ 3.15 / 180 by linarith) (by positivity) (by norm_num)).trans (by norm_num)
  have t : (2 : ℝ) ^ (-1075 : ℤ) ≤ 1 / 10 ^ 14 := le_trans (zpow_le_zpow_right₀ (by norm_num) (show (-1075 : ℤ) ≤ -50 by norm_num)) (by norm_num)
  refine (add_le_add (mul_le_mul_of_nonneg_right p (by norm_num)) t).trans (by norm_num)

end Astro
