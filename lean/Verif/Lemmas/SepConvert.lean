import Verif.Spec.SepConvert
import Verif.Spec.ChainDouble
import Verif.Lemmas.ChainDouble
import Verif.Props.Frame

/-
Helper lemmas about the angle between directions.
-/

namespace Astro

open Spec Matrix Coord

/-- The cosine of the angle between two directions. -/
theorem column_dot (l b l' b' : ℝ) : columnVector l b ⬝ᵥ columnVector l' b' = Real.sin b * Real.sin b' + Real.cos b * Real.cos b' * Real.cos (l - l') := by
  simp only [columnVector, dotProduct, Fin.sum_univ_three, cons_val_zero, cons_val_one, cons_val, Real.cos_sub]
  ring

theorem angularDistance_dot (l b l' b' : ℝ) : angularDistance b l b' l' = Real.arccos (columnVector l b ⬝ᵥ columnVector l' b') := by
  rw [angularDistance_eq, column_dot]

theorem convert_column {m : Mat} (hm : AngleMatrix m) {p q : ℝ × ℝ} (h : convert m p = some q) : columnVector q.1 q.2 = m *ᵥ columnVector p.1 p.2 := by
  obtain ⟨a, b, e, -, -, -, -, ec⟩ := C57_column (m *ᵥ columnVector p.1 p.2) (by rw [C53_isometry m hm, C57_unit])
  simp only [convert, e, Option.map_some, Option.some.injEq] at h
  rw [← h]; exact ec

theorem convert_some {m : Mat} (hm : AngleMatrix m) (p : ℝ × ℝ) : ∃ q, convert m p = some q := by
  obtain ⟨a, b, e, -⟩ := C57_column (m *ᵥ columnVector p.1 p.2) (by rw [C53_isometry m hm, C57_unit])
  exact ⟨(a, b), by simp only [convert, e, Option.map_some]⟩

theorem convertAll_some {ms : List Mat} (hm : ∀ m ∈ ms, AngleMatrix m) (p : ℝ × ℝ) : ∃ q, convertAll ms p = some q := by
  induction ms generalizing p with
  | nil => exact ⟨p, rfl⟩
  | cons m ms ih =>
    obtain ⟨q, hq⟩ := convert_some (hm m List.mem_cons_self) p
    obtain ⟨r, hr⟩ := ih (fun m' h => hm m' (List.mem_cons_of_mem _ h)) q
    refine ⟨r, ?_⟩
    unfold convertAll at *
    rw [List.foldlM_cons, hq]; exact hr

theorem convertAll_dot {ms : List Mat} (hm : ∀ m ∈ ms, AngleMatrix m) {p p' q q' : ℝ × ℝ} (h : convertAll ms p = some q) (h' : convertAll ms p' = some q') :
    columnVector q.1 q.2 ⬝ᵥ columnVector q'.1 q'.2 = columnVector p.1 p.2 ⬝ᵥ columnVector p'.1 p'.2 := by
  induction ms generalizing p p' with
  | nil => cases h; cases h'; rfl
  | cons m ms ih =>
    have hm0 := hm m List.mem_cons_self
    obtain ⟨r, hr⟩ := convert_some hm0 p
    obtain ⟨r', hr'⟩ := convert_some hm0 p'
    unfold convertAll at h h'
    rw [List.foldlM_cons, hr] at h
    rw [List.foldlM_cons, hr'] at h'
    rw [ih (fun m' h => hm m' (List.mem_cons_of_mem _ h)) h h', convert_column hm0 hr, convert_column hm0 hr', C53_isometry m hm0]

/-! ### angles between unit vectors -/

theorem unit_dot_le {a b : Vec} (ha : a ⬝ᵥ a = 1) (hb : b ⬝ᵥ b = 1) : -1 ≤ a ⬝ᵥ b ∧ a ⬝ᵥ b ≤ 1 := by
  simp only [dotProduct, Fin.sum_univ_three] at *
  constructor
  · nlinarith [sq_nonneg (a 0 + b 0), sq_nonneg (a 1 + b 1), sq_nonneg (a 2 + b 2)]
  · nlinarith [sq_nonneg (a 0 - b 0), sq_nonneg (a 1 - b 1), sq_nonneg (a 2 - b 2)]

theorem arccos_angle {a b : Vec} (ha : a ⬝ᵥ a = 1) (hb : b ⬝ᵥ b = 1) :
    Real.arccos (a ⬝ᵥ b) = InnerProductGeometry.angle (WithLp.toLp 2 a : EuclideanSpace ℝ (Fin 3)) (WithLp.toLp 2 b) := by
  have norm1 : ∀ a : Vec, a ⬝ᵥ a = 1 → ‖(WithLp.toLp 2 a : EuclideanSpace ℝ (Fin 3))‖ = 1 := by
    intro a ha
    rw [EuclideanSpace.norm_eq, Fin.sum_univ_three, Real.sqrt_eq_one]
    simp only [dotProduct, Fin.sum_univ_three] at ha
    simp only [Real.norm_eq_abs, sq_abs]
    linarith
  rw [InnerProductGeometry.angle, norm1 a ha, norm1 b hb, mul_one, div_one]
  congr 1
  simp only [dotProduct, PiLp.inner_apply, Fin.sum_univ_three, RCLike.inner_apply, conj_trivial]
  ring

/-- The angle is at most π/2 times the chord. -/
theorem arccos_le_chord {a b : Vec} (ha : a ⬝ᵥ a = 1) (hb : b ⬝ᵥ b = 1) : Real.arccos (a ⬝ᵥ b) ≤ Real.pi / 2 * chord a b := by
  obtain ⟨hl, hu⟩ := unit_dot_le ha hb
  have h0 := Real.arccos_nonneg (a ⬝ᵥ b)
  have hp := Real.arccos_le_pi (a ⬝ᵥ b)
  have hs : 0 ≤ Real.sin (Real.arccos (a ⬝ᵥ b) / 2) := Real.sin_nonneg_of_nonneg_of_le_pi (by linarith) (by linarith)
  have hc : chord a b = 2 * Real.sin (Real.arccos (a ⬝ᵥ b) / 2) := by
    unfold chord
    rw [Real.sqrt_eq_iff_mul_self_eq (by positivity) (by positivity)]
    have hc : Real.cos (2 * (Real.arccos (a ⬝ᵥ b) / 2)) = a ⬝ᵥ b := by rw [mul_div_cancel₀ _ (two_ne_zero), Real.cos_arccos hl hu]
    rw [Real.cos_two_mul, Real.cos_sq'] at hc
    simp only [dotProduct, Fin.sum_univ_three] at *
    nlinarith
  have hj := Real.mul_le_sin (x := Real.arccos (a ⬝ᵥ b) / 2) (by linarith) (by linarith)
  rw [hc]
  have hpi := Real.pi_pos
  have := mul_le_mul_of_nonneg_left hj hpi.le
  have e : Real.pi * (2 / Real.pi * (Real.arccos (a ⬝ᵥ b) / 2)) = Real.arccos (a ⬝ᵥ b) := by field_simp
  rw [e] at this
  linarith

/-- Directions that move a little change their angle a little. -/
theorem arccos_moved {a b p q : Vec} (ha : a ⬝ᵥ a = 1) (hb : b ⬝ᵥ b = 1) (hp : p ⬝ᵥ p = 1) (hq : q ⬝ᵥ q = 1) :
    |Real.arccos (p ⬝ᵥ q) - Real.arccos (a ⬝ᵥ b)| ≤ Real.pi / 2 * (chord p a + chord q b) := by
  have comm : ∀ x y : Vec, chord x y = chord y x := by intro x y; rw [chord_dist, chord_dist, dist_comm]
  have k1 := arccos_le_chord hp ha
  have k2 := arccos_le_chord hq hb
  have k3 := arccos_le_chord ha hp
  have k4 := arccos_le_chord hb hq
  rw [comm a p] at k3
  rw [comm b q] at k4
  rw [arccos_angle hp ha] at k1
  rw [arccos_angle hq hb] at k2
  rw [arccos_angle ha hp] at k3
  rw [arccos_angle hb hq] at k4
  rw [arccos_angle hp hq, arccos_angle ha hb]
  have t1 := InnerProductGeometry.angle_le_angle_add_angle (WithLp.toLp 2 p : EuclideanSpace ℝ (Fin 3)) (WithLp.toLp 2 a) (WithLp.toLp 2 q)
  have t2 := InnerProductGeometry.angle_le_angle_add_angle (WithLp.toLp 2 a : EuclideanSpace ℝ (Fin 3)) (WithLp.toLp 2 b) (WithLp.toLp 2 q)
  have t3 := InnerProductGeometry.angle_le_angle_add_angle (WithLp.toLp 2 a : EuclideanSpace ℝ (Fin 3)) (WithLp.toLp 2 p) (WithLp.toLp 2 b)
  have t4 := InnerProductGeometry.angle_le_angle_add_angle (WithLp.toLp 2 p : EuclideanSpace ℝ (Fin 3)) (WithLp.toLp 2 q) (WithLp.toLp 2 b)
  rw [abs_le]
  constructor <;> nlinarith

theorem rotated_dot {T : Trig} (l : List (Rotation T)) (v w : Vec) : rotated l v ⬝ᵥ rotated l w = v ⬝ᵥ w := by
  induction l generalizing v w with
  | nil => rfl
  | cons r l ih =>
    unfold rotated at *
    rw [List.foldl_cons, List.foldl_cons, ih, C53_isometry _ r.rotates]

/-! ### separation of equatorial data -/

theorem equatorial_angle (f g : Frame) (hf : IsEquatorial f) (hg : IsEquatorial g) :
    f.separation g = if f.dist = 0 ∨ g.dist = 0 then none
      else some (angularDistance f.data.pt.c1 f.data.pt.c0 g.data.pt.c1 g.data.pt.c0) := by
  obtain ⟨⟨s, p, u, v, w⟩, mf⟩ := f
  obtain ⟨⟨s', q, u', v', w'⟩, mg⟩ := g
  have hs : s = .equatorial := hf.1
  have hs' : s' = .equatorial := hg.1
  have hw : 0 < w := hf.2.2.2
  have hw' : 0 < w' := hg.2.2.2
  clear hf hg
  subst hs hs'
  have hi := inner_direction p.c1 p.c0 q.c1 q.c0
  have hb := abs_real_inner_le_norm (direction p.c1 p.c0) (direction q.c1 q.c0)
  rw [norm_direction, norm_direction, one_mul, abs_le] at hb
  have hd : (dot ⟨.equatorial, p, u, v, w⟩ ⟨.equatorial, q, u', v', w'⟩).value =
      p.c2 * q.c2 * inner ℝ (direction p.c1 p.c0) (direction q.c1 q.c0) := by
    rw [hi, Real.cos_sub]
    simp only [dot, makeCartesian_eq, Spec.axis, Rep.type, unitCast_self _ hw, unitCast_self _ hw', toCart]
    ring
  rw [angularDistance, InnerProductGeometry.angle, norm_direction, norm_direction, mul_one, div_one]
  simp only [Frame.separation, Frame.dist, Rep.get, magnitude]
  rw [hd]
  by_cases h0 : p.c2 = 0 ∨ q.c2 = 0
  · exact (if_pos (mul_eq_zero.2 h0)).trans (if_pos h0).symm
  · have hne : p.c2 * q.c2 ≠ 0 := fun h => h0 (mul_eq_zero.1 h)
    refine (if_neg hne).trans (Eq.trans ?_ (if_neg h0).symm)
    rw [mul_div_cancel_left₀ _ hne, acos, if_pos hb]

end Astro
