import Mathlib.Analysis.Real.Pi.Bounds
import Verif.Lemmas.Diff
import Verif.Spec.Frame

/-
Helper lemmas about frames.
-/

namespace Astro

open Astro.Coord Matrix

theorem isFrame_get {f : Frame} (h : Spec.IsFrame f) : f.data.get = ⟨unitCast 1 f.data.u1 f.data.pt.c0, unitCast 1 f.data.u2 f.data.pt.c1, f.data.pt.c2⟩ := by
  simp only [Rep.get, h.1]

/-- Setters keep the types. -/
theorem apply_isFrame {f : Frame} (h : Spec.IsFrame f) {c : Frame.Call} (hc : Spec.Typed f c) :
    Spec.IsFrame (f.apply c) ∧ (f.apply c).data.type = f.data.type ∧
      (f.apply c).motion.u1 = f.motion.u1 ∧ (f.apply c).motion.u2 = f.motion.u2 ∧ (f.apply c).motion.u3 = f.motion.u3 := by
  cases c with
  | differential d =>
    obtain ⟨e1, e2, e3⟩ := hc
    exact ⟨⟨h.1, h.2.1, by simp only [Frame.apply]; rw [e1]; exact h.2.2.1, by simp only [Frame.apply]; rw [e2]; exact h.2.2.2.1,
      by simp only [Frame.apply]; rw [e3]; exact h.2.2.2.2⟩, rfl, e1, e2, e3⟩
  | _ => exact ⟨h, rfl, rfl, rfl, rfl⟩

theorem observe_apply {f : Frame} (h : Spec.IsFrame f) (c : Frame.Call) (x : Spec.FrameField) :
    Spec.observe (f.apply c) x = (Spec.written c x).getD (Spec.observe f x) := by
  obtain ⟨hs, hu, m1, m2, -⟩ := h
  have h1 : 0 < f.data.u1 := hu.1
  have h2 : 0 < f.data.u2 := hu.2.1
  clear hu
  obtain ⟨⟨s, p, u, v, w⟩, ⟨q, u', v', w'⟩, l, pr, te, o, hu, eq⟩ := f
  simp only at hs h1 h2 m1 m2
  subst hs
  have hc : ∀ u : ℝ, 0 < u → ∀ v, unitCast 1 u (unitCast u 1 v) = v := fun u hu v => by rw [unitCast_trans _ _ one_pos, unitCast_self _ hu]
  cases c <;> cases x <;> first | rfl | exact hc u h1 _ | exact hc v h2 _ | exact hc u' m1 _ | exact hc v' m2 _

theorem norm_direction (b l : ℝ) : ‖Spec.direction b l‖ = 1 := by
  rw [EuclideanSpace.norm_eq, Fin.sum_univ_three, Real.sqrt_eq_one]
  simp only [Spec.direction]
  have h0 := Real.sin_sq_add_cos_sq b
  have h1 := Real.sin_sq_add_cos_sq l
  simp only [Real.norm_eq_abs, sq_abs]
  simp
  linear_combination h0 + Real.cos b ^ 2 * h1

theorem inner_direction (b l b' l' : ℝ) :
    inner ℝ (Spec.direction b l) (Spec.direction b' l') = Real.sin b * Real.sin b' + Real.cos b * Real.cos b' * Real.cos (l - l') := by
  rw [Real.cos_sub]
  simp [Spec.direction, PiLp.inner_apply, Fin.sum_univ_three]
  ring

theorem angularDistance_eq (b l b' l' : ℝ) :
    Spec.angularDistance b l b' l' = Real.arccos (Real.sin b * Real.sin b' + Real.cos b * Real.cos b' * Real.cos (l - l')) := by
  rw [Spec.angularDistance, InnerProductGeometry.angle, norm_direction, norm_direction, inner_direction, mul_one, div_one]

end Astro
