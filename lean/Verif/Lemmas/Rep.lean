import Verif.Spec.Vector
import Mathlib.Tactic.FieldSimp
import Mathlib.Tactic.FinCases
import Mathlib.Tactic.LinearCombination

/-
Lemmas about representations.
-/

namespace Astro

open Astro.Coord

theorem norm_pos_iff (p : Pt) : 0 < p.norm ↔ ¬(p.c0 = 0 ∧ p.c1 = 0 ∧ p.c2 = 0) := by
  rw [Pt.norm, Real.sqrt_pos]
  constructor
  · rintro h ⟨a, b, c⟩
    simp [a, b, c] at h
  · intro h
    by_contra hn
    apply h
    have := mul_self_nonneg p.c0
    have := mul_self_nonneg p.c1
    have := mul_self_nonneg p.c2
    exact ⟨mul_self_eq_zero.1 (by linarith), mul_self_eq_zero.1 (by linarith), mul_self_eq_zero.1 (by linarith)⟩

theorem norm_sq (p : Pt) : p.norm * p.norm = p.c0 * p.c0 + p.c1 * p.c1 + p.c2 * p.c2 :=
  Real.mul_self_sqrt (by nlinarith [mul_self_nonneg p.c0, mul_self_nonneg p.c1, mul_self_nonneg p.c2])

theorem norm_nonneg (p : Pt) : 0 ≤ p.norm := Real.sqrt_nonneg _

theorem norm_zero {p : Pt} (h : ¬0 < p.norm) : p = ⟨0, 0, 0⟩ := by
  rw [norm_pos_iff, not_not] at h
  exact Pt.ext h.1 h.2.1 h.2.2

theorem atan2_polar (x y : ℝ) : Real.sqrt (x * x + y * y) * Real.cos (atan2 y x) = x ∧ Real.sqrt (x * x + y * y) * Real.sin (atan2 y x) = y := by
  have h : Real.sqrt (x * x + y * y) = ‖(⟨x, y⟩ : ℂ)‖ := by rw [Complex.norm_def, Complex.normSq_mk]
  rw [h]
  exact ⟨Complex.norm_mul_cos_arg _, Complex.norm_mul_sin_arg _⟩

theorem atan2_of_polar (c u : ℝ) (hc : 0 < c) (h : -Real.pi < u ∧ u ≤ Real.pi) : atan2 (c * Real.sin u) (c * Real.cos u) = u := by
  have : (⟨c * Real.cos u, c * Real.sin u⟩ : ℂ) = (c : ℂ) * (Complex.cos u + Complex.sin u * Complex.I) := by
    apply Complex.ext <;> simp [Complex.cos_ofReal_re, Complex.sin_ofReal_re]
  rw [atan2, this, Complex.arg_mul_cos_add_sin_mul_I hc ⟨h.1, h.2⟩]

theorem abs_div_norm (p : Pt) (h : 0 < p.norm) : -1 ≤ p.c2 / p.norm ∧ p.c2 / p.norm ≤ 1 := by
  rw [← abs_le, abs_div, abs_of_pos h, div_le_one h]
  apply abs_le_of_sq_le_sq _ (norm_nonneg p)
  nlinarith [norm_sq p, mul_self_nonneg p.c0, mul_self_nonneg p.c1]

/-- √(r² - z²) = √(x² + y²) -/
theorem norm_mul_sqrt (p : Pt) (h : 0 < p.norm) :
    p.norm * Real.sqrt (1 - (p.c2 / p.norm) ^ 2) = Real.sqrt (p.c0 * p.c0 + p.c1 * p.c1) := by
  have e : p.c0 * p.c0 + p.c1 * p.c1 = p.norm ^ 2 * (1 - (p.c2 / p.norm) ^ 2) := by
    have := norm_sq p
    field_simp
    linarith
  rw [e, Real.sqrt_mul (sq_nonneg _), Real.sqrt_sq h.le]

/-- Going to any system and back gives the Cartesian point, whatever the target point held. -/
theorem toCart_fromCart (old : ℝ) (s : System) (p : Pt) : toCart s (fromCart old s p) = p := by
  cases s
  · rfl
  · by_cases h : 0 < p.norm
    · obtain ⟨hx, hy⟩ := atan2_polar p.c0 p.c1
      have hb := abs_div_norm p h
      have hs := norm_mul_sqrt p h
      apply Pt.ext
      · simp only [toCart, fromCart, if_pos h, Real.sin_arccos, hs, hx]
      · simp only [toCart, fromCart, if_pos h, Real.sin_arccos, hs, hy]
      · simp only [toCart, fromCart, if_pos h, Real.cos_arccos hb.1 hb.2]
        field_simp
    · have hz := norm_zero h
      subst hz
      simp [toCart, fromCart, Pt.norm]
  · by_cases h : 0 < p.norm
    · obtain ⟨hx, hy⟩ := atan2_polar p.c0 p.c1
      have hb := abs_div_norm p h
      have hs := norm_mul_sqrt p h
      apply Pt.ext
      · simp only [toCart, fromCart, if_pos h, Real.cos_arcsin, hs, hx]
      · simp only [toCart, fromCart, if_pos h, Real.cos_arcsin, hs, hy]
      · simp only [toCart, fromCart, if_pos h, Real.sin_arcsin hb.1 hb.2]
        field_simp
    · have hz := norm_zero h
      subst hz
      simp [toCart, fromCart, Pt.norm]

theorem toCart_cartesian (p : Pt) : toCart .cartesian p = p := rfl

/-- The distance of a spherical or equatorial point is the length of its Cartesian point. -/
theorem norm_toCart {s : System} (hs : s ≠ .cartesian) (p : Pt) : (toCart s p).norm = |p.c2| := by
  have h0 := Real.sin_sq_add_cos_sq p.c0
  have h1 := Real.sin_sq_add_cos_sq p.c1
  cases s
  · exact absurd rfl hs
  · rw [Pt.norm, ← Real.sqrt_mul_self_eq_abs]
    congr 1
    simp only [toCart]
    linear_combination p.c2 ^ 2 * Real.sin p.c1 ^ 2 * h0 + p.c2 ^ 2 * h1
  · rw [Pt.norm, ← Real.sqrt_mul_self_eq_abs]
    congr 1
    simp only [toCart]
    linear_combination p.c2 ^ 2 * Real.cos p.c1 ^ 2 * h0 + p.c2 ^ 2 * h1

/-- Points in the principal ranges come back from Cartesian coordinates. -/
theorem fromCart_toCart (old : ℝ) (r : Rep) (h : Spec.Principal r) : fromCart old r.sys (toCart r.sys r.pt) = r.pt := by
  obtain ⟨s, p, _, _, _⟩ := r
  cases s
  · rfl
  · obtain ⟨a, b, c, d, e⟩ := h
    simp only at a b c d e
    have hn : (toCart .spherical p).norm = p.c2 := by rw [norm_toCart (by simp), abs_of_pos e]
    simp only [fromCart, hn, if_pos e]
    apply Pt.ext
    · simpa [toCart] using atan2_of_polar (p.c2 * Real.sin p.c1) p.c0 (mul_pos e (Real.sin_pos_of_pos_of_lt_pi c d)) ⟨a, b⟩
    · simp only [toCart]
      rw [mul_div_cancel_left₀ _ e.ne', Real.arccos_cos c.le d.le]
    · rfl
  · obtain ⟨a, b, c, d, e⟩ := h
    simp only at a b c d e
    have hn : (toCart .equatorial p).norm = p.c2 := by rw [norm_toCart (by simp), abs_of_pos e]
    simp only [fromCart, hn, if_pos e]
    apply Pt.ext
    · simpa [toCart] using atan2_of_polar (p.c2 * Real.cos p.c1) p.c0 (mul_pos e (Real.cos_pos_of_mem_Ioo ⟨c, d⟩)) ⟨a, b⟩
    · simp only [toCart]
      rw [mul_div_cancel_left₀ _ e.ne', Real.arcsin_sin c.le d.le]
    · rfl

theorem axis_pos {t : RepType} (h : Spec.Units t) : 0 < (Spec.axis t).c0 ∧ 0 < (Spec.axis t).c1 ∧ 0 < (Spec.axis t).c2 := by
  obtain ⟨s, a, b, c⟩ := t
  obtain ⟨h1, h2, h3⟩ := h
  cases s <;> exact ⟨by assumption, by assumption, by assumption⟩

theorem vec_eq (r : Rep) :
    Spec.vec r = ![(toCart r.sys r.pt).c0 * (Spec.axis r.type).c0, (toCart r.sys r.pt).c1 * (Spec.axis r.type).c1,
      (toCart r.sys r.pt).c2 * (Spec.axis r.type).c2] := by
  obtain ⟨s, p, u, v, w⟩ := r
  cases s <;> ext i <;> fin_cases i <;> simp [Spec.vec, toCart, Spec.axis, Rep.type] <;> ring

theorem vec_ofPoint (junk : ℝ) (t : RepType) (s : System) (p : Pt) :
    Spec.vec (Rep.ofPoint junk t s p) = ![(toCart s p).c0 * (Spec.axis t).c0, (toCart s p).c1 * (Spec.axis t).c1, (toCart s p).c2 * (Spec.axis t).c2] := by
  rw [vec_eq]
  simp only [Rep.ofPoint, toCart_fromCart]
  rfl

theorem makeCartesian_eq (r : Rep) :
    makeCartesian r = ⟨.cartesian, toCart r.sys r.pt, (Spec.axis r.type).c0, (Spec.axis r.type).c1, (Spec.axis r.type).c2⟩ := by
  obtain ⟨s, p, u, v, w⟩ := r
  cases s <;> rfl

theorem vec_cartesian (p : Pt) (u v w : ℝ) : Spec.vec ⟨.cartesian, p, u, v, w⟩ = ![p.c0 * u, p.c1 * v, p.c2 * w] := rfl

theorem vec_makeCartesian (r : Rep) : Spec.vec (makeCartesian r) = Spec.vec r := by
  rw [makeCartesian_eq, vec_eq r]
  rfl

theorem unitCast_mul (a v : ℝ) {b : ℝ} (h : 0 < b) : unitCast a b v * b = v * a := by
  rw [unitCast]
  field_simp

theorem vec_makeAngular (junk : ℝ) {s : System} (hs : s ≠ .cartesian) {r : Rep} (h : Spec.Units r.type) :
    Spec.vec (makeAngular junk s r) = Spec.vec r := by
  rw [makeAngular]
  split
  · rfl
  · simp only [makeCartesian_eq]
    obtain ⟨h1, h2, h3⟩ := axis_pos h
    rw [vec_ofPoint, toCart_fromCart, vec_eq r]
    have ha : Spec.axis ⟨s, 1, 1, (Spec.axis r.type).c0⟩ = ⟨(Spec.axis r.type).c0, (Spec.axis r.type).c0, (Spec.axis r.type).c0⟩ := by
      cases s <;> first | exact absurd rfl hs | rfl
    rw [ha]
    simp only [unitCast_mul _ _ h1]

theorem vec_make (junk : ℝ) (s : System) {r : Rep} (h : Spec.Units r.type) : Spec.vec (make junk s r) = Spec.vec r := by
  cases s
  · exact vec_makeCartesian r
  · exact vec_makeAngular junk (by simp) h
  · exact vec_makeAngular junk (by simp) h

theorem make_sys (junk : ℝ) (s : System) (r : Rep) : (make junk s r).sys = s := by
  cases s
  · rw [make, makeCartesian_eq]
  · simp only [make, makeAngular]
    split <;> first | assumption | rfl
  · simp only [make, makeAngular]
    split <;> first | assumption | rfl

theorem make_units (junk : ℝ) (s : System) {r : Rep} (h : Spec.Units r.type) : Spec.Units (make junk s r).type := by
  have ha := axis_pos h
  cases s
  · rw [make, makeCartesian_eq]
    exact ha
  · simp only [make, makeAngular]
    split
    · exact h
    · simp only [makeCartesian_eq]
      exact ⟨one_pos, one_pos, ha.1⟩
  · simp only [make, makeAngular]
    split
    · exact h
    · simp only [makeCartesian_eq]
      exact ⟨one_pos, one_pos, ha.1⟩

theorem unitCast_trans (a v : ℝ) {b : ℝ} (h : 0 < b) (c : ℝ) : unitCast b c (unitCast a b v) = unitCast a c v := by
  simp only [unitCast]
  field_simp

theorem unitCast_self (v : ℝ) {a : ℝ} (h : 0 < a) : unitCast a a v = v := by
  simp only [unitCast]
  field_simp

/-- The conversion constructor in one step: numbers of the made representation in the new units. -/
theorem convert_eq (junk : ℝ) (t : RepType) {r : Rep} (h : Spec.Units r.type) :
    Rep.convert junk t r =
      let m := make junk t.sys r
      ⟨t.sys, match t.sys with
        | .cartesian => ⟨unitCast m.u1 t.u1 m.pt.c0, unitCast m.u2 t.u2 m.pt.c1, unitCast m.u3 t.u3 m.pt.c2⟩
        | _ => ⟨m.pt.c0, m.pt.c1, unitCast m.u3 t.u3 m.pt.c2⟩, t.u1, t.u2, t.u3⟩ := by
  obtain ⟨h1, h2, h3⟩ := make_units junk t.sys h
  have hs := make_sys junk t.sys r
  obtain ⟨s, u, v, w⟩ := t
  simp only [Rep.convert] at *
  generalize make junk s r = m at *
  obtain ⟨ms, mp, mu, mv, mw⟩ := m
  simp only [Rep.type] at *
  subst hs
  cases ms
  · rfl
  · simp only [Rep.get, unitCast_trans _ _ h1, unitCast_trans _ _ h2, unitCast_self _ one_pos]
  · simp only [Rep.get, unitCast_trans _ _ h1, unitCast_trans _ _ h2, unitCast_self _ one_pos]

theorem vec_convert (junk : ℝ) {t : RepType} {r : Rep} (h : Spec.Units r.type) (ht : Spec.Units t) :
    Spec.vec (Rep.convert junk t r) = Spec.vec r := by
  rw [convert_eq junk t h, ← vec_make junk t.sys h]
  have hs := make_sys junk t.sys r
  obtain ⟨h1, h2, h3⟩ := ht
  obtain ⟨s, u, v, w⟩ := t
  simp only at *
  generalize make junk s r = m at *
  obtain ⟨ms, mp, mu, mv, mw⟩ := m
  simp only [Rep.type] at *
  subst hs
  cases ms <;> simp only [Spec.vec, unitCast_mul _ _ h1, unitCast_mul _ _ h2, unitCast_mul _ _ h3]

theorem convert_back_same (junk junk' : ℝ) {t : RepType} {r : Rep} (hc : r.sys ≠ .cartesian) (hs : t.sys = r.sys) (h : Spec.Units r.type)
    (ht : Spec.Units t) : Rep.convert junk' r.type (Rep.convert junk t r) = r := by
  have e : ∀ (j : ℝ) (t : RepType) (r : Rep), r.sys ≠ .cartesian → t.sys = r.sys → Spec.Units r.type →
      Rep.convert j t r = ⟨t.sys, ⟨r.pt.c0, r.pt.c1, unitCast r.u3 t.u3 r.pt.c2⟩, t.u1, t.u2, t.u3⟩ := by
    intro j t r hc hs h
    rw [convert_eq j t h]
    obtain ⟨s, u, v, w⟩ := t
    obtain ⟨s', p, u', v', w'⟩ := r
    simp only at hs hc
    subst hs
    cases s
    · exact absurd rfl hc
    · rfl
    · rfl
  rw [e junk t r hc hs h, e junk' r.type ⟨t.sys, ⟨r.pt.c0, r.pt.c1, unitCast r.u3 t.u3 r.pt.c2⟩, t.u1, t.u2, t.u3⟩ (by rw [hs]; exact hc) hs.symm ht]
  obtain ⟨s', p, u', v', w'⟩ := r
  have hw : 0 < w' := h.2.2
  simp only [Rep.type, unitCast_trans _ _ ht.2.2, unitCast_self _ hw]

/-- A representation that stands for the same vector as `r` converts to `r`, when `r` is in the principal ranges. -/
theorem convert_of_vec (junk : ℝ) {r q : Rep} (hq : Spec.Units q.type) (hr : Spec.Units r.type) (hp : Spec.Principal r)
    (hc : r.sys ≠ .cartesian) (hs : q.sys ≠ r.sys) (hv : Spec.vec q = Spec.vec r) : Rep.convert junk r.type q = r := by
  obtain ⟨a1, a2, a3⟩ := axis_pos hq
  rw [vec_eq q, vec_eq r] at hv
  have haxis : Spec.axis r.type = ⟨r.u3, r.u3, r.u3⟩ := by
    obtain ⟨s', p, u', v', w'⟩ := r
    cases s' <;> first | exact absurd rfl hc | rfl
  have e0 := congrFun hv 0
  have e1 := congrFun hv 1
  have e2 := congrFun hv 2
  simp only [haxis, Matrix.cons_val_zero, Matrix.cons_val_one, Matrix.cons_val] at e0 e1 e2
  -- the point in units of the first axis of `q`
  have hpt : (⟨(toCart q.sys q.pt).c0, unitCast (Spec.axis q.type).c1 (Spec.axis q.type).c0 (toCart q.sys q.pt).c1,
      unitCast (Spec.axis q.type).c2 (Spec.axis q.type).c0 (toCart q.sys q.pt).c2⟩ : Pt) =
      toCart r.sys ⟨r.pt.c0, r.pt.c1, unitCast r.u3 (Spec.axis q.type).c0 r.pt.c2⟩ := by
    have hlin : toCart r.sys ⟨r.pt.c0, r.pt.c1, unitCast r.u3 (Spec.axis q.type).c0 r.pt.c2⟩ =
        ⟨unitCast r.u3 (Spec.axis q.type).c0 (toCart r.sys r.pt).c0, unitCast r.u3 (Spec.axis q.type).c0 (toCart r.sys r.pt).c1,
          unitCast r.u3 (Spec.axis q.type).c0 (toCart r.sys r.pt).c2⟩ := by
      obtain ⟨s', p, u', v', w'⟩ := r
      cases s'
      · exact absurd rfl hc
      · simp only [toCart, unitCast]
        apply Pt.ext <;> simp only <;> ring
      · simp only [toCart, unitCast]
        apply Pt.ext <;> simp only <;> ring
    rw [hlin]
    apply Pt.ext
    · apply mul_right_cancel₀ a1.ne'
      simp only [unitCast_mul _ _ a1]
      exact e0
    · apply mul_right_cancel₀ a1.ne'
      simp only [unitCast_mul _ _ a1]
      exact e1
    · apply mul_right_cancel₀ a1.ne'
      simp only [unitCast_mul _ _ a1]
      exact e2
  -- it is in the principal ranges as well
  have hp' : ∀ old, fromCart old r.sys (toCart r.sys ⟨r.pt.c0, r.pt.c1, unitCast r.u3 (Spec.axis q.type).c0 r.pt.c2⟩) =
      ⟨r.pt.c0, r.pt.c1, unitCast r.u3 (Spec.axis q.type).c0 r.pt.c2⟩ := by
    intro old
    have hpos : 0 < r.pt.c2 → 0 < unitCast r.u3 (Spec.axis q.type).c0 r.pt.c2 := fun h => mul_pos h (div_pos hr.2.2 a1)
    refine fromCart_toCart old ⟨r.sys, ⟨r.pt.c0, r.pt.c1, unitCast r.u3 (Spec.axis q.type).c0 r.pt.c2⟩, 1, 1, 1⟩ ?_
    obtain ⟨s', p, u', v', w'⟩ := r
    cases s'
    · exact absurd rfl hc
    · obtain ⟨a, b, c, d, e⟩ := hp
      exact ⟨a, b, c, d, hpos e⟩
    · obtain ⟨a, b, c, d, e⟩ := hp
      exact ⟨a, b, c, d, hpos e⟩
  have hm : make junk r.sys q = ⟨r.sys, ⟨r.pt.c0, r.pt.c1, unitCast r.u3 (Spec.axis q.type).c0 r.pt.c2⟩, 1, 1, (Spec.axis q.type).c0⟩ := by
    have hmk : make junk r.sys q = makeAngular junk r.sys q := by
      cases hrs : r.sys <;> first | exact absurd hrs hc | rfl
    rw [hmk, makeAngular, if_neg hs]
    simp only [makeCartesian_eq, hpt, Rep.ofPoint, hp']
  have hm' : make junk r.type.sys q = _ := hm
  rw [convert_eq junk r.type hq]
  simp only [hm']
  clear hm hm' hp' hpt e0 e1 e2 hv haxis hp
  generalize (Spec.axis q.type).c0 = a at *
  obtain ⟨s', p, u', v', w'⟩ := r
  have hw : 0 < w' := hr.2.2
  cases s'
  · exact absurd rfl hc
  · simp only [unitCast_trans _ _ a1, unitCast_self _ hw, Rep.type]
  · simp only [unitCast_trans _ _ a1, unitCast_self _ hw, Rep.type]

end Astro
