import Verif.Lemmas.Rep
import Mathlib.LinearAlgebra.CrossProduct
import Mathlib.LinearAlgebra.Matrix.DotProduct
import Mathlib.Analysis.Real.Pi.Bounds

/-
Representations and their arithmetic (C59 to C63, C83).

`junk` is the value an uninitialised number happens to have; every theorem holds for all of them.
-/

namespace Astro

open Astro.Coord Matrix

/-! C59 -/

/-- C59: converting between representations (make_* functions and constructors) keeps the vector, in all units and systems. -/
theorem C59_same_vector (junk : ℝ) (r : Rep) (h : Spec.Units r.type) :
    (∀ s, Spec.vec (make junk s r) = Spec.vec r ∧ (make junk s r).sys = s) ∧
    (∀ t, Spec.Units t → Spec.vec (Rep.convert junk t r) = Spec.vec r ∧ (Rep.convert junk t r).type = t) := by
  refine ⟨fun s => ⟨vec_make junk s h, make_sys junk s r⟩, fun t ht => ⟨vec_convert junk h ht, ?_⟩⟩
  rw [convert_eq junk t h]
  rfl

/-- C59: a Cartesian representation converted to any system and back to its own type is the same object, zero components included. -/
theorem C59_cartesian (junk junk' : ℝ) (t : RepType) (r : Rep) (hr : r.sys = .cartesian) (h : Spec.Units r.type) (ht : Spec.Units t) :
    Rep.convert junk' r.type (Rep.convert junk t r) = r := by
  have hty : (Rep.convert junk t r).type = t := ((C59_same_vector junk r h).2 t ht).2
  have hv := vec_convert junk' (r := Rep.convert junk t r) (t := r.type) (by rw [hty]; exact ht) h
  rw [vec_convert junk h ht] at hv
  have hty2 : (Rep.convert junk' r.type (Rep.convert junk t r)).type = r.type :=
    ((C59_same_vector junk' (Rep.convert junk t r) (by rw [hty]; exact ht)).2 r.type h).2
  generalize Rep.convert junk' r.type (Rep.convert junk t r) = q at *
  obtain ⟨s, p, u, v, w⟩ := r
  obtain ⟨s', p', u', v', w'⟩ := q
  simp only [Rep.type, RepType.mk.injEq] at hr hty2 h
  obtain ⟨rfl, rfl, rfl, rfl⟩ := hty2
  subst hr
  obtain ⟨h1, h2, h3⟩ := h
  have e0 := congrFun hv 0
  have e1 := congrFun hv 1
  have e2 := congrFun hv 2
  simp only [Spec.vec, cons_val_zero, cons_val_one, cons_val] at e0 e1 e2
  have : p' = p := Pt.ext (mul_right_cancel₀ h1.ne' e0) (mul_right_cancel₀ h2.ne' e1) (mul_right_cancel₀ h3.ne' e2)
  rw [this]

/-- C59: a spherical or equatorial representation with positive distance and angles in their principal ranges converted to any other type and back to
its own is the same object. -/
theorem C59_angular (junk junk' : ℝ) (t : RepType) (r : Rep) (hp : Spec.Principal r) (h : Spec.Units r.type) (ht : Spec.Units t) :
    Rep.convert junk' r.type (Rep.convert junk t r) = r := by
  by_cases hc : r.sys = .cartesian
  · exact C59_cartesian junk junk' t r hc h ht
  · have hty : (Rep.convert junk t r).type = t := ((C59_same_vector junk r h).2 t ht).2
    by_cases hs : t.sys = r.sys
    · exact convert_back_same junk junk' hc hs h ht
    · have hsys : (Rep.convert junk t r).sys ≠ r.sys := by
        have : (Rep.convert junk t r).sys = t.sys := congrArg RepType.sys hty
        rwa [this]
      exact convert_of_vec junk' (by rw [hty]; exact ht) h hp hc hsys (vec_convert junk h ht)

/-- C59: a conversion into an angular system from another system gives angles in the principal ranges and a distance that is not negative; a zero
vector gives azimuth 0 and leaves the second angle indeterminate. -/
theorem C59_ranges (junk : ℝ) (s : System) (r : Rep) (hs : s ≠ .cartesian) (hr : r.sys ≠ s) (h : Spec.Units r.type) :
    ∀ p, p = (make junk s r).pt →
    -Real.pi < p.c0 ∧ p.c0 ≤ Real.pi ∧ 0 ≤ p.c2 ∧
    (s = .spherical → Spec.vec r ≠ 0 → 0 ≤ p.c1 ∧ p.c1 ≤ Real.pi) ∧
    (s = .equatorial → Spec.vec r ≠ 0 → -(Real.pi / 2) ≤ p.c1 ∧ p.c1 ≤ Real.pi / 2) ∧
    (Spec.vec r = 0 → p = ⟨0, junk, 0⟩) := by
  rintro p rfl
  have hvec := vec_make junk s h
  have hmk : ∃ x, make junk s r = Rep.ofPoint junk ⟨s, 1, 1, (Spec.axis r.type).c0⟩ .cartesian x := by
    have : make junk s r = makeAngular junk s r := by cases s <;> first | exact absurd rfl hs | rfl
    rw [this, makeAngular, if_neg hr]
    simp only [makeCartesian_eq, Rep.ofPoint, toCart_fromCart]
    exact ⟨_, rfl⟩
  obtain ⟨x, hx⟩ := hmk
  rw [hx] at hvec ⊢
  rw [vec_ofPoint] at hvec
  have hpos := (axis_pos h).1
  have hax : Spec.axis ⟨s, 1, 1, (Spec.axis r.type).c0⟩ = ⟨(Spec.axis r.type).c0, (Spec.axis r.type).c0, (Spec.axis r.type).c0⟩ := by
    cases s <;> first | exact absurd rfl hs | rfl
  rw [hax] at hvec
  generalize (Spec.axis r.type).c0 = a at *
  have hzero : Spec.vec r = 0 ↔ x = ⟨0, 0, 0⟩ := by
    rw [← hvec]
    constructor
    · intro e
      have e0 := congrFun e 0
      have e1 := congrFun e 1
      have e2 := congrFun e 2
      simp only [toCart, cons_val_zero, cons_val_one, cons_val, Pi.zero_apply, mul_eq_zero, hpos.ne', or_false] at e0 e1 e2
      exact Pt.ext e0 e1 e2
    · rintro rfl
      ext i
      fin_cases i <;> simp [toCart]
  simp only [Rep.ofPoint, toCart]
  have hn : Spec.vec r ≠ 0 → 0 < x.norm := by
    intro hne
    by_contra hc
    exact hne (hzero.2 (norm_zero hc))
  cases s
  · exact absurd rfl hs
  · refine ⟨Complex.neg_pi_lt_arg _, Complex.arg_le_pi _, norm_nonneg _, fun _ hne => ?_, (by intro h; cases h), fun hz => ?_⟩
    · simp only [fromCart, if_pos (hn hne)]
      exact ⟨Real.arccos_nonneg _, Real.arccos_le_pi _⟩
    · have := hzero.1 hz
      subst this
      have : (⟨0, 0⟩ : ℂ) = 0 := rfl
      simp [fromCart, Pt.norm, atan2, this]
  · refine ⟨Complex.neg_pi_lt_arg _, Complex.arg_le_pi _, norm_nonneg _, (by intro h; cases h), fun _ hne => ?_, fun hz => ?_⟩
    · simp only [fromCart, if_pos (hn hne)]
      exact ⟨Real.neg_pi_div_two_le_arcsin _, Real.arcsin_le_pi_div_two _⟩
    · have := hzero.1 hz
      subst this
      have : (⟨0, 0⟩ : ℂ) = 0 := rfl
      simp [fromCart, Pt.norm, atan2, this]

/-- The z axis, with zero components: distance 3 m, azimuth 0, polar angle 0. -/
example : (make 7 .spherical ⟨.cartesian, ⟨0, 0, 3⟩, 1, 1, 1⟩).pt = ⟨0, 0, 3⟩ := by
  have n : Pt.norm ⟨0, 0, 3⟩ = 3 := by
    rw [Pt.norm, Real.sqrt_eq_iff_mul_self_eq_of_pos] <;> norm_num
  have z : (⟨0, 0⟩ : ℂ) = 0 := rfl
  have t : toCart .spherical ⟨0, 0, 3⟩ = ⟨0, 0, 3⟩ := by simp [toCart]
  simp [make, makeAngular, makeCartesian, Rep.ofPoint, unitCast, fromCart, n, t, atan2, z]

/-- A point in degrees and kilometres (units 1 = radian, metre). -/
example (junk junk' : ℝ) : Rep.convert junk' ⟨.spherical, Real.pi / 180, Real.pi / 180, 1000⟩
    (Rep.convert junk ⟨.cartesian, 1, 10, 100⟩ ⟨.spherical, ⟨1, 2, 5⟩, Real.pi / 180, Real.pi / 180, 1000⟩) =
    ⟨.spherical, ⟨1, 2, 5⟩, Real.pi / 180, Real.pi / 180, 1000⟩ := by
  have := Real.pi_gt_three
  have hu : 0 < Real.pi / 180 := by linarith
  exact C59_angular junk junk' ⟨.cartesian, 1, 10, 100⟩ ⟨.spherical, ⟨1, 2, 5⟩, Real.pi / 180, Real.pi / 180, 1000⟩
    ⟨by linarith, by linarith, by norm_num, by linarith, by norm_num⟩ ⟨hu, hu, by norm_num [Rep.type]⟩ ⟨by norm_num, by norm_num, by norm_num⟩

/-! C60 -/

/-- C60: the dot product with its unit is the dot product of the vectors; so it does not depend on the units or systems used. -/
theorem C60_dot (a b : Rep) (ha : Spec.Units a.type) (hb : Spec.Units b.type) :
    (dot a b).value * (dot a b).unit = Spec.vec a ⬝ᵥ Spec.vec b := by
  obtain ⟨a1, a2, a3⟩ := axis_pos ha
  obtain ⟨b1, b2, b3⟩ := axis_pos hb
  rw [vec_eq a, vec_eq b]
  simp only [dot, makeCartesian_eq, unitCast, dotProduct, Fin.sum_univ_three, cons_val_zero, cons_val_one, cons_val]
  field_simp

/-- (2 km, 0, 0) · (3 m, 4 m, 0) = 6000 m², given as 6 km m. -/
example : dot ⟨.cartesian, ⟨2, 0, 0⟩, 1000, 1, 1⟩ ⟨.cartesian, ⟨3, 4, 0⟩, 1, 1, 1⟩ = ⟨6, 1000⟩ := by
  simp [dot, makeCartesian, unitCast]
  norm_num

/-- C60: the cross product stands for the cross product of the vectors, in every system and all units, mixed units per axis included. -/
theorem C60_cross (junk : ℝ) (a b : Rep) (ha : Spec.Units a.type) (hb : Spec.Units b.type) :
    Spec.vec (cross junk a b) = crossProduct (Spec.vec a) (Spec.vec b) := by
  obtain ⟨b1, b2, b3⟩ := axis_pos hb
  have hcart : ∀ a : Rep, Spec.Units a.type → a.sys = .cartesian → Spec.vec (crossCartesian a b) = crossProduct (Spec.vec a) (Spec.vec b) := by
    intro a ha hs
    obtain ⟨s, p, u, v, w⟩ := a
    simp only at hs
    subst hs
    obtain ⟨h1, h2, h3⟩ := ha
    simp only [Rep.type] at h1 h2 h3
    rw [vec_eq b, cross_apply]
    simp only [crossCartesian, makeCartesian_eq, Spec.vec, unitCast, toCart, cons_val_zero, cons_val_one, cons_val]
    generalize toCart b.sys b.pt = q
    ext i
    fin_cases i <;> simp <;> field_simp
  by_cases hs : a.sys = .cartesian
  · have : cross junk a b = crossCartesian a b := by
      obtain ⟨s, p, u, v, w⟩ := a
      simp only at hs
      subst hs
      rfl
    rw [this]
    exact hcart a ha hs
  · obtain ⟨a1, a2, a3⟩ := axis_pos ha
    have hax : ∀ t : RepType, t.sys ≠ .cartesian → Spec.axis t = ⟨t.u3, t.u3, t.u3⟩ := by
      rintro ⟨s, u, v, w⟩ h
      cases s <;> first | exact absurd rfl h | rfl
    have : cross junk a b = Rep.ofPoint junk ⟨a.sys, a.u1, a.u2, a.u3 * (Spec.axis b.type).c0⟩ .cartesian
        ⟨(toCart a.sys a.pt).c1 * unitCast (Spec.axis b.type).c2 (Spec.axis b.type).c0 (toCart b.sys b.pt).c2 -
            (toCart a.sys a.pt).c2 * unitCast (Spec.axis b.type).c1 (Spec.axis b.type).c0 (toCart b.sys b.pt).c1,
          (toCart a.sys a.pt).c2 * unitCast (Spec.axis b.type).c0 (Spec.axis b.type).c0 (toCart b.sys b.pt).c0 -
            (toCart a.sys a.pt).c0 * unitCast (Spec.axis b.type).c2 (Spec.axis b.type).c0 (toCart b.sys b.pt).c2,
          (toCart a.sys a.pt).c0 * unitCast (Spec.axis b.type).c1 (Spec.axis b.type).c0 (toCart b.sys b.pt).c1 -
            (toCart a.sys a.pt).c1 * unitCast (Spec.axis b.type).c0 (Spec.axis b.type).c0 (toCart b.sys b.pt).c0⟩ := by
      have hax' := hax a.type hs
      simp only [cross, makeCartesian_eq, hax']
      obtain ⟨s, p, u, v, w⟩ := a
      cases s <;> first | exact absurd rfl hs | rfl
    rw [this, vec_ofPoint, hax ⟨a.sys, _, _, _⟩ hs, vec_eq a, vec_eq b, cross_apply, hax a.type hs]
    simp only [toCart_cartesian]
    have hat : a.type.u3 = a.u3 := rfl
    rw [hat]
    generalize toCart a.sys a.pt = p
    generalize toCart b.sys b.pt = q
    generalize Spec.axis b.type = w at *
    simp only [unitCast, cons_val_zero, cons_val_one, cons_val]
    ext i
    fin_cases i <;> simp <;> field_simp

/-- C60: cross is anti-symmetric, orthogonal to both arguments, and |a × b|² + (a·b)² = |a|²|b|² (in base units). -/
theorem C60_laws (junk junk' : ℝ) (a b : Rep) (ha : Spec.Units a.type) (hb : Spec.Units b.type) :
    Spec.vec (cross junk a b) = -Spec.vec (cross junk' b a) ∧
    Spec.vec a ⬝ᵥ Spec.vec (cross junk a b) = 0 ∧ Spec.vec b ⬝ᵥ Spec.vec (cross junk a b) = 0 ∧
    Spec.vec (cross junk a b) ⬝ᵥ Spec.vec (cross junk a b) + ((dot a b).value * (dot a b).unit) ^ 2 =
      (Spec.vec a ⬝ᵥ Spec.vec a) * (Spec.vec b ⬝ᵥ Spec.vec b) := by
  rw [C60_cross junk a b ha hb, C60_cross junk' b a hb ha, C60_dot a b ha hb]
  refine ⟨(cross_anticomm _ _).symm, dot_self_cross _ _, dot_cross_self _ _, ?_⟩
  rw [cross_dot_cross, dotProduct_comm (Spec.vec b) (Spec.vec a)]
  ring

/-- (2 km, 0, 0) × (0, 3 m, 0) = (0, 0, 6000 m²), with the third component in km m. -/
example (junk : ℝ) : cross junk ⟨.cartesian, ⟨2, 0, 0⟩, 1000, 1, 1⟩ ⟨.cartesian, ⟨0, 3, 0⟩, 1, 1, 1⟩ =
    ⟨.cartesian, ⟨0, 0, 6⟩, 1, 1, 1000⟩ := by
  simp [cross, crossCartesian, makeCartesian, toCart, unitCast]
  norm_num

/-! C61 -/

/-- C61: the magnitude with its unit is the length of the vector; of a spherical vector with negative distance it is the negative length. -/
theorem C61_magnitude (a : Rep) (h : Spec.Units a.type) :
    (magnitude a).value * (magnitude a).unit =
      (if a.sys ≠ .cartesian ∧ a.pt.c2 < 0 then -1 else 1) * Real.sqrt (Spec.vec a ⬝ᵥ Spec.vec a) := by
  obtain ⟨a1, a2, a3⟩ := axis_pos h
  have hsq : Real.sqrt (Spec.vec a ⬝ᵥ Spec.vec a) = Pt.norm ⟨Spec.vec a 0, Spec.vec a 1, Spec.vec a 2⟩ := by
    rw [Pt.norm, dotProduct, Fin.sum_univ_three]
  by_cases hs : a.sys = .cartesian
  · rw [if_neg (by simp [hs]), one_mul, hsq]
    obtain ⟨s, p, u, v, w⟩ := a
    simp only at hs
    subst hs
    have hu : 0 < u := h.1
    simp only [magnitude, Pt.norm, Spec.vec, cons_val_zero, cons_val_one, cons_val]
    rw [← Real.sqrt_mul_self hu.le, ← Real.sqrt_mul' _ (mul_self_nonneg u), Real.sqrt_mul_self hu.le]
    congr 1
    have e1 := unitCast_mul v p.c1 hu
    have e2 := unitCast_mul w p.c2 hu
    rw [← e1, ← e2]
    ring
  · have hu : 0 < a.u3 := h.2.2
    have hm : magnitude a = ⟨a.pt.c2, a.u3⟩ := by
      obtain ⟨s, p, u, v, w⟩ := a
      cases s <;> first | exact absurd rfl hs | rfl
    have hn : Real.sqrt (Spec.vec a ⬝ᵥ Spec.vec a) = |a.pt.c2| * a.u3 := by
      have e := norm_toCart hs a.pt
      have hax : Spec.axis a.type = ⟨a.u3, a.u3, a.u3⟩ := by
        obtain ⟨s, p, u, v, w⟩ := a
        cases s <;> first | exact absurd rfl hs | rfl
      rw [vec_eq a, hax, ← e, Pt.norm, dotProduct, Fin.sum_univ_three, ← Real.sqrt_mul_self hu.le,
        ← Real.sqrt_mul' _ (mul_self_nonneg a.u3), Real.sqrt_mul_self hu.le]
      congr 1
      simp only [cons_val_zero, cons_val_one, cons_val]
      ring
    rw [hm, hn]
    by_cases hneg : a.pt.c2 < 0
    · rw [if_pos ⟨hs, hneg⟩, abs_of_neg hneg]
      ring
    · rw [if_neg (fun h => hneg h.2), abs_of_nonneg (not_lt.1 hneg)]
      ring

/-- A spherical vector with distance -2 has magnitude -2, though it is 2 long. -/
example : (magnitude ⟨.spherical, ⟨0, 0, -2⟩, 1, 1, 1⟩).value = -2 := by simp [magnitude]

/-- C61: the unit vector of a Cartesian vector exists unless the vector is zero; each of its components is the component of the vector divided by its
length, labelled with the unit of that axis. -/
theorem C61_cartesian (a : Rep) (hs : a.sys = .cartesian) (h : Spec.Units a.type) :
    (Spec.vec a = 0 → unitVector a = none) ∧
    (Spec.vec a ≠ 0 → ∃ r, unitVector a = some r ∧ r.type = a.type ∧
      ∀ len, len = Real.sqrt (Spec.vec a ⬝ᵥ Spec.vec a) → 0 < len ∧
        Spec.vec r = ![Spec.vec a 0 / len * a.u1, Spec.vec a 1 / len * a.u2, Spec.vec a 2 / len * a.u3]) := by
  have hm := C61_magnitude a h
  rw [if_neg (by simp [hs]), one_mul] at hm
  have hpos : Spec.vec a ≠ 0 → 0 < Real.sqrt (Spec.vec a ⬝ᵥ Spec.vec a) := by
    intro hne
    rw [Real.sqrt_pos]
    have h1 := dotProduct_self_eq_zero.not.2 hne
    have h2 : 0 ≤ Spec.vec a ⬝ᵥ Spec.vec a := by
      rw [dotProduct, Fin.sum_univ_three]
      nlinarith [mul_self_nonneg (Spec.vec a 0), mul_self_nonneg (Spec.vec a 1), mul_self_nonneg (Spec.vec a 2)]
    exact lt_of_le_of_ne h2 (Ne.symm h1)
  have hu : (magnitude a).unit = a.u1 := by
    obtain ⟨s, p, u, v, w⟩ := a
    simp only at hs
    subst hs
    rfl
  rw [hu] at hm
  have hun : unitVector a = if (magnitude a).value = 0 then none
      else some ⟨a.sys, ⟨a.pt.c0 / (magnitude a).value, a.pt.c1 / unitCast (magnitude a).unit a.u2 (magnitude a).value,
        a.pt.c2 / unitCast (magnitude a).unit a.u3 (magnitude a).value⟩, a.u1, a.u2, a.u3⟩ := by
    obtain ⟨s, p, u, v, w⟩ := a
    simp only at hs
    subst hs
    rfl
  rw [hun, hu]
  obtain ⟨h1, h2, h3⟩ := h
  simp only [Rep.type] at h1 h2 h3
  constructor
  · intro hz
    rw [hz, dotProduct_zero, Real.sqrt_zero, mul_eq_zero] at hm
    rw [if_pos (hm.resolve_right h1.ne')]
  · intro hne
    have hp := hpos hne
    have hv : (magnitude a).value ≠ 0 := by
      intro hz
      rw [hz, zero_mul] at hm
      linarith
    rw [if_neg hv]
    refine ⟨_, rfl, rfl, ?_⟩
    rintro len rfl
    refine ⟨hp, ?_⟩
    rw [← hm]
    generalize (magnitude a).value = m at *
    obtain ⟨s, p, u, v, w⟩ := a
    simp only at hs
    subst hs
    simp only [Spec.vec, unitCast, cons_val_zero, cons_val_one, cons_val] at *
    ext i
    fin_cases i <;> simp <;> left <;> field_simp

/-- C61: when the axes share one unit the unit vector has the direction of the vector and magnitude 1 in that unit. -/
theorem C61_direction (a r : Rep) (hs : a.sys = .cartesian) (h : Spec.Units a.type) (h12 : a.u1 = a.u2) (h13 : a.u1 = a.u3)
    (e : unitVector a = some r) :
    (magnitude r).value = 1 ∧ (magnitude r).unit = a.u1 ∧ Spec.vec a = Real.sqrt (Spec.vec a ⬝ᵥ Spec.vec a) • ((1 / a.u1) • Spec.vec r) := by
  obtain ⟨f1, f2⟩ := C61_cartesian a hs h
  have hne : Spec.vec a ≠ 0 := fun hz => by rw [f1 hz] at e; cases e
  obtain ⟨r', e', ht, hr⟩ := f2 hne
  obtain rfl : r' = r := Option.some.inj (e'.symm.trans e)
  obtain ⟨hp, hv⟩ := hr _ rfl
  have hu : 0 < a.u1 := h.1
  have hrs : r'.sys = .cartesian := (congrArg RepType.sys ht).trans hs
  have hr1 : r'.u1 = a.u1 := congrArg RepType.u1 ht
  have hm := C61_magnitude r' (by rw [ht]; exact h)
  have hmu : (magnitude r').unit = a.u1 := by
    rw [← hr1]
    obtain ⟨s, p, u, v, w⟩ := r'
    simp only at hrs
    subst hrs
    rfl
  rw [if_neg (by simp [hrs]), one_mul, hmu] at hm
  rw [← h12, ← h13] at hv
  have hv' : Spec.vec r' = (a.u1 / Real.sqrt (Spec.vec a ⬝ᵥ Spec.vec a)) • Spec.vec a := by
    rw [hv]
    ext i
    fin_cases i <;> simp <;> ring
  refine ⟨?_, hmu, ?_⟩
  · rw [hv', smul_dotProduct, dotProduct_smul, smul_eq_mul, smul_eq_mul] at hm
    have hd : Spec.vec a ⬝ᵥ Spec.vec a = Real.sqrt (Spec.vec a ⬝ᵥ Spec.vec a) * Real.sqrt (Spec.vec a ⬝ᵥ Spec.vec a) :=
      (Real.mul_self_sqrt (Real.sqrt_pos.1 hp).le).symm
    have : a.u1 / Real.sqrt (Spec.vec a ⬝ᵥ Spec.vec a) * (a.u1 / Real.sqrt (Spec.vec a ⬝ᵥ Spec.vec a) * (Spec.vec a ⬝ᵥ Spec.vec a)) =
        a.u1 * a.u1 := by
      generalize Real.sqrt (Spec.vec a ⬝ᵥ Spec.vec a) = l at *
      rw [hd]
      field_simp
    rw [this, Real.sqrt_mul_self hu.le] at hm
    exact mul_right_cancel₀ hu.ne' (hm.trans (one_mul _).symm)
  · rw [hv', smul_smul, smul_smul]
    have : Real.sqrt (Spec.vec a ⬝ᵥ Spec.vec a) * (1 / a.u1) * (a.u1 / Real.sqrt (Spec.vec a ⬝ᵥ Spec.vec a)) = 1 := by field_simp
    rw [this, one_smul]

/-- (3 km, 4 km, 0) has the unit vector (0.6, 0.8, 0). -/
example : unitVector ⟨.cartesian, ⟨3, 4, 0⟩, 1000, 1000, 1000⟩ = some ⟨.cartesian, ⟨0.6, 0.8, 0⟩, 1000, 1000, 1000⟩ := by
  have n : Pt.norm ⟨3, 4, 0⟩ = 5 := by
    rw [Pt.norm, Real.sqrt_eq_iff_mul_self_eq_of_pos] <;> norm_num
  have e : unitCast 1000 1000 4 = 4 := by norm_num [unitCast]
  have e0 : unitCast 1000 1000 0 = 0 := by norm_num [unitCast]
  have e5 : unitCast 1000 1000 5 = 5 := by norm_num [unitCast]
  simp only [unitVector, magnitude, e, e0, n, e5]
  norm_num

/-- C61: with different axis units the direction is lost: the unit vector of (3 km, 4000 m, 0) is (0.6 km, 0.8 m, 0). -/
theorem C61_mixed_units : ∃ a r, a.sys = .cartesian ∧ Spec.Units a.type ∧ unitVector a = some r ∧
    Spec.vec a = ![3000, 4000, 0] ∧ Spec.vec r = ![600, 0.8, 0] := by
  refine ⟨⟨.cartesian, ⟨3, 4000, 0⟩, 1000, 1, 1⟩, ⟨.cartesian, ⟨0.6, 0.8, 0⟩, 1000, 1, 1⟩, rfl, ⟨by norm_num [Rep.type], one_pos, one_pos⟩, ?_, ?_, ?_⟩
  · have n : Pt.norm ⟨3, 4, 0⟩ = 5 := by
      rw [Pt.norm, Real.sqrt_eq_iff_mul_self_eq_of_pos] <;> norm_num
    have e : unitCast 1 1000 4000 = 4 := by norm_num [unitCast]
    have e0 : unitCast 1 1000 0 = 0 := by norm_num [unitCast]
    have e5 : unitCast 1000 1 5 = 5000 := by norm_num [unitCast]
    simp only [unitVector, magnitude, e, e0, n, e5]
    norm_num
  · simp only [Spec.vec]
    norm_num
  · simp only [Spec.vec]
    norm_num

/-- C61: the unit vector of a spherical or equatorial vector has the same angles and distance 1 of the distance unit; it is the vector divided by its
signed distance, so it points the other way when the distance is negative, and it exists even for distance 0. -/
theorem C61_angular (a : Rep) (hs : a.sys ≠ .cartesian) (h : Spec.Units a.type) :
    ∃ r, unitVector a = some r ∧ r.type = a.type ∧ r.pt = ⟨a.pt.c0, a.pt.c1, 1⟩ ∧ Spec.vec a = a.pt.c2 • Spec.vec r := by
  have e : unitVector a = some ⟨a.sys, ⟨a.pt.c0, a.pt.c1, 1⟩, a.u1, a.u2, a.u3⟩ := by
    obtain ⟨s, p, u, v, w⟩ := a
    obtain ⟨h1, h2, h3⟩ := h
    simp only [Rep.type] at h1 h2 h3
    cases s
    · exact absurd rfl hs
    · simp only [unitVector, Rep.ofQuantities, Rep.get, Rep.type, unitCast_trans _ _ h1, unitCast_trans _ _ h2, unitCast_self _ one_pos]
    · simp only [unitVector, Rep.ofQuantities, Rep.get, Rep.type, unitCast_trans _ _ h1, unitCast_trans _ _ h2, unitCast_self _ one_pos]
  refine ⟨_, e, rfl, rfl, ?_⟩
  obtain ⟨s, p, u, v, w⟩ := a
  cases s
  · exact absurd rfl hs
  · ext i
    fin_cases i <;> simp [Spec.vec] <;> ring
  · ext i
    fin_cases i <;> simp [Spec.vec] <;> ring

/-- At distance 0 there is a unit vector, too. -/
example : unitVector ⟨.spherical, ⟨1, 2, 0⟩, 1, 1, 1⟩ = some ⟨.spherical, ⟨1, 2, 1⟩, 1, 1, 1⟩ := by
  simp [unitVector, Rep.ofQuantities, Rep.get, Rep.type, unitCast]

/-! C62 -/

/-- C62: the sum stands for the sum of the vectors and has the type of the first argument, and so does operator+. -/
theorem C62_sum (junk : ℝ) (a b : Rep) (ha : Spec.Units a.type) (hb : Spec.Units b.type) :
    Spec.vec (sum junk a b) = Spec.vec a + Spec.vec b ∧ (sum junk a b).type = a.type ∧
    Spec.vec (Rep.add junk a b) = Spec.vec a + Spec.vec b ∧ (Rep.add junk a b).type = a.type := by
  obtain ⟨a1, a2, a3⟩ := axis_pos ha
  have hadd : ∀ a b : Rep, a.sys = .cartesian → Spec.Units a.type → Spec.Units b.type →
      Spec.vec (addCartesian a b) = Spec.vec a + Spec.vec b ∧ (addCartesian a b).type = a.type := by
    intro a b hs ha hb
    obtain ⟨s, p, u, v, w⟩ := a
    simp only at hs
    subst hs
    obtain ⟨h1, h2, h3⟩ := ha
    simp only [Rep.type] at h1 h2 h3
    refine ⟨?_, rfl⟩
    rw [vec_eq b]
    ext i
    fin_cases i <;> simp [addCartesian, makeCartesian_eq, Spec.vec, add_mul, unitCast_mul _ _ h1, unitCast_mul _ _ h2, unitCast_mul _ _ h3]
  refine ⟨?_, rfl, ?_⟩
  · rw [sum, vec_ofPoint, vec_eq a, vec_eq b]
    simp only [makeCartesian_eq, toCart_cartesian]
    ext i
    fin_cases i <;> simp [add_mul, unitCast_mul _ _ a1, unitCast_mul _ _ a2, unitCast_mul _ _ a3]
  · by_cases hs : a.sys = .cartesian
    · have : Rep.add junk a b = addCartesian a b := by
        obtain ⟨s, p, u, v, w⟩ := a
        simp only at hs
        subst hs
        rfl
      rw [this]
      exact hadd a b hs ha hb
    · have hu : 0 < a.u3 := ha.2.2
      have e : Rep.add junk a b = Rep.convert junk a.type
          (make junk a.sys (addCartesian (Rep.ofPoint 0 ⟨.cartesian, a.u3, a.u3, a.u3⟩ a.sys a.pt) (makeCartesian b))) := by
        obtain ⟨s, p, u, v, w⟩ := a
        cases s <;> first | exact absurd rfl hs | rfl
      have h1 : Spec.Units (Rep.ofPoint 0 ⟨.cartesian, a.u3, a.u3, a.u3⟩ a.sys a.pt).type := ⟨hu, hu, hu⟩
      have h2 : Spec.Units (makeCartesian b).type := make_units 0 .cartesian hb
      obtain ⟨hv, ht⟩ := hadd _ (makeCartesian b) rfl h1 h2
      have h3 : Spec.Units (addCartesian (Rep.ofPoint 0 ⟨.cartesian, a.u3, a.u3, a.u3⟩ a.sys a.pt) (makeCartesian b)).type := by
        rw [ht]
        exact h1
      have h4 := make_units junk a.sys h3
      rw [e, vec_convert junk h4 ha, vec_make junk a.sys h3, hv, vec_makeCartesian, vec_ofPoint, vec_eq a]
      refine ⟨?_, ((C59_same_vector junk _ h4).2 a.type ha).2⟩
      have hax : Spec.axis a.type = ⟨a.u3, a.u3, a.u3⟩ := by
        obtain ⟨s, p, u, v, w⟩ := a
        cases s <;> first | exact absurd rfl hs | rfl
      rw [hax]
      rfl

/-- C62: the mean stands for half the sum of the vectors and has the type of the first argument. -/
theorem C62_mean (junk : ℝ) (a b : Rep) (ha : Spec.Units a.type) :
    (2 : ℝ) • Spec.vec (mean junk a b) = Spec.vec a + Spec.vec b ∧ (mean junk a b).type = a.type := by
  obtain ⟨a1, a2, a3⟩ := axis_pos ha
  refine ⟨?_, rfl⟩
  rw [mean, vec_ofPoint, vec_eq a, vec_eq b]
  simp only [makeCartesian_eq, toCart_cartesian]
  have e0 := unitCast_mul (Spec.axis b.type).c0 (toCart b.sys b.pt).c0 a1
  have e1 := unitCast_mul (Spec.axis b.type).c1 (toCart b.sys b.pt).c1 a2
  have e2 := unitCast_mul (Spec.axis b.type).c2 (toCart b.sys b.pt).c2 a3
  ext i
  fin_cases i <;> simp
  · linear_combination e0
  · linear_combination e1
  · linear_combination e2

/-- Halfway between 1 km and 500 m along the first axis: 0.75 km. -/
example (junk : ℝ) : mean junk ⟨.cartesian, ⟨1, 0, 0⟩, 1000, 1000, 1⟩ ⟨.cartesian, ⟨500, 0, 0⟩, 1, 1, 1⟩ = ⟨.cartesian, ⟨0.75, 0, 0⟩, 1000, 1000, 1⟩ := by
  simp [mean, makeCartesian, unitCast, Rep.ofPoint, Rep.type, fromCart, toCart]
  norm_num

/-- C62: so the sum commutes and associates in the vector it stands for, mean(a, a) is a and two means make a sum. -/
theorem C62_laws (j1 j2 j3 j4 : ℝ) (a b c : Rep) (ha : Spec.Units a.type) (hb : Spec.Units b.type) (hc : Spec.Units c.type) :
    Spec.vec (sum j1 a b) = Spec.vec (sum j2 b a) ∧
    Spec.vec (sum j1 (sum j2 a b) c) = Spec.vec (sum j3 a (sum j4 b c)) ∧
    Spec.vec (mean j1 a a) = Spec.vec a ∧
    (2 : ℝ) • Spec.vec (mean j1 a b) = Spec.vec (sum j2 a b) := by
  have hab : Spec.Units (sum j2 a b).type := ha
  have hbc : Spec.Units (sum j4 b c).type := hb
  refine ⟨?_, ?_, ?_, ?_⟩
  · rw [(C62_sum j1 a b ha hb).1, (C62_sum j2 b a hb ha).1, add_comm]
  · rw [(C62_sum j1 _ c hab hc).1, (C62_sum j2 a b ha hb).1, (C62_sum j3 a _ ha hbc).1, (C62_sum j4 b c hb hc).1, add_assoc]
  · have := (C62_mean j1 a a ha).1
    rw [← two_smul ℝ] at this
    exact smul_right_injective _ (two_ne_zero) this
  · rw [(C62_mean j1 a b ha).1, (C62_sum j2 a b ha hb).1]

/-- (1 km, 0, 0) + (0, 0, 500 m) with axes in km, km and m. -/
example (junk : ℝ) : sum junk ⟨.cartesian, ⟨1, 0, 0⟩, 1000, 1000, 1⟩ ⟨.cartesian, ⟨0, 0, 500⟩, 1, 1, 1⟩ = ⟨.cartesian, ⟨1, 0, 500⟩, 1000, 1000, 1⟩ := by
  simp [sum, makeCartesian, Rep.ofPoint, fromCart, toCart, unitCast, Rep.type]

/-! C63 -/

/-- C63: equality is an equivalence relation. -/
theorem C63_equivalence (a b c : Rep) : a.eq a ∧ (a.eq b → b.eq a) ∧ (a.eq b → b.eq c → a.eq c) :=
  ⟨⟨rfl, rfl, rfl⟩, fun h => ⟨h.1.symm, h.2.1.symm, h.2.2.symm⟩,
    fun h g => ⟨h.1.trans g.1, h.2.1.trans g.2.1, h.2.2.trans g.2.2⟩⟩

/-- C63: for vectors whose axes have the same units, equality is equality of the vectors. -/
theorem C63_same_units (a b : Rep) (h : Spec.Units a.type) (hu : Spec.axis a.type = Spec.axis b.type) : a.eq b ↔ Spec.vec a = Spec.vec b := by
  obtain ⟨a1, a2, a3⟩ := axis_pos h
  rw [vec_eq a, vec_eq b, ← hu]
  constructor
  · rintro ⟨e0, e1, e2⟩
    rw [e0, e1, e2]
  · intro e
    have e0 := congrFun e 0
    have e1 := congrFun e 1
    have e2 := congrFun e 2
    simp only [cons_val_zero, cons_val_one, cons_val] at e0 e1 e2
    exact ⟨mul_right_cancel₀ a1.ne' e0, mul_right_cancel₀ a2.ne' e1, mul_right_cancel₀ a3.ne' e2⟩

/-- The same point, Cartesian and spherical, in metres. -/
example : Rep.eq ⟨.cartesian, ⟨0, 0, 3⟩, 1, 1, 1⟩ ⟨.spherical, ⟨1, 0, 3⟩, 1, 1, 1⟩ := by
  refine (C63_same_units ⟨.cartesian, ⟨0, 0, 3⟩, 1, 1, 1⟩ ⟨.spherical, ⟨1, 0, 3⟩, 1, 1, 1⟩ ⟨one_pos, one_pos, one_pos⟩ rfl).2 ?_
  ext i
  fin_cases i <;> simp [Spec.vec]

/-- C63: with the units of all axes of `b` being `k` times those of `a`, equality means that the vector of `b` is `k` times that of `a`. -/
theorem C63_other_units (a b : Rep) (k : ℝ) (h : Spec.Units a.type) (hk : 0 < k)
    (hu : Spec.axis b.type = ⟨k * (Spec.axis a.type).c0, k * (Spec.axis a.type).c1, k * (Spec.axis a.type).c2⟩) :
    a.eq b ↔ Spec.vec b = k • Spec.vec a := by
  obtain ⟨a1, a2, a3⟩ := axis_pos h
  rw [vec_eq a, vec_eq b, hu]
  constructor
  · rintro ⟨e0, e1, e2⟩
    rw [e0, e1, e2]
    ext i
    fin_cases i <;> simp <;> ring
  · intro e
    have e0 := congrFun e 0
    have e1 := congrFun e 1
    have e2 := congrFun e 2
    simp only [cons_val_zero, cons_val_one, cons_val, Pi.smul_apply, smul_eq_mul] at e0 e1 e2
    refine ⟨mul_right_cancel₀ (mul_pos hk a1).ne' ?_, mul_right_cancel₀ (mul_pos hk a2).ne' ?_, mul_right_cancel₀ (mul_pos hk a3).ne' ?_⟩
    · linarith
    · linarith
    · linarith

/-- C63: 1 m equals 1 km and differs from 0.001 km. -/
theorem C63_units_ignored :
    ∃ a b c : Rep, Spec.Units a.type ∧ Spec.Units b.type ∧ Spec.Units c.type ∧
      a.eq b ∧ Spec.vec a ≠ Spec.vec b ∧ ¬a.eq c ∧ Spec.vec a = Spec.vec c := by
  refine ⟨⟨.cartesian, ⟨1, 0, 0⟩, 1, 1, 1⟩, ⟨.cartesian, ⟨1, 0, 0⟩, 1000, 1000, 1000⟩, ⟨.cartesian, ⟨0.001, 0, 0⟩, 1000, 1000, 1000⟩,
    ⟨one_pos, one_pos, one_pos⟩, ⟨by norm_num [Rep.type], by norm_num [Rep.type], by norm_num [Rep.type]⟩,
    ⟨by norm_num [Rep.type], by norm_num [Rep.type], by norm_num [Rep.type]⟩, ⟨rfl, rfl, rfl⟩, ?_, ?_, ?_⟩
  · intro e
    have := congrFun e 0
    simp [Spec.vec] at this
  · rintro ⟨e, -⟩
    norm_num [toCart] at e
  · ext i
    fin_cases i <;> norm_num [Spec.vec]

/-! C83 -/

/-- C83: construction and reading: the getters return the quantities given, in every system and all units. -/
theorem C83_getters (t : RepType) (q : Pt) (h : Spec.Units t) : (Rep.ofQuantities t q).get = q ∧ (Rep.ofQuantities t q).type = t := by
  obtain ⟨s, u, v, w⟩ := t
  obtain ⟨h1, h2, h3⟩ := h
  simp only at h1 h2 h3
  cases s
  · exact ⟨rfl, rfl⟩
  · refine ⟨?_, rfl⟩
    simp only [Rep.ofQuantities, Rep.get, unitCast_trans _ _ one_pos, unitCast_self _ h1, unitCast_self _ h2]
  · refine ⟨?_, rfl⟩
    simp only [Rep.ofQuantities, Rep.get, unitCast_trans _ _ one_pos, unitCast_self _ h1, unitCast_self _ h2]

/-- 30 and 45 degrees at 2 km come back as they were given. -/
example : (Rep.ofQuantities ⟨.equatorial, Real.pi / 180, Real.pi / 180, 1000⟩ ⟨30, 45, 2⟩).get = ⟨30, 45, 2⟩ :=
  (C83_getters _ _ ⟨by positivity, by positivity, by norm_num⟩).1

/-- C83: make_*_representation with other units for the same system keeps the vector. -/
theorem C83_change_units (t : RepType) (r : Rep) (hs : t.sys = r.sys) (h : Spec.Units r.type) (ht : Spec.Units t) :
    Spec.vec (changeUnits t r) = Spec.vec r ∧ (changeUnits t r).type = t := by
  obtain ⟨s, u, v, w⟩ := t
  obtain ⟨s', p, u', v', w'⟩ := r
  obtain ⟨h1, h2, h3⟩ := h
  obtain ⟨t1, t2, t3⟩ := ht
  simp only [Rep.type] at hs h1 h2 h3 t1 t2 t3
  subst hs
  cases s
  · refine ⟨?_, rfl⟩
    simp only [changeUnits, Rep.ofQuantities, Rep.get, Spec.vec, unitCast_mul _ _ t1, unitCast_mul _ _ t2, unitCast_mul _ _ t3]
  · refine ⟨?_, rfl⟩
    simp only [changeUnits, Rep.ofQuantities, Rep.get, Spec.vec, unitCast_trans _ _ h1, unitCast_trans _ _ h2, unitCast_trans _ _ t1,
      unitCast_trans _ _ t2, unitCast_self _ one_pos, unitCast_mul _ _ t3]
  · refine ⟨?_, rfl⟩
    simp only [changeUnits, Rep.ofQuantities, Rep.get, Spec.vec, unitCast_trans _ _ h1, unitCast_trans _ _ h2, unitCast_trans _ _ t1,
      unitCast_trans _ _ t2, unitCast_self _ one_pos, unitCast_mul _ _ t3]

/-- 3 km are 3000 m. -/
example : changeUnits ⟨.cartesian, 1, 1, 1⟩ ⟨.cartesian, ⟨0, 0, 3⟩, 1000, 1000, 1000⟩ = ⟨.cartesian, ⟨0, 0, 3000⟩, 1, 1, 1⟩ := by
  simp [changeUnits, unitCast, Rep.get, Rep.ofQuantities]
  try norm_num

/-- C83: to_representation keeps the numbers and ignores the units: the Cartesian numbers of source and result are the same, so they compare equal. -/
theorem C83_to_representation (junk : ℝ) (t : RepType) (r : Rep) : (Rep.toRepresentation junk t r).eq r ∧ (Rep.toRepresentation junk t r).type = t := by
  refine ⟨?_, rfl⟩
  simp only [Rep.eq, Rep.toRepresentation, Rep.ofPoint, toCart_fromCart, and_self]

/-- C83: to_representation keeps the vector when the axes have the same units, and with axes `k` times as large it stretches the vector by `k`. -/
theorem C83_stretch (junk : ℝ) (t : RepType) (r : Rep) (k : ℝ) (h : Spec.Units r.type) (hk : 0 < k)
    (hu : Spec.axis t = ⟨k * (Spec.axis r.type).c0, k * (Spec.axis r.type).c1, k * (Spec.axis r.type).c2⟩) :
    Spec.vec (Rep.toRepresentation junk t r) = k • Spec.vec r :=
  (C63_other_units r (Rep.toRepresentation junk t r) k h hk hu).1 ((C63_equivalence _ _ r).2.1 (C83_to_representation junk t r).1)

/-- 1 m read as a spherical representation with distances in km is 1 km. -/
example (junk : ℝ) : Spec.vec (Rep.toRepresentation junk ⟨.spherical, 1, 1, 1000⟩ ⟨.cartesian, ⟨0, 0, 1⟩, 1, 1, 1⟩) = ![0, 0, 1000] := by
  rw [C83_stretch junk _ _ 1000 ⟨one_pos, one_pos, one_pos⟩ (by norm_num) (by simp [Spec.axis, Rep.type])]
  ext i
  fin_cases i <;> simp [Spec.vec]

end Astro
