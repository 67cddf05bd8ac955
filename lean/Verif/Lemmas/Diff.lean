import Verif.Props.Rep
import Verif.Spec.Diff

/-
Helper lemmas about differentials.
-/

namespace Astro

open Astro.Coord Matrix

theorem get_c2 (r : Rep) : r.get.c2 = r.pt.c2 := by
  obtain ⟨s, p, u, v, w⟩ := r
  cases s <;> rfl

/-- The product of an angular differential, angles in radians. -/
theorem mul_angular (junk : ℝ) (a : Rep) (k : Quantity) (hs : a.sys ≠ .cartesian) (h : Spec.Units a.type) :
    Rep.mul junk a k = ⟨a.sys, ⟨(fromCart junk a.sys (toCart a.sys a.pt)).c0, (fromCart junk a.sys (toCart a.sys a.pt)).c1,
      (fromCart junk a.sys (toCart a.sys a.pt)).c2 * k.value⟩, a.u1, a.u2, a.u3 * k.unit⟩ := by
  obtain ⟨s, p, u, v, w⟩ := a
  obtain ⟨h1, h2, h3⟩ := h
  simp only [Rep.type] at h1 h2 h3
  cases s
  · exact absurd rfl hs
  · simp only [Rep.mul, Rep.ofQuantities, Rep.get, Rep.type, Rep.ofPoint, unitCast_trans _ _ h1, unitCast_trans _ _ h2, unitCast_self _ one_pos]
  · simp only [Rep.mul, Rep.ofQuantities, Rep.get, Rep.type, Rep.ofPoint, unitCast_trans _ _ h1, unitCast_trans _ _ h2, unitCast_self _ one_pos]

/-- The same direction with the first angle half a turn further. -/
theorem half_turn (c : ℝ) (h : -Real.pi < c ∧ c ≤ Real.pi) :
    ∃ c', (-Real.pi < c' ∧ c' ≤ Real.pi) ∧ Real.cos c' = -Real.cos c ∧ Real.sin c' = -Real.sin c ∧ (c' = c + Real.pi ∨ c' = c - Real.pi) := by
  have hpi := Real.pi_pos
  by_cases h0 : 0 < c
  · exact ⟨c - Real.pi, ⟨by linarith, by linarith [h.2]⟩, Real.cos_sub_pi c, Real.sin_sub_pi c, Or.inr rfl⟩
  · exact ⟨c + Real.pi, ⟨by linarith [h.1], by linarith⟩, Real.cos_add_pi c, Real.sin_add_pi c, Or.inl rfl⟩

/-- Spherical point to Cartesian and back, the second angle negative. -/
theorem fromCart_negative (junk : ℝ) (p : Pt) (h0 : -Real.pi < p.c0 ∧ p.c0 ≤ Real.pi) (h1 : -Real.pi < p.c1 ∧ p.c1 < 0) (h2 : 0 < p.c2) :
    ∃ c, (c = p.c0 + Real.pi ∨ c = p.c0 - Real.pi) ∧ Real.cos c = -Real.cos p.c0 ∧ Real.sin c = -Real.sin p.c0 ∧
      fromCart junk .spherical (toCart .spherical p) = ⟨c, -p.c1, p.c2⟩ := by
  obtain ⟨c, hr, hc, hs, hd⟩ := half_turn p.c0 h0
  refine ⟨c, hd, hc, hs, ?_⟩
  have e : toCart .spherical p = toCart .spherical ⟨c, -p.c1, p.c2⟩ := by
    simp only [toCart, hc, hs, Real.sin_neg, Real.cos_neg]
    ext <;> ring
  rw [e]
  exact fromCart_toCart junk ⟨.spherical, ⟨c, -p.c1, p.c2⟩, 1, 1, 1⟩ ⟨hr.1, hr.2, by simp only; linarith [h1.2], by simp only; linarith [h1.1], h2⟩

/-- Cartesian point to coslat. -/
noncomputable def coslatOf (junk : ℝ) (p : Pt) : Pt :=
  fromCart junk .spherical (toCart .spherical ⟨(fromCart junk .spherical p).c0,
    (fromCart junk .spherical p).c1 * Real.cos (fromCart junk .spherical p).c0, (fromCart junk .spherical p).c2⟩)

theorem fromCart_range (junk : ℝ) (p : Pt) (h : p.c0 ≠ 0) :
    let q := fromCart junk .spherical p
    (-Real.pi < q.c0 ∧ q.c0 ≤ Real.pi) ∧ 0 < q.c1 ∧ q.c1 < Real.pi ∧ 0 < q.c2 ∧ (0 < p.c0 ↔ 0 < Real.cos q.c0) ∧ (p.c0 < 0 ↔ Real.cos q.c0 < 0) := by
  have hn : 0 < p.norm := (norm_pos_iff p).2 fun h' => h h'.1
  have hsq := norm_sq p
  have h2 : p.c2 ^ 2 < p.norm ^ 2 := by nlinarith [mul_self_nonneg p.c1, mul_self_pos.2 h]
  obtain ⟨ha, hb⟩ := abs_lt_of_sq_lt_sq' h2 hn.le
  obtain ⟨hx, -⟩ := atan2_polar p.c0 p.c1
  have hs : 0 < Real.sqrt (p.c0 * p.c0 + p.c1 * p.c1) := Real.sqrt_pos.2 (by nlinarith [mul_self_nonneg p.c1, mul_self_pos.2 h])
  simp only [fromCart, if_pos hn]
  refine ⟨⟨Complex.neg_pi_lt_arg _, Complex.arg_le_pi _⟩, ?_, ?_, hn, ?_, ?_⟩
  · rw [Real.arccos_pos, div_lt_one hn]
    exact hb
  · rw [Real.arccos_lt_pi, lt_div_iff₀ hn]
    linarith
  · nth_rewrite 1 [← hx]
    exact ⟨fun h => by nlinarith, fun h => by positivity⟩
  · nth_rewrite 1 [← hx]
    exact ⟨fun h => by nlinarith, fun h => by nlinarith⟩

/-- What dividing by the cosine again makes of `coslatOf`. -/
theorem coslat_back (junk : ℝ) (p : Pt) :
    let a := coslatOf junk p
    Real.cos a.c0 ≠ 0 ∧
    toCart .spherical ⟨a.c0, a.c1 / Real.cos a.c0, a.c2⟩ =
      if 0 < p.c0 ∨ p.c0 = 0 ∧ p.c1 = 0 then p else if p.c0 < 0 then ⟨-p.c0, -p.c1, p.c2⟩ else ⟨0, 0, p.norm⟩ := by
  intro a
  have hback := toCart_fromCart junk .spherical p
  by_cases h : p.c0 = 0
  · by_cases h1 : p.c1 = 0
    · rw [if_pos (Or.inr ⟨h, h1⟩)]
      have hq : (fromCart junk .spherical p).c0 = 0 := by
        have z : (⟨0, 0⟩ : ℂ) = 0 := rfl
        simp [fromCart, atan2, h, h1, z]
      have ha : a = fromCart junk .spherical p := by
        show coslatOf junk p = _
        rw [coslatOf, hq, Real.cos_zero, mul_one, ← hq]
        show fromCart junk .spherical (toCart .spherical (fromCart junk .spherical p)) = _
        rw [hback]
      rw [ha, hq, Real.cos_zero, div_one]
      refine ⟨one_ne_zero, ?_⟩
      nth_rewrite 1 [← hq]
      exact hback
    · rw [if_neg (by rintro (h' | ⟨-, h'⟩); exacts [absurd h h'.ne', h1 h']), if_neg (by rw [h]; exact lt_irrefl 0)]
      have hs : 0 < Real.sqrt (p.c0 * p.c0 + p.c1 * p.c1) := Real.sqrt_pos.2 (by nlinarith [mul_self_nonneg p.c0, mul_self_pos.2 h1])
      have hn : 0 < p.norm := (norm_pos_iff p).2 fun h' => h1 h'.2.1
      have hc : Real.cos (fromCart junk .spherical p).c0 = 0 := by
        have := (atan2_polar p.c0 p.c1).1
        rw [h] at this hs
        simp only [fromCart]
        rw [h]
        exact (mul_eq_zero.1 this).resolve_left hs.ne'
      have ha : a = ⟨0, 0, p.norm⟩ := by
        show coslatOf junk p = _
        have z : (⟨0, 0⟩ : ℂ) = 0 := rfl
        have hd : (fromCart junk .spherical p).c2 = p.norm := rfl
        have hnn : Real.sqrt (p.norm * p.norm) = p.norm := Real.sqrt_mul_self hn.le
        rw [coslatOf, hc, hd, mul_zero]
        have hp : toCart .spherical ⟨(fromCart junk .spherical p).c0, 0, p.norm⟩ = ⟨0, 0, p.norm⟩ := by simp [toCart]
        have hpn : Pt.norm ⟨0, 0, p.norm⟩ = p.norm := by
          rw [Pt.norm]
          simp only [mul_zero, zero_add]
          exact hnn
        rw [hp, fromCart, hpn, if_pos hn, div_self hn.ne', Real.arccos_one]
        simp [atan2, z]
      rw [ha]
      simp [toCart]
  · obtain ⟨hr, h1, h1', h2, hp, hm⟩ := fromCart_range junk p h
    rcases lt_or_gt_of_ne h with hlt | hgt
    · rw [if_neg (by rintro (h' | ⟨h', -⟩); exacts [absurd hlt h'.not_gt, h h']), if_pos hlt]
      have hc := hm.1 hlt
      have hc1 := Real.neg_one_le_cos (fromCart junk .spherical p).c0
      obtain ⟨c, -, ec, es, e⟩ := fromCart_negative junk ⟨(fromCart junk .spherical p).c0,
        (fromCart junk .spherical p).c1 * Real.cos (fromCart junk .spherical p).c0, (fromCart junk .spherical p).c2⟩ hr
        ⟨by simp only; nlinarith, by simp only; exact mul_neg_of_pos_of_neg h1 hc⟩ h2
      have ha : a = _ := e
      simp only at ec es
      rw [ha]
      simp only
      rw [ec]
      refine ⟨(neg_pos.2 hc).ne', ?_⟩
      have hd : -((fromCart junk .spherical p).c1 * Real.cos (fromCart junk .spherical p).c0) / -Real.cos (fromCart junk .spherical p).c0 =
          (fromCart junk .spherical p).c1 := by
        rw [neg_div_neg_eq, mul_div_assoc, div_self hc.ne, mul_one]
      rw [hd]
      generalize fromCart junk .spherical p = q at es ec hback ⊢
      rw [← hback]
      simp only [toCart, es, ec]
      ext <;> ring
    · rw [if_pos (Or.inl hgt)]
      have hc := hp.1 hgt
      have hc1 := Real.cos_le_one (fromCart junk .spherical p).c0
      have ha : a = _ := fromCart_toCart junk ⟨.spherical, ⟨(fromCart junk .spherical p).c0,
        (fromCart junk .spherical p).c1 * Real.cos (fromCart junk .spherical p).c0, (fromCart junk .spherical p).c2⟩, 1, 1, 1⟩
        ⟨hr.1, hr.2, by simp only; positivity, by simp only; nlinarith, h2⟩
      rw [ha]
      refine ⟨hc.ne', ?_⟩
      simp only
      rw [mul_div_assoc, div_self hc.ne', mul_one]
      exact hback

/-- `CosLat.make` in terms of the vector. -/
theorem cosLat_make (junk : ℝ) (r : Rep) (h : Spec.Units r.type) (hp : r.sys = .spherical → Spec.Principal r) :
    CosLat.make junk r = ⟨coslatOf junk ⟨Spec.vec r 0 / (Spec.axis r.type).c0, Spec.vec r 1 / (Spec.axis r.type).c0,
      Spec.vec r 2 / (Spec.axis r.type).c0⟩, 1, 1, (Spec.axis r.type).c0⟩ := by
  have hu := make_units junk .spherical h
  have hsys := make_sys junk .spherical r
  simp only [make] at hu hsys
  have ha := axis_pos h
  have hpt : (makeAngular junk .spherical r).pt = fromCart junk .spherical ⟨Spec.vec r 0 / (Spec.axis r.type).c0, Spec.vec r 1 / (Spec.axis r.type).c0,
      Spec.vec r 2 / (Spec.axis r.type).c0⟩ := by
    by_cases hs : r.sys = .spherical
    · rw [makeAngular, if_pos hs]
      have e := fromCart_toCart junk r (hp hs)
      have hv := vec_eq r
      obtain ⟨s, p, u, v, w⟩ := r
      simp only at hs
      subst hs
      have hw : 0 < w := h.2.2
      rw [hv]
      simp only [Spec.axis, Rep.type, cons_val_zero, cons_val_one, cons_val, mul_div_assoc, div_self hw.ne', mul_one]
      exact e.symm
    · rw [makeAngular, if_neg hs]
      simp only [makeCartesian_eq, Rep.ofPoint, toCart_fromCart]
      congr 1
      rw [vec_eq r]
      simp only [cons_val_zero, cons_val_one, cons_val, unitCast]
      have := ha.1
      ext <;> simp only <;> field_simp
  have hu3 : (makeAngular junk .spherical r).u3 = (Spec.axis r.type).c0 := by
    by_cases hs : r.sys = .spherical
    · rw [makeAngular, if_pos hs]
      obtain ⟨s, p, u, v, w⟩ := r
      simp only at hs
      subst hs
      rfl
    · rw [makeAngular, if_neg hs]
      simp only [makeCartesian_eq, Rep.ofPoint]
  rw [coslatOf, ← hpt, ← hu3, CosLat.make]
  clear hpt hu3
  generalize makeAngular junk .spherical r = m at hu hsys ⊢
  obtain ⟨s, p, u, v, w⟩ := m
  simp only at hsys
  subst hsys
  have h1 : 0 < u := hu.1
  have h2 : 0 < v := hu.2.1
  simp only [CosLat.ofPoint, Rep.get]
  have e : unitCast v 1 (unitCast 1 v p.c1 * Real.cos p.c0) = p.c1 * Real.cos p.c0 := by
    simp only [unitCast]
    field_simp
  rw [unitCast_trans _ _ h1, unitCast_self _ one_pos, e]

/-- The sum in terms of the vectors. -/
theorem coslat_add (junk : ℝ) (a : CosLat) (b : Rep) (h3 : 0 < a.u3) (hb : Spec.Units b.type) :
    ∀ v, v = Spec.vec ⟨.spherical, a.pt, a.u1, a.u2, a.u3⟩ + Spec.vec b →
      a.add junk b = ⟨coslatOf junk ⟨v 0 / a.u3, v 1 / a.u3, v 2 / a.u3⟩, a.u1, a.u2, a.u3⟩ := by
  rintro v rfl
  have hm : Spec.Units (makeCartesian b).type := make_units 0 .cartesian hb
  obtain ⟨-, -, e, t⟩ := C62_sum 0 (Rep.ofPoint 0 ⟨.cartesian, a.u3, a.u3, a.u3⟩ .spherical a.pt) (makeCartesian b) ⟨h3, h3, h3⟩ hm
  have e' : Rep.add 0 (Rep.ofPoint 0 ⟨.cartesian, a.u3, a.u3, a.u3⟩ .spherical a.pt) (makeCartesian b) =
    addCartesian (Rep.ofPoint 0 ⟨.cartesian, a.u3, a.u3, a.u3⟩ .spherical a.pt) (makeCartesian b) := rfl
  rw [e'] at e t
  rw [vec_makeCartesian] at e
  have hv : Spec.vec (Rep.ofPoint 0 ⟨.cartesian, a.u3, a.u3, a.u3⟩ .spherical a.pt) = Spec.vec ⟨.spherical, a.pt, a.u1, a.u2, a.u3⟩ := by
    rw [vec_ofPoint, vec_eq]
    rfl
  rw [hv] at e
  rw [CosLat.add]
  rw [cosLat_make junk _ (by rw [t]; exact ⟨h3, h3, h3⟩) (by intro h; cases h), e, t]
  simp only [CosLat.changeUnits, CosLat.get, Spec.axis, Rep.type, Rep.ofPoint, unitCast_self _ one_pos, unitCast_self _ h3]

end Astro
