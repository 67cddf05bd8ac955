import Verif.Lemmas.Diff

/-
Differentials (C64, C65, C84).
-/

namespace Astro

open Astro.Coord Matrix

/-! C64 -/

/-- C64: addition of differentials adds the vectors, in all systems and units; it commutes and associates. -/
theorem C64_add (j1 j2 j3 j4 : ℝ) (a b c : Rep) (ha : Spec.Units a.type) (hb : Spec.Units b.type) (hc : Spec.Units c.type) :
    Spec.vec (Rep.add j1 a b) = Spec.vec a + Spec.vec b ∧
    Spec.vec (Rep.add j1 a b) = Spec.vec (Rep.add j2 b a) ∧
    Spec.vec (Rep.add j1 (Rep.add j2 a b) c) = Spec.vec (Rep.add j3 a (Rep.add j4 b c)) := by
  obtain ⟨-, -, e1, -⟩ := C62_sum j1 a b ha hb
  obtain ⟨-, -, e2, -⟩ := C62_sum j2 b a hb ha
  obtain ⟨-, -, e3, t3⟩ := C62_sum j2 a b ha hb
  obtain ⟨-, -, e4, t4⟩ := C62_sum j4 b c hb hc
  obtain ⟨-, -, e5, -⟩ := C62_sum j1 (Rep.add j2 a b) c (by rw [t3]; exact ha) hc
  obtain ⟨-, -, e6, -⟩ := C62_sum j3 a (Rep.add j4 b c) ha (by rw [t4]; exact hb)
  refine ⟨e1, ?_, ?_⟩
  · rw [e1, e2, add_comm]
  · rw [e5, e3, e6, e4, add_assoc]

/-- C64: multiplication by a quantity multiplies the vector, in all systems; the unit of the quantity goes into the units of the result (of an angular
differential: of its distance). -/
theorem C64_mul (junk : ℝ) (a : Rep) (k : Quantity) (h : Spec.Units a.type) :
    Spec.vec (Rep.mul junk a k) = (k.value * k.unit) • Spec.vec a ∧ (Rep.mul junk a k).sys = a.sys ∧
    Spec.axis (Rep.mul junk a k).type = ⟨(Spec.axis a.type).c0 * k.unit, (Spec.axis a.type).c1 * k.unit, (Spec.axis a.type).c2 * k.unit⟩ := by
  by_cases hs : a.sys = .cartesian
  · obtain ⟨s, p, u, v, w⟩ := a
    simp only at hs
    subst hs
    refine ⟨?_, rfl, rfl⟩
    ext i
    have e : (Rep.mul junk ⟨.cartesian, p, u, v, w⟩ k) = ⟨.cartesian, ⟨p.c0 * k.value, p.c1 * k.value, p.c2 * k.value⟩, u * k.unit, v * k.unit, w * k.unit⟩ := rfl
    rw [e, vec_cartesian, vec_cartesian]
    fin_cases i <;> simp <;> ring
  · rw [mul_angular junk a k hs h]
    have hv := toCart_fromCart junk a.sys (toCart a.sys a.pt)
    rw [vec_eq a]
    generalize fromCart junk a.sys (toCart a.sys a.pt) = q at hv ⊢
    rw [← hv]
    clear hv
    obtain ⟨s, p, u, v, w⟩ := a
    cases s
    · exact absurd rfl hs
    · refine ⟨?_, rfl, rfl⟩
      ext i
      fin_cases i <;> simp [Spec.vec, Spec.axis, Rep.type, toCart] <;> ring
    · refine ⟨?_, rfl, rfl⟩
      ext i
      fin_cases i <;> simp [Spec.vec, Spec.axis, Rep.type, toCart] <;> ring

/-- C64: multiplication distributes over addition. -/
theorem C64_distributes (j1 j2 j3 j4 : ℝ) (a b : Rep) (k : Quantity) (ha : Spec.Units a.type) (hb : Spec.Units b.type) (hk : 0 < k.unit) :
    Spec.vec (Rep.mul j1 (Rep.add j2 a b) k) = Spec.vec (Rep.add j1 (Rep.mul j3 a k) (Rep.mul j4 b k)) := by
  obtain ⟨-, -, e, t⟩ := C62_sum j2 a b ha hb
  have hm : ∀ (j : ℝ) (a : Rep), Spec.Units a.type → Spec.Units (Rep.mul j a k).type := by
    intro j a ha
    by_cases hs : a.sys = .cartesian
    · obtain ⟨s, p, u, v, w⟩ := a
      simp only at hs
      subst hs
      exact ⟨mul_pos ha.1 hk, mul_pos ha.2.1 hk, mul_pos ha.2.2 hk⟩
    · rw [mul_angular j a k hs ha]
      exact ⟨ha.1, ha.2.1, mul_pos ha.2.2 hk⟩
  obtain ⟨-, -, e', -⟩ := C62_sum j1 (Rep.mul j3 a k) (Rep.mul j4 b k) (hm j3 a ha) (hm j4 b hb)
  rw [(C64_mul j1 (Rep.add j2 a b) k (by rw [t]; exact ha)).1, e, e', (C64_mul j3 a k ha).1, (C64_mul j4 b k hb).1, smul_add]

/-- C64: of an angular differential in the principal ranges the product keeps the angles and multiplies the radial component alone. -/
theorem C64_radial (junk : ℝ) (a : Rep) (k : Quantity) (hs : a.sys ≠ .cartesian) (h : Spec.Units a.type) (hp : Spec.Principal a) :
    Rep.mul junk a k = ⟨a.sys, ⟨a.pt.c0, a.pt.c1, a.pt.c2 * k.value⟩, a.u1, a.u2, a.u3 * k.unit⟩ := by
  rw [mul_angular junk a k hs h, fromCart_toCart junk a hp]

/-- C64: when the radial component is 0 the product loses the angular components: the first becomes 0 and the second is indeterminate. -/
theorem C64_lost (junk : ℝ) (a : Rep) (k : Quantity) (hs : a.sys ≠ .cartesian) (h : Spec.Units a.type) (h0 : a.pt.c2 = 0) :
    (Rep.mul junk a k).pt = ⟨0, junk, 0⟩ := by
  rw [mul_angular junk a k hs h]
  have hz : toCart a.sys a.pt = ⟨0, 0, 0⟩ := by
    obtain ⟨s, p, u, v, w⟩ := a
    simp only at h0
    cases s
    · exact absurd rfl hs
    · simp [toCart, h0]
    · simp [toCart, h0]
  have z : (⟨0, 0⟩ : ℂ) = 0 := rfl
  rw [hz]
  obtain ⟨s, p, u, v, w⟩ := a
  cases s
  · exact absurd rfl hs
  · simp [fromCart, Pt.norm, atan2, z]
  · simp [fromCart, Pt.norm, atan2, z]

/-- C64: the magnitude of a differential is its length when its axes have unit 1, and in general the length of the numbers; the unit vector keeps the
direction and has length 1 when source and target axes share a unit. -/
theorem C64_unit (junk : ℝ) (t : RepType) (a : Rep) (u : ℝ) (hu : 0 < u) (ha : Spec.axis a.type = ⟨u, u, u⟩) (ht : Spec.axis t = ⟨u, u, u⟩) :
    a.magnitude * u = Real.sqrt (Spec.vec a ⬝ᵥ Spec.vec a) ∧
    (Spec.vec a = 0 → Rep.unit junk t a = none) ∧
    (Spec.vec a ≠ 0 → ∃ r, Rep.unit junk t a = some r ∧ r.type = t ∧ Spec.vec r = (u / Real.sqrt (Spec.vec a ⬝ᵥ Spec.vec a)) • Spec.vec a) := by
  have hm : a.magnitude * u = Real.sqrt (Spec.vec a ⬝ᵥ Spec.vec a) := by
    rw [vec_eq a, ha, Rep.magnitude, Pt.norm, dotProduct, Fin.sum_univ_three, ← Real.sqrt_mul_self hu.le,
      ← Real.sqrt_mul' _ (mul_self_nonneg u), Real.sqrt_mul_self hu.le]
    congr 1
    simp only [cons_val_zero, cons_val_one, cons_val]
    ring
  have hz : a.magnitude = 0 ↔ Spec.vec a = 0 := by
    have hn : 0 ≤ Spec.vec a ⬝ᵥ Spec.vec a := by
      rw [dotProduct, Fin.sum_univ_three]
      nlinarith [mul_self_nonneg (Spec.vec a 0), mul_self_nonneg (Spec.vec a 1), mul_self_nonneg (Spec.vec a 2)]
    rw [← dotProduct_self_eq_zero, ← Real.sqrt_eq_zero hn, ← hm]
    simp [hu.ne']
  refine ⟨hm, fun h => ?_, fun h => ?_⟩
  · simp only [Rep.unit, if_pos (hz.2 h)]
  · have hne : a.magnitude ≠ 0 := fun h' => h (hz.1 h')
    refine ⟨_, by simp only [Rep.unit, if_neg hne]; rfl, rfl, ?_⟩
    rw [vec_ofPoint, ht, ← hm, vec_eq a, ha]
    simp only [toCart_cartesian]
    ext i
    fin_cases i <;> simp <;> field_simp

/-- 2 s times (1 rad, 1 rad, 3 km/s) is (1 rad, 1 rad, 6 km). -/
example (junk : ℝ) : Rep.mul junk ⟨.spherical, ⟨1, 1, 3⟩, 1, 1, 1000⟩ ⟨2, 1⟩ = ⟨.spherical, ⟨1, 1, 6⟩, 1, 1, 1000⟩ := by
  have := Real.pi_gt_three
  rw [C64_radial junk ⟨.spherical, ⟨1, 1, 3⟩, 1, 1, 1000⟩ _ (by simp) ⟨one_pos, one_pos, by norm_num [Rep.type]⟩
    ⟨by simp only; linarith, by simp only; linarith, by norm_num, by simp only; linarith, by norm_num⟩]
  norm_num

/-! C65 -/

/-- C65: Cartesian → coslat → Cartesian, exactly: vectors with x > 0 and those on the z axis come back; the others come back turned by half a turn (x < 0)
or lying on the z axis (x = 0). -/
theorem C65_round_trip (junk : ℝ) (r : Rep) (h : Spec.Units r.type) (hp : r.sys = .spherical → Spec.Principal r) :
    ∃ c, (CosLat.make junk r).toCartesian = some c ∧ c.sys = .cartesian ∧
      Spec.vec c = if 0 < Spec.vec r 0 ∨ Spec.vec r 0 = 0 ∧ Spec.vec r 1 = 0 then Spec.vec r
        else if Spec.vec r 0 < 0 then Spec.halfTurn (Spec.vec r)
        else ![0, 0, Real.sqrt (Spec.vec r ⬝ᵥ Spec.vec r)] := by
  have ha := (axis_pos h).1
  rw [cosLat_make junk r h hp]
  generalize (Spec.axis r.type).c0 = w at ha
  generalize Spec.vec r = v
  obtain ⟨hc, hb⟩ := coslat_back junk ⟨v 0 / w, v 1 / w, v 2 / w⟩
  simp only at hc hb
  refine ⟨_, by rw [CosLat.toCartesian]; simp only; rw [if_neg hc], rfl, ?_⟩
  rw [vec_ofPoint, hb]
  have e0 : v 0 / w = 0 ↔ v 0 = 0 := by simp [ha.ne']
  have e1 : v 1 / w = 0 ↔ v 1 = 0 := by simp [ha.ne']
  have ep : 0 < v 0 / w ↔ 0 < v 0 := by rw [lt_div_iff₀ ha, zero_mul]
  have en : v 0 / w < 0 ↔ v 0 < 0 := by rw [div_lt_iff₀ ha, zero_mul]
  simp only [e0, e1, ep, en, Spec.axis]
  split
  · ext i
    fin_cases i <;> simp <;> field_simp
  · split
    · ext i
      fin_cases i <;> simp [Spec.halfTurn] <;> field_simp
    · have hn : Pt.norm ⟨v 0 / w, v 1 / w, v 2 / w⟩ * w = Real.sqrt (v ⬝ᵥ v) := by
        rw [Pt.norm, dotProduct, Fin.sum_univ_three, ← Real.sqrt_mul_self ha.le, ← Real.sqrt_mul' _ (mul_self_nonneg w), Real.sqrt_mul_self ha.le]
        congr 1
        simp only
        field_simp
      ext i
      fin_cases i <;> simp [hn]

/-- C65: so the conversion is lossless exactly on the vectors with x > 0 and on the z axis. -/
theorem C65_lossless (junk : ℝ) (r : Rep) (h : Spec.Units r.type) (hp : r.sys = .spherical → Spec.Principal r) :
    (∃ c, (CosLat.make junk r).toCartesian = some c ∧ Spec.vec c = Spec.vec r) ↔ 0 < Spec.vec r 0 ∨ Spec.vec r 0 = 0 ∧ Spec.vec r 1 = 0 := by
  obtain ⟨c, hc, -, hv⟩ := C65_round_trip junk r h hp
  rw [hc]
  constructor
  · rintro ⟨d, hd, hd'⟩
    obtain rfl := Option.some.inj hd
    by_contra hn
    rw [if_neg hn] at hv
    split at hv
    · next hlt =>
      have := congrFun (hd'.symm.trans hv) 0
      simp only [Spec.halfTurn, cons_val_zero] at this
      linarith
    · next hge =>
      have h0 := congrFun (hd'.symm.trans hv) 0
      have h1 := congrFun (hd'.symm.trans hv) 1
      simp only [cons_val_zero, cons_val_one] at h0 h1
      exact hn (Or.inr ⟨h0, h1⟩)
  · intro hh
    exact ⟨c, rfl, by rw [hv, if_pos hh]⟩

/-- C65: the components on the right half: dlat, dlon · cos(dlat), ddist. -/
theorem C65_components (junk : ℝ) (r : Rep) (hs : r.sys = .spherical) (h : Spec.Units r.type) (hp : Spec.Principal r) (hc : 0 < Real.cos r.pt.c0) :
    CosLat.make junk r = ⟨⟨r.pt.c0, r.pt.c1 * Real.cos r.pt.c0, r.pt.c2⟩, 1, 1, r.u3⟩ := by
  obtain ⟨s, p, u, v, w⟩ := r
  simp only at hs hc
  subst hs
  have h1 : 0 < u := h.1
  have h2 : 0 < v := h.2.1
  obtain ⟨p1, p2, p3, p4, p5⟩ := hp
  simp only at p1 p2 p3 p4 p5
  have e : unitCast v 1 (unitCast 1 v p.c1 * Real.cos p.c0) = p.c1 * Real.cos p.c0 := by
    simp only [unitCast]
    field_simp
  simp only [CosLat.make, CosLat.ofPoint, makeAngular, if_pos, Rep.get]
  rw [unitCast_trans _ _ h1, unitCast_self _ one_pos, e]
  have hc1 := Real.cos_le_one p.c0
  congr 1
  exact fromCart_toCart junk ⟨.spherical, ⟨p.c0, p.c1 * Real.cos p.c0, p.c2⟩, 1, 1, 1⟩
    ⟨p1, p2, by simp only; positivity, by simp only; nlinarith, p5⟩

/-- (-1, -1, 1) comes back as (1, 1, 1); (0, 3, 4) comes back as (0, 0, 5). -/
example (junk : ℝ) : ∃ c, (CosLat.make junk ⟨.cartesian, ⟨-1, -1, 1⟩, 1, 1, 1⟩).toCartesian = some c ∧ Spec.vec c = ![1, 1, 1] := by
  obtain ⟨c, h, -, hv⟩ := C65_round_trip junk ⟨.cartesian, ⟨-1, -1, 1⟩, 1, 1, 1⟩ ⟨one_pos, one_pos, one_pos⟩ (by simp)
  refine ⟨c, h, ?_⟩
  rw [hv, vec_cartesian]
  have e2 : (![-1, -1, 1] : Vec) 2 = 1 := rfl
  norm_num [Spec.halfTurn, e2]

example (junk : ℝ) : ∃ c, (CosLat.make junk ⟨.cartesian, ⟨0, 3, 4⟩, 1, 1, 1⟩).toCartesian = some c ∧ Spec.vec c = ![0, 0, 5] := by
  obtain ⟨c, h, -, hv⟩ := C65_round_trip junk ⟨.cartesian, ⟨0, 3, 4⟩, 1, 1, 1⟩ ⟨one_pos, one_pos, one_pos⟩ (by simp)
  refine ⟨c, h, ?_⟩
  rw [hv, vec_cartesian]
  have : Real.sqrt 25 = 5 := by rw [show (25 : ℝ) = 5 * 5 by norm_num, Real.sqrt_mul_self (by norm_num)]
  have e2 : (![0, 3, 4] : Vec) 2 = 4 := rfl
  norm_num [dotProduct, Fin.sum_univ_three, e2, this]

/-! C84 -/

/-- C84: getters give back the quantities of the constructor. -/
theorem C84_getters (u1 u2 u3 : ℝ) (q : Pt) (h1 : 0 < u1) (h2 : 0 < u2) : (CosLat.ofQuantities u1 u2 u3 q).get = q := by
  simp only [CosLat.get, CosLat.ofQuantities]
  rw [unitCast_trans _ _ one_pos, unitCast_self _ h1, unitCast_trans _ _ one_pos, unitCast_self _ h2]

/-- C84: a coslat differential with positive components in the principal ranges is multiplied in its distance alone, and its vector is multiplied. -/
theorem C84_mul (junk : ℝ) (a : CosLat) (k : Quantity) (h1 : 0 < a.u1) (h2 : 0 < a.u2) (h : Spec.CosLatPrincipal a) :
    CosLat.mul junk a k = ⟨⟨a.pt.c0, a.pt.c1, a.pt.c2 * k.value⟩, a.u1, a.u2, a.u3 * k.unit⟩ ∧
    Spec.coslatVec (CosLat.mul junk a k) = (k.value * k.unit) • Spec.coslatVec a := by
  have e : CosLat.mul junk a k = ⟨⟨a.pt.c0, a.pt.c1, a.pt.c2 * k.value⟩, a.u1, a.u2, a.u3 * k.unit⟩ := by
    have e := fromCart_toCart junk ⟨.spherical, a.pt, 1, 1, 1⟩ h
    simp only at e
    simp only [CosLat.mul, CosLat.ofQuantities, CosLat.get, CosLat.ofPoint, e]
    rw [unitCast_trans _ _ h1, unitCast_self _ one_pos, unitCast_trans _ _ h2, unitCast_self _ one_pos]
  refine ⟨e, ?_⟩
  rw [e]
  ext i
  fin_cases i <;> simp [Spec.coslatVec, Spec.vec] <;> ring

/-- C84: with a negative dlon·cos(dlat) the product is turned by half a turn: dlat moves by π and dlon·cos(dlat) changes its sign, so the
vector is not multiplied. -/
theorem C84_mul_negative (junk : ℝ) (a : CosLat) (k : Quantity) (h1 : 0 < a.u1) (h2 : 0 < a.u2) (h0 : -Real.pi < a.pt.c0 ∧ a.pt.c0 ≤ Real.pi)
    (hn : -Real.pi < a.pt.c1 ∧ a.pt.c1 < 0) (hd : 0 < a.pt.c2) :
    (∃ c, (c = a.pt.c0 + Real.pi ∨ c = a.pt.c0 - Real.pi) ∧
      CosLat.mul junk a k = ⟨⟨c, -a.pt.c1, a.pt.c2 * k.value⟩, a.u1, a.u2, a.u3 * k.unit⟩) ∧
    Spec.coslatVec (CosLat.mul junk a k) = (k.value * k.unit) • Spec.halfTurn (Spec.coslatVec a) := by
  obtain ⟨c, hc, ec, es, e⟩ := fromCart_negative junk a.pt h0 hn hd
  have e' : CosLat.mul junk a k = ⟨⟨c, -a.pt.c1, a.pt.c2 * k.value⟩, a.u1, a.u2, a.u3 * k.unit⟩ := by
    simp only [CosLat.mul, CosLat.ofQuantities, CosLat.get, CosLat.ofPoint, e]
    rw [unitCast_trans _ _ h1, unitCast_self _ one_pos, unitCast_trans _ _ h2, unitCast_self _ one_pos]
  refine ⟨⟨c, hc, e'⟩, ?_⟩
  rw [e']
  ext i
  fin_cases i <;> simp [Spec.coslatVec, Spec.vec, Spec.halfTurn, ec, es, neg_div_neg_eq] <;> ring

/-- C84: operator+ reads the left operand as a plain spherical point: the result stands for the sum of *that* vector and the right operand, which is
then treated as in C65. -/
theorem C84_add (junk : ℝ) (a : CosLat) (b : Rep) (h3 : 0 < a.u3) (hb : Spec.Units b.type) :
    ∀ v, v = Spec.vec ⟨.spherical, a.pt, a.u1, a.u2, a.u3⟩ + Spec.vec b →
      Spec.coslatVec (a.add junk b) =
        if 0 < v 0 ∨ v 0 = 0 ∧ v 1 = 0 then v else if v 0 < 0 then Spec.halfTurn v else ![0, 0, Real.sqrt (v ⬝ᵥ v)] := by
  intro v hv
  rw [coslat_add junk a b h3 hb v hv]
  clear hv
  rw [Spec.coslatVec, vec_eq]
  have ha := h3
  generalize a.u3 = w at ha
  obtain ⟨hc, hb⟩ := coslat_back junk ⟨v 0 / w, v 1 / w, v 2 / w⟩
  rw [hb]
  have e0 : v 0 / w = 0 ↔ v 0 = 0 := by simp [ha.ne']
  have e1 : v 1 / w = 0 ↔ v 1 = 0 := by simp [ha.ne']
  have ep : 0 < v 0 / w ↔ 0 < v 0 := by rw [lt_div_iff₀ ha, zero_mul]
  have en : v 0 / w < 0 ↔ v 0 < 0 := by rw [div_lt_iff₀ ha, zero_mul]
  simp only [e0, e1, ep, en, Spec.axis, Rep.type]
  split
  · ext i
    fin_cases i <;> simp <;> field_simp
  · split
    · ext i
      fin_cases i <;> simp [Spec.halfTurn] <;> field_simp
    · have hn : Pt.norm ⟨v 0 / w, v 1 / w, v 2 / w⟩ * w = Real.sqrt (v ⬝ᵥ v) := by
        rw [Pt.norm, dotProduct, Fin.sum_univ_three, ← Real.sqrt_mul_self ha.le, ← Real.sqrt_mul' _ (mul_self_nonneg w), Real.sqrt_mul_self ha.le]
        congr 1
        simp only
        field_simp
      ext i
      fin_cases i <;> simp [hn]

/-- C84: with a coslat differential on the right, that one is read as it is meant, so the two operands are treated differently; a right operand with
cos(dlat) = 0 is divided by zero. -/
theorem C84_add_coslat (junk : ℝ) (a b : CosLat) (h3 : 0 < a.u3) (hb : 0 < b.u3) :
    (a.addCosLat junk b = none ↔ Real.cos b.pt.c0 = 0) ∧
    ∀ r, a.addCosLat junk b = some r → r.u1 = a.u1 ∧ r.u2 = a.u2 ∧ r.u3 = a.u3 ∧
      ∀ v, v = Spec.vec ⟨.spherical, a.pt, a.u1, a.u2, a.u3⟩ + Spec.coslatVec b →
        Spec.coslatVec r = if 0 < v 0 ∨ v 0 = 0 ∧ v 1 = 0 then v else if v 0 < 0 then Spec.halfTurn v else ![0, 0, Real.sqrt (v ⬝ᵥ v)] := by
  unfold CosLat.addCosLat CosLat.toCartesian
  by_cases hc : Real.cos b.pt.c0 = 0
  · simp [hc]
  · rw [if_neg hc]
    refine ⟨by simp [hc], ?_⟩
    rintro r hr
    obtain rfl := Option.some.inj hr
    refine ⟨rfl, rfl, rfl, fun v hv => ?_⟩
    refine C84_add junk a _ h3 ?_ v ?_
    · exact (⟨hb, hb, hb⟩ : Spec.Units ⟨.cartesian, b.u3, b.u3, b.u3⟩)
    rw [hv, vec_ofPoint, Spec.coslatVec]
    congr 1
    rw [vec_eq]
    rfl

/-- C84: adding zero multiplies dlon·cos(dlat) by cos(dlat) once more. -/
theorem C84_add_zero (junk : ℝ) (a : CosLat) (b : Rep) (h3 : 0 < a.u3) (hb : Spec.Units b.type)
    (ha : Spec.CosLatPrincipal a) (hc : 0 < Real.cos a.pt.c0) (hz : Spec.vec b = 0) :
    a.add junk b = ⟨⟨a.pt.c0, a.pt.c1 * Real.cos a.pt.c0, a.pt.c2⟩, a.u1, a.u2, a.u3⟩ := by
  rw [coslat_add junk a b h3 hb _ rfl, hz, add_zero, vec_eq]
  have e := fromCart_toCart junk ⟨.spherical, a.pt, 1, 1, 1⟩ ha
  simp only at e
  have hw := h3.ne'
  simp only [Spec.axis, Rep.type, cons_val_zero, cons_val_one, cons_val, mul_div_assoc, div_self hw, mul_one]
  rw [coslatOf]
  simp only [e]
  obtain ⟨p1, p2, p3, p4, p5⟩ := ha
  have hc1 := Real.cos_le_one a.pt.c0
  congr 1
  exact fromCart_toCart junk ⟨.spherical, ⟨a.pt.c0, a.pt.c1 * Real.cos a.pt.c0, a.pt.c2⟩, 1, 1, 1⟩
    ⟨p1, p2, by simp only; positivity, by simp only; nlinarith, p5⟩

/-- dlat = π/3, dlon·cos(dlat) = 1: adding zero gives dlon·cos(dlat) = 1/2. -/
example (junk : ℝ) : (CosLat.add junk ⟨⟨Real.pi / 3, 1, 1⟩, 1, 1, 1⟩ ⟨.cartesian, ⟨0, 0, 0⟩, 1, 1, 1⟩).pt = ⟨Real.pi / 3, 1 / 2, 1⟩ := by
  have := Real.pi_gt_three
  rw [C84_add_zero junk _ _ one_pos ⟨one_pos, one_pos, one_pos⟩
    ⟨by simp only; linarith, by simp only; linarith, one_pos, by simp only; linarith, one_pos⟩ (by simp [Real.cos_pi_div_three])
    (by rw [vec_cartesian]; simp)]
  simp [Real.cos_pi_div_three]

/-- dlat = 0.1, dlon·cos(dlat) = -0.2: the product with 1 s is turned. -/
example (junk : ℝ) : (CosLat.mul junk ⟨⟨0.1, -0.2, 1⟩, 1, 1, 1⟩ ⟨1, 1⟩).pt.c1 = 0.2 := by
  have := Real.pi_gt_three
  obtain ⟨⟨c, -, e⟩, -⟩ := C84_mul_negative junk ⟨⟨0.1, -0.2, 1⟩, 1, 1, 1⟩ ⟨1, 1⟩ one_pos one_pos
    ⟨by norm_num; linarith, by norm_num; linarith⟩ ⟨by norm_num; linarith, by norm_num⟩ one_pos
  rw [e]
  norm_num

/-- (1, 0, 0) m/s and (0, 2, 0) km/s. -/
example (junk : ℝ) : Spec.vec (Rep.add junk ⟨.cartesian, ⟨1, 0, 0⟩, 1, 1, 1⟩ ⟨.cartesian, ⟨0, 2, 0⟩, 1000, 1000, 1000⟩) = ![1, 2000, 0] := by
  rw [(C64_add junk 0 0 0 ⟨.cartesian, ⟨1, 0, 0⟩, 1, 1, 1⟩ ⟨.cartesian, ⟨0, 2, 0⟩, 1000, 1000, 1000⟩ ⟨.cartesian, ⟨1, 0, 0⟩, 1, 1, 1⟩ ⟨one_pos, one_pos, one_pos⟩
    ⟨by norm_num [Rep.type], by norm_num [Rep.type], by norm_num [Rep.type]⟩ ⟨one_pos, one_pos, one_pos⟩).1, vec_cartesian, vec_cartesian]
  norm_num

/-- A motion of speed 0 loses its direction when it is multiplied. -/
example (junk : ℝ) : (Rep.mul junk ⟨.spherical, ⟨1, 1, 0⟩, 1, 1, 1⟩ ⟨2, 1⟩).pt = ⟨0, junk, 0⟩ :=
  C64_lost junk ⟨.spherical, ⟨1, 1, 0⟩, 1, 1, 1⟩ _ (by simp) ⟨one_pos, one_pos, one_pos⟩ rfl

/-- dlat = π/3 and dlon = 1 become dlon·cos(dlat) = 1/2. -/
example (junk : ℝ) : CosLat.make junk ⟨.spherical, ⟨Real.pi / 3, 1, 5⟩, 1, 1, 1000⟩ = ⟨⟨Real.pi / 3, 1 / 2, 5⟩, 1, 1, 1000⟩ := by
  have := Real.pi_gt_three
  rw [C65_components junk ⟨.spherical, ⟨Real.pi / 3, 1, 5⟩, 1, 1, 1000⟩ rfl ⟨one_pos, one_pos, by norm_num [Rep.type]⟩
    ⟨by simp only; linarith, by simp only; linarith, by norm_num, by simp only; linarith, by norm_num⟩ (by simp [Real.cos_pi_div_three])]
  simp [Real.cos_pi_div_three]

/-- 30 and 45 degrees per second come back as they were given. -/
example : (CosLat.ofQuantities (Real.pi / 180) (Real.pi / 180) 1000 ⟨30, 45, 2⟩).get = ⟨30, 45, 2⟩ :=
  C84_getters _ _ _ _ (by positivity) (by positivity)

/-- Adding a motion with dlat = π/3 gives something. -/
example (junk : ℝ) : ∃ r, CosLat.addCosLat junk ⟨⟨0, 0, 1⟩, 1, 1, 1⟩ ⟨⟨Real.pi / 3, 1, 1⟩, 1, 1, 1⟩ = some r := by
  rcases h : CosLat.addCosLat junk ⟨⟨0, 0, 1⟩, 1, 1, 1⟩ ⟨⟨Real.pi / 3, 1, 1⟩, 1, 1, 1⟩ with _ | r
  · have := (C84_add_coslat junk ⟨⟨0, 0, 1⟩, 1, 1, 1⟩ ⟨⟨Real.pi / 3, 1, 1⟩, 1, 1, 1⟩ one_pos one_pos).1.1 h
    simp [Real.cos_pi_div_three] at this
  · exact ⟨r, rfl⟩

end Astro
