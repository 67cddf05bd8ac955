import Verif.Spec.FrameBuildDouble
import Verif.Lemmas.QtyVec
import Verif.Lemmas.CosLatDouble

/-
Errors of changes of units in angular representations.
-/

set_option exponentiation.threshold 3000

namespace Astro

open Spec Time

attribute [local irreducible] FloatFmt.nearest FloatFmt.value Dbl.round

variable {U : Type} {len : U → ℝ} {F : Factors U} {rad : U} {ε : ℝ}

/-- One multiplication by a factor, in real quantities, with underflow. -/
theorem factor_step (hF : AccurateFactors len F ε) (u w : U) {x : ℚ} {X : ℝ} (hX : X = x * len u) (hb : |X| * (1 + ε) ≤ 2 ^ (900 : ℤ) * len w) :
    ∃ p, (Dbl.num x).mul (F u w) = .num p ∧ IsDouble p ∧ |p * len w - X| ≤ |X| * castErr ε + 2 ^ (-1075 : ℤ) * len w := by
  obtain ⟨k, hk, dk, ek⟩ := hF.other u w
  have su := hF.positive u
  have sw := hF.positive w
  have u0 := unit53_pos
  have e : (x : ℝ) * (len u / len w) * len w = X := by rw [hX]; field_simp
  have ek' : |(x : ℝ) * k * len w - X| ≤ |X| * ε := by
    have : (x : ℝ) * k * len w - X = x * (k - len u / len w) * len w := by rw [← e]; ring
    rw [this, abs_mul, abs_mul, abs_of_pos sw]
    have h1 := mul_le_mul_of_nonneg_right (mul_le_mul_of_nonneg_left ek (abs_nonneg (x : ℝ))) sw.le
    refine h1.trans (le_of_eq ?_)
    rw [hX, abs_mul, abs_of_pos su]
    field_simp
  have hxk : |(x : ℝ) * k| * len w ≤ |X| * (1 + ε) := by
    have h1 : |(x : ℝ) * k * len w| = |(x : ℝ) * k| * len w := by rw [abs_mul, abs_of_pos sw]
    rw [← h1]
    have := abs_sub_abs_le_abs_sub ((x : ℝ) * k * len w) X
    linarith
  have hxk' : |(x : ℝ) * k| ≤ 2 ^ (900 : ℤ) := le_of_mul_le_mul_right (hxk.trans hb) sw
  obtain ⟨p, hp, dp, ep⟩ := scaled_near (x := x) (k := k) (hxk'.trans (zpow_le_zpow_right₀ (by norm_num) (by norm_num)))
  refine ⟨p, by rw [hk, hp], dp, ?_⟩
  have e1 : (p : ℝ) * len w - X = (p - x * k) * len w + (x * k * len w - X) := by ring
  have e2 : |((p : ℝ) - x * k) * len w| ≤ |(x : ℝ) * k| * len w * unit53 + 2 ^ (-1075 : ℤ) * len w := by
    rw [abs_mul, abs_of_pos sw]
    have := mul_le_mul_of_nonneg_right ep sw.le
    linarith
  have e3 := mul_le_mul_of_nonneg_right hxk u0.le
  rw [e1]
  refine (abs_add_le _ _).trans ?_
  unfold castErr
  generalize (2 : ℝ) ^ (-1075 : ℤ) = η at *
  nlinarith

theorem castErr_tiny (h0 : 0 ≤ ε) (h1 : ε ≤ 2 ^ (-20 : ℤ)) : 0 ≤ castErr ε ∧ castErr ε ≤ 1 / 500000 ∧ castErr ε ≤ ε + 107 / 100 * unit53 := by
  have h2 : ε ≤ 1 / 1000000 := h1.trans (by norm_num)
  have h3 := castErr_le (ε := ε) (by linarith)
  have : unit53 ≤ 1 / 10000000 := by norm_num [unit53]
  refine ⟨castErr_nonneg h0, ?_, h3⟩
  linarith

/-- Three relative errors. -/
theorem three_errs {y X1 X2 q E η t : ℝ} (hE : 0 ≤ E) (hE' : E ≤ 1 / 500000) (h1 : |X1 - y| ≤ |y| * E + η) (h2 : |X2 - X1| ≤ |X1| * E + η) (h3 : |q - X2| ≤ |X2| * E + η)
    (ht : 4 * η ≤ t) (hη : 0 ≤ η) : |q - y| ≤ |y| * (3001 / 1000 * E) + t ∧ |X1| ≤ 2 * |y| + t ∧ |X2| ≤ 2 * |y| + t := by
  have a1 := abs_sub_abs_le_abs_sub X1 y
  have a2 := abs_sub_abs_le_abs_sub X2 X1
  have tri : |q - y| ≤ |q - X2| + |X2 - X1| + |X1 - y| := by
    have e : q - y = (q - X2) + (X2 - X1) + (X1 - y) := by ring
    rw [e]
    exact (abs_add_le _ _).trans (add_le_add (abs_add_le _ _) le_rfl)
  have y0 := abs_nonneg y
  have b1 : |X1| ≤ |y| * (1 + E) + η := by linarith
  have yE := mul_nonneg y0 hE
  have m1 := mul_le_mul_of_nonneg_right b1 hE
  have ηE := mul_nonneg hη hE
  have ηE' := mul_le_mul_of_nonneg_left hE' hη
  have yE' := mul_le_mul_of_nonneg_left hE' y0
  have yEE := mul_le_mul_of_nonneg_left hE' yE
  have b2 : |X2| ≤ |y| * (1 + 2001 / 1000 * E) + 21 / 10 * η := by nlinarith
  have m2 := mul_le_mul_of_nonneg_right b2 hE
  refine ⟨?_, ?_, ?_⟩ <;> nlinarith

/-- A change of unit of an angle kept in radians. -/
theorem angle_cast (hF : AccurateFactors len F ε) (hr : len rad = 1) (h0 : 0 ≤ ε) (h1 : ε ≤ 2 ^ (-20 : ℤ)) {u w : U} (hu : AngleUnit len u) (hw : AngleUnit len w)
    {y : ℚ} (hy : |(y : ℝ)| ≤ 2 ^ (300 : ℤ)) :
    ∃ q, castAngle F rad u w (.num y) = .num q ∧ IsDouble q ∧ |(q : ℝ) - y| ≤ |(y : ℝ)| * (4 * ε + 2 ^ (-51 : ℤ)) + 2 ^ (-1040 : ℤ) := by
  obtain ⟨E0, E1, E2⟩ := castErr_tiny h0 h1
  have u0 := unit53_pos
  have hε : ε ≤ 1 := h1.trans (by norm_num)
  have big : ∀ {v : U}, AngleUnit len v → ∀ X : ℝ, |X| ≤ 2 ^ (302 : ℤ) → |X| * (1 + ε) ≤ 2 ^ (900 : ℤ) * len v := by
    intro v hv X hX
    have h := mul_le_mul hX (show 1 + ε ≤ 2 by linarith) (by linarith) (by positivity)
    have h' := mul_le_mul_of_nonneg_left hv.1 (show (0 : ℝ) ≤ 2 ^ (900 : ℤ) by positivity)
    refine h.trans (le_trans ?_ h')
    norm_num
  have small : ∀ {v : U}, AngleUnit len v → (2 : ℝ) ^ (-1075 : ℤ) * len v ≤ 2 ^ (-1045 : ℤ) := by
    intro v hv
    refine (mul_le_mul_of_nonneg_left hv.2 (by positivity)).trans (le_of_eq ?_)
    rw [← zpow_add₀ (by norm_num)]
    norm_num
  have hrad : AngleUnit len rad := by rw [AngleUnit, hr]; norm_num
  have t4 : 4 * (2 : ℝ) ^ (-1045 : ℤ) ≤ 2 ^ (-1040 : ℤ) := by norm_num
  have η0 : (0 : ℝ) ≤ 2 ^ (-1045 : ℤ) := by positivity
  have l1 : (2 : ℝ) * 2 ^ (300 : ℤ) + 2 ^ (-1040 : ℤ) ≤ 2 ^ (302 : ℤ) := by
    have : (2 : ℝ) ^ (-1040 : ℤ) ≤ 1 := by
      rw [← zpow_zero (2 : ℝ)]
      exact zpow_le_zpow_right₀ (by norm_num) (by norm_num)
    have h3 : (1 : ℝ) ≤ 2 ^ (300 : ℤ) := one_le_zpow₀ (by norm_num) (by norm_num)
    have h4 : (2 : ℝ) ^ (302 : ℤ) = 4 * 2 ^ (300 : ℤ) := by norm_num
    rw [h4]
    linarith
  have l2 : (2 : ℝ) ^ (300 : ℤ) ≤ 2 ^ (302 : ℤ) := zpow_le_zpow_right₀ (by norm_num) (by norm_num)
  obtain ⟨p1, k1, -, e1⟩ := factor_step hF rad u (x := y) (X := y) (by rw [hr, mul_one]) (big hu _ (hy.trans l2))
  have e1' := e1.trans (add_le_add le_rfl (small hu))
  have b1 : |(p1 : ℝ) * len u| ≤ 2 ^ (302 : ℤ) := by
    have := (three_errs E0 E1 e1' (X2 := (p1 : ℝ) * len u) (q := (p1 : ℝ) * len u) (by rw [sub_self, abs_zero]; positivity) (by rw [sub_self, abs_zero]; positivity) t4 η0).2.1
    refine this.trans (le_trans ?_ l1)
    exact add_le_add (mul_le_mul_of_nonneg_left hy (by norm_num)) le_rfl
  obtain ⟨p2, k2, -, e2⟩ := factor_step hF u w (x := p1) rfl (big hw _ b1)
  have e2' := e2.trans (add_le_add le_rfl (small hw))
  have b2 : |(p2 : ℝ) * len w| ≤ 2 ^ (302 : ℤ) := by
    have := (three_errs E0 E1 e1' e2' (q := (p2 : ℝ) * len w) (by rw [sub_self, abs_zero]; positivity) t4 η0).2.2
    refine this.trans (le_trans ?_ l1)
    exact add_le_add (mul_le_mul_of_nonneg_left hy (by norm_num)) le_rfl
  obtain ⟨p3, k3, d3, e3⟩ := factor_step hF w rad (x := p2) rfl (big hrad _ b2)
  have e3' := e3.trans (add_le_add le_rfl (small hrad))
  rw [hr, mul_one] at e3'
  refine ⟨p3, by rw [castAngle, k1, k2, k3], d3, ((three_errs E0 E1 e1' e2' e3' t4 η0).1).trans (add_le_add (mul_le_mul_of_nonneg_left ?_ (abs_nonneg _)) le_rfl)⟩
  rw [show (2 : ℝ) ^ (-51 : ℤ) = 4 * unit53 by norm_num [unit53]]
  linarith

/-- Equal units. -/
theorem factor_same (hF : AccurateFactors len F ε) (u : U) {y : ℚ} (d : IsDouble y) : (Dbl.num y).mul (F u u) = .num y := by
  rw [hF.same, mul_num, mul_one, round_exact d]

/-- Back to radians. -/
theorem angle_radians (hF : AccurateFactors len F ε) (hr : len rad = 1) (h0 : 0 ≤ ε) (h1 : ε ≤ 2 ^ (-20 : ℤ)) {u : U} (hu : AngleUnit len u)
    {y : ℚ} (d : IsDouble y) (hy : |(y : ℝ)| ≤ 2 ^ (300 : ℤ)) :
    ∃ q, toRadians F rad u (.num y) = .num q ∧ IsDouble q ∧ |(q : ℝ) - y| ≤ |(y : ℝ)| * (4 * ε + 2 ^ (-51 : ℤ)) + 2 ^ (-1040 : ℤ) := by
  have hrad : AngleUnit len rad := by rw [AngleUnit, hr]; norm_num
  obtain ⟨q, h, d', e⟩ := angle_cast hF hr h0 h1 hrad hu hy
  rw [castAngle, factor_same hF rad d] at h
  exact ⟨q, h, d', e⟩

/-- Radians stay radians. -/
theorem radians_same (hF : AccurateFactors len F ε) {y : ℚ} (d : IsDouble y) : toRadians F rad rad (.num y) = .num y := by
  rw [toRadians, factor_same hF rad d, factor_same hF rad d]

/-- Small changes of all three coordinates. -/
theorem moved {s : Coord.System} (hs : s ≠ .cartesian) {a b a' b' R R' e f : ℝ} (h1 : |a' - a| ≤ e) (h2 : |b' - b| ≤ e) (h3 : |R' - R| ≤ |R| * f) :
    chord (position s a' b' R') (position s a b R) ≤ |R| * (7 / 2 * e + f) := by
  have c := position_close hs (r := R) h1 h2
  have c1 := chord_le_of (c 0) (c 1) (c 2)
  have c2 := position_chord s hs a' b' R' R
  have tri := chord_triangle (position s a' b' R') (position s a' b' R) (position s a b R)
  linarith

/-- A change of units moves the position little. -/
theorem changed (hF : AccurateFactors len F ε) (hr : len rad = 1) (h0 : 0 ≤ ε) (h1 : ε ≤ 2 ^ (-20 : ℤ)) {s : Coord.System} (hs : s ≠ .cartesian) {A : QSph U} {w1 w2 w3 : U}
    (hu : AngleUnit len A.u1 ∧ AngleUnit len A.u2 ∧ AngleUnit len w1 ∧ AngleUnit len w2) {a b r : ℚ} (hA : A.p = ⟨.num a, .num b, .num r⟩)
    (ha : |(a : ℝ)| ≤ 8) (hb : |(b : ℝ)| ≤ 8) (ho : Ordinary len w3 (r * len A.u3)) :
    ∃ x y R, Contains len (A.changeUnits F rad w1 w2 w3) x y R ∧ |R - r * len A.u3| ≤ |r * len A.u3| * (ε + 2 ^ (-52 : ℤ)) ∧
      chord (position s x y R) (position s a b (r * len A.u3)) ≤ |r * len A.u3| * (120 * ε + 2 ^ (-45 : ℤ)) := by
  have l8 : (8 : ℝ) ≤ 2 ^ (300 : ℤ) := by norm_num
  have u0 := unit53_pos
  have h2 : ε ≤ 1 / 1000000 := h1.trans (by norm_num)
  obtain ⟨p, hp, dp, ep⟩ := angle_cast hF hr h0 h1 hu.1 hu.2.2.1 (ha.trans l8)
  obtain ⟨q, hq, dq, eq⟩ := angle_cast hF hr h0 h1 hu.2.1 hu.2.2.2 (hb.trans l8)
  obtain ⟨t, ht, dt, et⟩ := cast_rel hF h0 (by linarith) rfl ho
  have et' := scale_rel hF et
  have key : ∀ {x y : ℚ}, |(y : ℝ)| ≤ 8 → |(x : ℝ) - y| ≤ |(y : ℝ)| * (4 * ε + 2 ^ (-51 : ℤ)) + 2 ^ (-1040 : ℤ) → |(x : ℝ) - y| ≤ 32 * ε + 33 * unit53 := by
    intro x y hy h
    refine h.trans ?_
    have m := mul_le_mul_of_nonneg_right hy (show (0 : ℝ) ≤ 4 * ε + 2 ^ (-51 : ℤ) by positivity)
    have e1 : (2 : ℝ) ^ (-51 : ℤ) = 4 * unit53 := by norm_num [unit53]
    have e2 : (2 : ℝ) ^ (-1040 : ℤ) ≤ unit53 := by norm_num [unit53]
    rw [e1] at m ⊢
    generalize (2 : ℝ) ^ (-1040 : ℤ) = δ at *
    linarith
  have E := castErr_le (ε := ε) (by linarith)
  have R0 := abs_nonneg ((r : ℝ) * len A.u3)
  refine ⟨p, q, t * len w3, ⟨p, q, t, ?_, dp, dq, dt, rfl, rfl, rfl⟩, et'.trans (mul_le_mul_of_nonneg_left ?_ R0), (moved hs (key ha ep) (key hb eq) et').trans (mul_le_mul_of_nonneg_left ?_ R0)⟩
  · show DSph.mk _ _ _ = _
    rw [hA]
    show DSph.mk (castAngle F rad A.u1 w1 (.num a)) (castAngle F rad A.u2 w2 (.num b)) ((Dbl.num r).mul (F A.u3 w3)) = _
    rw [hp, hq, ht]
  · rw [show (2 : ℝ) ^ (-52 : ℤ) = 2 * unit53 by norm_num [unit53]]
    linarith
  · rw [show (2 : ℝ) ^ (-45 : ℤ) = 256 * unit53 by norm_num [unit53]]
    linarith

/-- The longitude times the cosine of the latitude, with units. -/
theorem weighted (hF : AccurateFactors len F ε) (hr : len rad = 1) (h0 : 0 ≤ ε) (h1 : ε ≤ 2 ^ (-20 : ℤ)) {T : Trig} (hT : Accurate T) {u1 u2 : U}
    (hu1 : AngleUnit len u1) (hu2 : AngleUnit len u2) {a b : ℚ} (da : IsDouble a) (ha : |(a : ℝ)| ≤ 8) (hb : |(b : ℝ)| ≤ 4) :
    ∃ q, (((Dbl.num b).mul (F rad u2)).mul (T.cos (toRadians F rad u1 (.num a)))).mul (F u2 rad) = .num q ∧ IsDouble q ∧
      |(q : ℝ) - b * Real.cos a| ≤ 140 * ε + 160 * unit53 := by
  have l8 : (8 : ℝ) ≤ 2 ^ (300 : ℤ) := by norm_num
  obtain ⟨E0, E1, E2⟩ := castErr_tiny h0 h1
  have h2 : ε ≤ 1 / 1000000 := h1.trans (by norm_num)
  have u0 := unit53_pos
  have u1' : unit53 ≤ 1 / 1000000 := by norm_num [unit53]
  have L0 := hF.positive u2
  have hL : (2 : ℝ) ^ (-1075 : ℤ) * len u2 ≤ unit53 / 1000 := by
    refine (mul_le_mul_of_nonneg_left hu2.2 (by positivity)).trans ?_
    rw [← zpow_add₀ (by norm_num)]
    norm_num [unit53]
  obtain ⟨a', ka, da', ea⟩ := angle_radians hF hr h0 h1 hu1 da (ha.trans l8)
  have ea' : |(a' : ℝ) - a| ≤ 32 * ε + 33 * unit53 := by
    refine ea.trans ?_
    have m := mul_le_mul_of_nonneg_right ha (show (0 : ℝ) ≤ 4 * ε + 2 ^ (-51 : ℤ) by positivity)
    have e1 : (2 : ℝ) ^ (-51 : ℤ) = 4 * unit53 := by norm_num [unit53]
    have e2 : (2 : ℝ) ^ (-1040 : ℤ) ≤ unit53 := by norm_num [unit53]
    rw [e1] at m ⊢
    clear hL
    generalize (2 : ℝ) ^ (-1040 : ℤ) = δ at *
    linarith
  obtain ⟨c, hc, dc, ec⟩ := (hT a' da').2
  have ec' : |(c : ℝ) - Real.cos a'| ≤ unit53 := ec
  have ecos := cos_close (a' : ℝ) a
  have ec2 : |(c : ℝ) - Real.cos a| ≤ 32 * ε + 34 * unit53 := by
    have := abs_sub_le (c : ℝ) (Real.cos a') (Real.cos a)
    linarith
  have C1 := Real.abs_cos_le_one (a : ℝ)
  have c1 : |(c : ℝ)| ≤ 1001 / 1000 := by
    have := abs_sub_abs_le_abs_sub (c : ℝ) (Real.cos a)
    linarith
  obtain ⟨p, hp, dp, ep⟩ := factor_step hF rad u2 (x := b) (X := b) (by rw [hr, mul_one]) (by
    have t1 : (8 : ℝ) ≤ 2 ^ (900 : ℤ) * 2 ^ (-30 : ℤ) := by norm_num
    have t2 := mul_le_mul_of_nonneg_left hu2.1 (show (0 : ℝ) ≤ 2 ^ (900 : ℤ) by positivity)
    refine le_trans ?_ (t1.trans t2)
    have := mul_le_mul hb (show 1 + ε ≤ 2 by linarith) (by linarith) (by norm_num)
    linarith)
  have P : |(p : ℝ) * len u2 - b| ≤ 4 * castErr ε + unit53 / 1000 := by
    have := mul_le_mul_of_nonneg_right hb E0
    exact ep.trans (add_le_add this hL)
  have P1 : |(p : ℝ) * len u2| ≤ 41 / 10 := by
    have := abs_sub_abs_le_abs_sub ((p : ℝ) * len u2) b
    linarith
  have P2 : |(p : ℝ)| ≤ 2 ^ (40 : ℤ) := by
    have h3 : |(p : ℝ)| * 2 ^ (-30 : ℤ) ≤ 41 / 10 := by
      refine le_trans (mul_le_mul_of_nonneg_left hu2.1 (abs_nonneg _)) ?_
      rw [← abs_of_pos L0, ← abs_mul]
      exact P1
    have h4 : |(p : ℝ)| * 2 ^ (-30 : ℤ) ≤ 2 ^ (40 : ℤ) * 2 ^ (-30 : ℤ) := h3.trans (by norm_num)
    exact le_of_mul_le_mul_right h4 (by positivity)
  obtain ⟨m, hm, dm, em⟩ := scaled_near (x := p) (k := c) (by
    rw [abs_mul]
    exact (mul_le_mul P2 c1 (abs_nonneg _) (by positivity)).trans (by norm_num))
  have M : |(m : ℝ) * len u2 - p * len u2 * c| ≤ 5 * unit53 := by
    have e : (m : ℝ) * len u2 - p * len u2 * c = (m - p * c) * len u2 := by ring
    rw [e, abs_mul, abs_of_pos L0]
    have t1 := mul_le_mul_of_nonneg_right em L0.le
    have t2 : |(p : ℝ) * c| * len u2 ≤ 42 / 10 := by
      rw [← abs_of_pos L0, ← abs_mul, show (p : ℝ) * c * len u2 = p * len u2 * c by ring, abs_mul]
      exact (mul_le_mul P1 c1 (abs_nonneg _) (by norm_num)).trans (by norm_num)
    have t3 := mul_le_mul_of_nonneg_right t2 u0.le
    clear P P1 P2 ec c1 hp
    generalize (2 : ℝ) ^ (-1075 : ℤ) = η at *
    linarith
  have M1 : |(m : ℝ) * len u2| ≤ 43 / 10 := by
    have t1 := abs_sub_abs_le_abs_sub ((m : ℝ) * len u2) (p * len u2 * c)
    have t2 : |(p : ℝ) * len u2 * c| ≤ 42 / 10 := by
      rw [abs_mul]
      exact (mul_le_mul P1 c1 (abs_nonneg _) (by norm_num)).trans (by norm_num)
    linarith
  obtain ⟨q, hq, dq, eq⟩ := factor_step hF u2 rad (x := m) rfl (by
    rw [hr, mul_one]
    have t1 : (9 : ℝ) ≤ 2 ^ (900 : ℤ) := by norm_num
    have := mul_le_mul M1 (show 1 + ε ≤ 2 by linarith) (by linarith) (by norm_num)
    linarith)
  rw [hr, mul_one, mul_one] at eq
  have Q : |(q : ℝ) - m * len u2| ≤ 44 / 10 * castErr ε + unit53 / 1000 := by
    have t1 := mul_le_mul_of_nonneg_right M1 E0
    have t2 : (2 : ℝ) ^ (-1075 : ℤ) ≤ unit53 / 1000 := by norm_num [unit53]
    exact eq.trans (add_le_add (t1.trans (by linarith)) t2)
  refine ⟨q, by rw [hp, ka, hc, hm, hq], dq, ?_⟩
  have e : (q : ℝ) - b * Real.cos a = (q - m * len u2) + (m * len u2 - p * len u2 * c) + (p * len u2 - b) * c + b * (c - Real.cos a) := by ring
  have t1 : |((p : ℝ) * len u2 - b) * c| ≤ (4 * castErr ε + unit53 / 1000) * (1001 / 1000) := by
    rw [abs_mul]
    exact mul_le_mul P c1 (abs_nonneg _) (by linarith)
  have t2 : |(b : ℝ) * (c - Real.cos a)| ≤ 4 * (32 * ε + 34 * unit53) := by
    rw [abs_mul]
    exact mul_le_mul hb ec2 (abs_nonneg _) (by norm_num)
  rw [e]
  refine (abs_add_le _ _).trans ?_
  have t3 := abs_add_le ((q : ℝ) - m * len u2 + (m * len u2 - p * len u2 * c)) ((p * len u2 - b) * c)
  have t4 := abs_add_le ((q : ℝ) - m * len u2) (m * len u2 - p * len u2 * c)
  linarith

theorem middle_near (hF : AccurateFactors len F ε) {u : U} {R R' : ℝ} (h : UsualLength len u R) (h1 : |R| / 2 ≤ |R'|) (h2 : |R'| ≤ 2 * |R|) : Ordinary len u R' := by
  have L0 := hF.positive u
  right
  have t1 := mul_le_mul_of_nonneg_right (show 2 * (2 : ℝ) ^ (-400 : ℤ) ≤ 2 ^ (-390 : ℤ) by norm_num) L0.le
  have t2 := mul_le_mul_of_nonneg_right (show 2 * (2 : ℝ) ^ (390 : ℤ) ≤ 2 ^ (400 : ℤ) by norm_num) L0.le
  obtain ⟨m1, m2⟩ := h
  generalize (2 : ℝ) ^ (-400 : ℤ) = α at *
  generalize (2 : ℝ) ^ (-390 : ℤ) = β at *
  generalize (2 : ℝ) ^ (390 : ℤ) = γ at *
  generalize (2 : ℝ) ^ (400 : ℤ) = δ at *
  constructor <;> linarith

theorem middle_number (hF : AccurateFactors len F ε) {u : U} {r : ℝ} (h : UsualLength len u (r * len u)) : 2 ^ (-390 : ℤ) ≤ |r| ∧ |r| ≤ 2 ^ (390 : ℤ) := by
  have L0 := hF.positive u
  obtain ⟨m1, m2⟩ := h
  rw [abs_mul, abs_of_pos L0] at m1 m2
  exact ⟨le_of_mul_le_mul_right m1 L0, le_of_mul_le_mul_right m2 L0⟩

/-- The distance of a nearby position. -/
theorem near_length {a b r a' b' r' e : ℝ} (h : chord (position .spherical a' b' r') (position .spherical a b r) ≤ |r| * e) (he : e ≤ 1 / 100) :
    |r| / 2 ≤ |r'| ∧ |r'| ≤ 101 / 100 * |r| := by
  have s1 := size_sub (position .spherical a' b' r') (position .spherical a b r)
  have s2 := size_sub (position .spherical a b r) (position .spherical a' b' r')
  rw [chord_comm] at s2
  rw [position_size .spherical (by decide), position_size .spherical (by decide)] at s1 s2
  have := mul_le_mul_of_nonneg_left he (abs_nonneg r)
  constructor <;> linarith

theorem sphere_axis (a b r : ℝ) : √((position .spherical a b r) 0 ^ 2 + (position .spherical a b r) 1 ^ 2) = |r| * |Real.sin b| := by
  rw [← abs_mul, ← Real.sqrt_sq_eq_abs]
  congr 1
  have := Real.sin_sq_add_cos_sq a
  simp only [position, Matrix.cons_val_zero, Matrix.cons_val_one]
  linear_combination (r * Real.sin b) ^ 2 * this

/-- The conversion to radians and back once more, of coordinates near those wanted. -/
theorem rebuilt {T : Trig} {I : InverseTrig} (hT : Accurate T) (hI : AccurateInverse I) (hz : ShortAzimuth I) (junk : Dbl) (h0 : 0 ≤ ε) (h1 : ε ≤ 2 ^ (-20 : ℤ))
    {a q r : ℚ} {t : ℝ} (da : IsDouble a) (dq : IsDouble q) (dr : IsDouble r) (eq : |(q : ℝ) - t| ≤ 140 * ε + 160 * unit53)
    (lo : (2 : ℝ) ^ (-460 : ℤ) ≤ |(r : ℝ)|) (hi : |(r : ℝ)| ≤ 2 ^ (480 : ℤ)) :
    ∃ a' b' r' : ℚ, DSph.ofPoint T I junk .spherical .spherical ⟨.num a, .num q, .num r⟩ = ⟨.num a', .num b', .num r'⟩ ∧ IsDouble a' ∧ IsDouble b' ∧ IsDouble r' ∧
      |(a' : ℝ)| ≤ 4 ∧ |(b' : ℝ)| ≤ 4 ∧
      chord (position .spherical a' b' r') (position .spherical a t r) ≤ |(r : ℝ)| * (276 * ε + 326 * unit53 + 7 / 8 * 2 ^ (-23 : ℤ)) ∧
      (1 / 3 ≤ |Real.sin t| → chord (position .spherical a' b' r') (position .spherical a t r) ≤ |(r : ℝ)| * (276 * ε + 506 * unit53)) := by
  have u0 := unit53_pos
  have h2 : ε ≤ 1 / 1000000 := h1.trans (by norm_num)
  have R0 := abs_nonneg (r : ℝ)
  have sz : size (position .spherical a t r) = |(r : ℝ)| := position_size .spherical (by decide) _ _ _
  have sz' : size (position .spherical a q r) = |(r : ℝ)| := position_size .spherical (by decide) _ _ _
  have close := position_close (s := .spherical) (by decide) (r := r) (show |(a : ℝ) - a| ≤ 0 by simp) eq
  have c1 := chord_le_of (close 0) (close 1) (close 2)
  obtain ⟨x, y, z, hc, ec⟩ := cartesian_chord hT (s := .spherical) (p := ⟨.num a, .num q, .num r⟩) ⟨a, q, r, rfl, da, dq, dr, rfl⟩
    (by rw [sz']; exact le_trans (by norm_num) lo) (by rw [sz']; exact hi.trans (by norm_num))
  rw [sz'] at ec
  have mu : |(r : ℝ)| * unit53 ≤ |(r : ℝ)| * (1 / 1000000) := mul_le_mul_of_nonneg_left (by norm_num [unit53]) R0
  have mε : |(r : ℝ)| * ε ≤ |(r : ℝ)| * (1 / 1000000) := mul_le_mul_of_nonneg_left h2 R0
  have me0 := mul_nonneg R0 h0
  have mu0 := mul_nonneg R0 u0.le
  have tri := chord_triangle (vec x y z) (position .spherical a q r) (position .spherical a t r)
  have hE : chord (vec x y z) (position .spherical a t r) ≤ |(r : ℝ)| * (245 * ε + 289 * unit53) := by linarith
  obtain ⟨w, hw, w1, w2⟩ := back_exact_near hI junk (s := .spherical) hc (W := position .spherical a t r) hE (by rw [sz]; linarith)
    (by rw [sz]; exact le_trans (by norm_num) lo) (by rw [sz]; exact hi.trans (by norm_num))
  rw [sz] at w1 w2
  obtain ⟨a', b', r', hp, da', db', dr', rfl⟩ := hw
  have n1 := size_sub (vec x y z) (position .spherical a t r)
  have n2 := size_sub (position .spherical a t r) (vec x y z)
  rw [chord_comm] at n2
  rw [sz] at n1 n2
  obtain ⟨-, b1, b2⟩ := polar_range hI junk hc (by
      have t1 : (2 : ℝ) ^ (-480 : ℤ) ≤ 2 ^ (-460 : ℤ) / 2 := by norm_num
      refine t1.trans ?_
      clear hi w1 w2
      generalize (2 : ℝ) ^ (-460 : ℤ) = δ at *
      linarith) (by
      have t1 : 2 * (2 : ℝ) ^ (480 : ℤ) ≤ 2 ^ (500 : ℤ) := by norm_num
      refine le_trans ?_ t1
      clear lo w1 w2
      generalize (2 : ℝ) ^ (480 : ℤ) = δ at *
      linarith) hp
  refine ⟨a', b', r', hp, da', db', dr', hz _ _ _ (congrArg DSph.c0 hp), ?_, w1.trans ?_, fun hs => (w2 ?_).trans ?_⟩
  · have p := Real.pi_lt_d2
    have s : (2 : ℝ) ^ (-52 : ℤ) ≤ 1 / 100 := by norm_num
    rw [abs_le]
    norm_num at p
    clear hE w1 w2 lo hi
    generalize (2 : ℝ) ^ (-52 : ℤ) = δ at *
    constructor <;> linarith
  · clear lo hi w1 w2
    generalize (2 : ℝ) ^ (-23 : ℤ) = δ
    linarith
  · rw [sphere_axis]
    have := mul_le_mul_of_nonneg_left hs R0
    linarith
  · linarith

/-- Positions in another unit. -/
theorem scaled_chord {s s' : Coord.System} (hs : s ≠ .cartesian) (hs' : s' ≠ .cartesian) {L : ℝ} (hL : 0 < L) (a b r a' b' r' : ℝ) :
    chord (position s a b (r * L)) (position s' a' b' (r' * L)) = L * chord (position s a b r) (position s' a' b' r') := by
  rw [mul_comm r, mul_comm r', ← position_smul s hs, ← position_smul s' hs', chord_smul, abs_of_pos hL]

/-- The conversion constructor of something in radians. -/
theorem convert_same (hF : AccurateFactors len F ε) {a b r : ℚ} (da : IsDouble a) (db : IsDouble b) (dr : IsDouble r) (u1 u2 u3 : U) :
    QSph.convert F rad u1 u2 u3 ⟨⟨.num a, .num b, .num r⟩, rad, rad, u3⟩ = ⟨⟨.num a, .num b, .num r⟩, u1, u2, u3⟩ := by
  simp only [QSph.convert, radians_same hF da, radians_same hF db, factor_same hF _ dr]

end Astro
