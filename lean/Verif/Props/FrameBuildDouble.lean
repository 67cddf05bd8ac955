import Verif.Lemmas.FrameBuildDouble

/-
C140: frames made of representations and differentials in double arithmetic.
-/

set_option exponentiation.threshold 3000

namespace Astro

open Spec Time

attribute [local irreducible] FloatFmt.nearest FloatFmt.value Dbl.round

variable {U : Type} {len : U → ℝ} {F : Factors U} {rad : U} {ε : ℝ}

/-- The quantities of an object whose units are changed. -/
theorem units_changed (hF : AccurateFactors len F ε) (hr : len rad = 1) (h0 : 0 ≤ ε) (h1 : ε ≤ 2 ^ (-20 : ℤ)) {A : QSph U} {w1 w2 w3 : U}
    (hA : AngleUnit len A.u1 ∧ AngleUnit len A.u2) (hw : AngleUnit len w1 ∧ AngleUnit len w2) {x y R : ℝ}
    (h : Contains len A x y R) (hx : |x| ≤ 2 ^ (300 : ℤ)) (hy : |y| ≤ 2 ^ (300 : ℤ)) (hR : |R| ≤ 2 ^ (800 : ℤ) * len w3) :
    ∃ x' y' R', Contains len (A.changeUnits F rad w1 w2 w3) x' y' R' ∧ |x' - x| ≤ |x| * (4 * ε + 2 ^ (-51 : ℤ)) + 2 ^ (-1040 : ℤ) ∧
      |y' - y| ≤ |y| * (4 * ε + 2 ^ (-51 : ℤ)) + 2 ^ (-1040 : ℤ) ∧ |R' - R| ≤ |R| * (ε + 2 ^ (-52 : ℤ)) + 2 ^ (-1075 : ℤ) * len w3 := by
  obtain ⟨p, q, r, e, dp, dq, dr, rfl, rfl, rfl⟩ := h
  have h2 : ε ≤ 1 / 1000000 := h1.trans (by norm_num)
  have u0 := unit53_pos
  obtain ⟨p', hp, dp', ep⟩ := angle_cast hF hr h0 h1 hA.1 hw.1 hx
  obtain ⟨q', hq, dq', eq⟩ := angle_cast hF hr h0 h1 hA.2 hw.2 hy
  obtain ⟨r', hr', dr', er⟩ := factor_step hF A.u3 w3 (x := r) rfl (by
    have L0 := hF.positive w3
    have t1 := mul_le_mul hR (show 1 + ε ≤ 2 by linarith) (by linarith) (by positivity)
    refine t1.trans ?_
    rw [show (2 : ℝ) ^ (800 : ℤ) * len w3 * 2 = (2 ^ (800 : ℤ) * 2) * len w3 by ring]
    exact mul_le_mul_of_nonneg_right (by norm_num) L0.le)
  refine ⟨p', q', r' * len w3, ⟨p', q', r', ?_, dp', dq', dr', rfl, rfl, rfl⟩, ep, eq, er.trans (add_le_add (mul_le_mul_of_nonneg_left ?_ (abs_nonneg _)) le_rfl)⟩
  · show DSph.mk _ _ _ = _
    rw [e]
    show DSph.mk (castAngle F rad A.u1 w1 (.num p)) (castAngle F rad A.u2 w2 (.num q)) ((Dbl.num r).mul (F A.u3 w3)) = _
    rw [hp, hq, hr']
  · have := castErr_le (ε := ε) (by linarith)
    rw [show (2 : ℝ) ^ (-52 : ℤ) = 2 * unit53 by norm_num [unit53]]
    linarith

/-- **C140.** A frame made of a spherical representation has the units of the frame, and its quantities are those of the representation up to the errors of the
factors and the roundings: three conversions for an angle, one for the distance. -/
theorem C140_quantities (hF : AccurateFactors len F ε) (hr : len rad = 1) (h0 : 0 ≤ ε) (h1 : ε ≤ 2 ^ (-20 : ℤ)) (T : Trig) (I : InverseTrig) (junk : Dbl) (f : QFrame U)
    (A : QSph U) (hA : AngleUnit len A.u1 ∧ AngleUnit len A.u2) (hf : AngleUnit len f.data.u1 ∧ AngleUnit len f.data.u2) (x y R : ℝ)
    (h : Contains len A x y R) (hx : |x| ≤ 2 ^ (300 : ℤ)) (hy : |y| ≤ 2 ^ (300 : ℤ)) (hR : |R| ≤ 2 ^ (800 : ℤ) * len f.data.u3) :
    ∀ g, g = QFrame.ofRep F rad T I junk f .spherical A → g.motion = f.motion ∧ g.data.u1 = f.data.u1 ∧ g.data.u2 = f.data.u2 ∧ g.data.u3 = f.data.u3 ∧
      ∃ x' y' R', Contains len g.data x' y' R' ∧ |x' - x| ≤ |x| * (4 * ε + 2 ^ (-51 : ℤ)) + 2 ^ (-1040 : ℤ) ∧
        |y' - y| ≤ |y| * (4 * ε + 2 ^ (-51 : ℤ)) + 2 ^ (-1040 : ℤ) ∧ |R' - R| ≤ |R| * (ε + 2 ^ (-52 : ℤ)) + 2 ^ (-1075 : ℤ) * len f.data.u3 := by
  rintro g rfl
  exact ⟨rfl, rfl, rfl, rfl, units_changed hF hr h0 h1 hA hf h hx hy hR⟩

/-- **C140.** A coslat differential given to a frame: the same for the proper motion and the radial velocity. -/
theorem C140_coslat (hF : AccurateFactors len F ε) (hr : len rad = 1) (h0 : 0 ≤ ε) (h1 : ε ≤ 2 ^ (-20 : ℤ)) (T : Trig) (I : InverseTrig) (junk : Dbl) (f : QFrame U)
    (s : Coord.System) (B A : QSph U) (hA : AngleUnit len A.u1 ∧ AngleUnit len A.u2) (hf : AngleUnit len f.motion.u1 ∧ AngleUnit len f.motion.u2) (x y R : ℝ)
    (h : Contains len A x y R) (hx : |x| ≤ 2 ^ (300 : ℤ)) (hy : |y| ≤ 2 ^ (300 : ℤ)) (hR : |R| ≤ 2 ^ (800 : ℤ) * len f.motion.u3) :
    ∀ g, g = QFrame.ofRepDiff F rad T I junk f s B (.coslat A) → g.data = (QFrame.ofRep F rad T I junk f s B).data ∧
      g.motion.u1 = f.motion.u1 ∧ g.motion.u2 = f.motion.u2 ∧ g.motion.u3 = f.motion.u3 ∧
      ∃ x' y' R', Contains len g.motion x' y' R' ∧ |x' - x| ≤ |x| * (4 * ε + 2 ^ (-51 : ℤ)) + 2 ^ (-1040 : ℤ) ∧
        |y' - y| ≤ |y| * (4 * ε + 2 ^ (-51 : ℤ)) + 2 ^ (-1040 : ℤ) ∧ |R' - R| ≤ |R| * (ε + 2 ^ (-52 : ℤ)) + 2 ^ (-1075 : ℤ) * len f.motion.u3 := by
  rintro g rfl
  exact ⟨rfl, rfl, rfl, rfl, units_changed hF hr h0 h1 hA hf h hx hy hR⟩

/-- **C140.** In radians nothing is rounded: representation and differential with the units of the frame are stored as they are. -/
theorem C140_radians (hF : AccurateFactors len F ε) (T : Trig) (I : InverseTrig) (junk : Dbl) (f : QFrame U) (A B : QSph U) (x y R x' y' R' : ℝ)
    (hA : Contains len A x y R) (hB : Contains len B x' y' R') (a1 : A.u1 = rad ∧ A.u2 = rad) (b1 : B.u1 = rad ∧ B.u2 = rad)
    (f1 : f.data.u1 = rad ∧ f.data.u2 = rad ∧ f.data.u3 = A.u3) (f2 : f.motion.u1 = rad ∧ f.motion.u2 = rad ∧ f.motion.u3 = B.u3) :
    (QFrame.ofRepDiff F rad T I junk f .spherical A (.coslat B)).data = A ∧ (QFrame.ofRepDiff F rad T I junk f .spherical A (.coslat B)).motion = B := by
  have key : ∀ (A : QSph U) (x y R : ℝ), Contains len A x y R → A.u1 = rad ∧ A.u2 = rad → A.changeUnits F rad rad rad A.u3 = A := by
    rintro ⟨p, u1, u2, u3⟩ x y R ⟨a, b, r, rfl, da, db, dr, -, -, -⟩ ⟨rfl, h⟩
    dsimp only at h
    subst h
    simp only [QSph.changeUnits, castAngle, factor_same hF _ da, factor_same hF _ db, factor_same hF _ dr]
  constructor
  · show A.changeUnits F rad f.data.u1 f.data.u2 f.data.u3 = A
    rw [f1.1, f1.2.1, f1.2.2]
    exact key A _ _ _ hA a1
  · show B.changeUnits F rad f.motion.u1 f.motion.u2 f.motion.u3 = B
    rw [f2.1, f2.2.1, f2.2.2]
    exact key B _ _ _ hB b1

/-- **C140.** The position of a frame made of a spherical representation. -/
theorem C140_spherical (hF : AccurateFactors len F ε) (hr : len rad = 1) (h0 : 0 ≤ ε) (h1 : ε ≤ 2 ^ (-20 : ℤ)) (T : Trig) (I : InverseTrig) (junk : Dbl) (f : QFrame U)
    (A : QSph U) (hA : AngleUnit len A.u1 ∧ AngleUnit len A.u2) (hf : AngleUnit len f.data.u1 ∧ AngleUnit len f.data.u2) (x y R : ℝ)
    (h : Contains len A x y R) (hx : |x| ≤ 8) (hy : |y| ≤ 8) (hR : Ordinary len f.data.u3 R) :
    ∃ x' y' R', Contains len (QFrame.ofRep F rad T I junk f .spherical A).data x' y' R' ∧
      chord (position .spherical x' y' R') (position .spherical x y R) ≤ |R| * (120 * ε + 2 ^ (-45 : ℤ)) := by
  obtain ⟨p, q, r, e, dp, dq, dr, rfl, rfl, rfl⟩ := h
  obtain ⟨x', y', R', c, -, ch⟩ := changed hF hr h0 h1 (s := .spherical) (by decide) (A := A) (w3 := f.data.u3) ⟨hA.1, hA.2, hf.1, hf.2⟩ e hx hy hR
  exact ⟨x', y', R', c, ch⟩

/-- **C140.** The position of a frame made of an equatorial representation, which goes through Cartesian coordinates twice. -/
theorem C140_equatorial (hF : AccurateFactors len F ε) (hr : len rad = 1) (h0 : 0 ≤ ε) (h1 : ε ≤ 2 ^ (-20 : ℤ)) {T : Trig} {I : InverseTrig} (hT : Accurate T)
    (hI : AccurateInverse I) (hz : ShortAzimuth I) (junk : Dbl) (f : QFrame U) (A : QSph U) (hA : AngleUnit len A.u1 ∧ AngleUnit len A.u2)
    (hf : AngleUnit len f.data.u1 ∧ AngleUnit len f.data.u2) (x y R : ℝ) (h : Contains len A x y R) (hR : UsualLength len A.u3 R) (hR' : UsualLength len f.data.u3 R) :
    ∃ x' y' R', Contains len (QFrame.ofRep F rad T I junk f .equatorial A).data x' y' R' ∧
      chord (position .spherical x' y' R') (position .equatorial x y R) ≤ |R| * (122 * ε + 2 ^ (-21 : ℤ)) ∧
      (1 / 3 ≤ |Real.cos y| → chord (position .spherical x' y' R') (position .equatorial x y R) ≤ |R| * (122 * ε + 2 ^ (-43 : ℤ))) := by
  obtain ⟨p, q, r, e, dp, dq, dr, rfl, rfl, rfl⟩ := h
  have u0 := unit53_pos
  have h2 : ε ≤ 1 / 1000000 := h1.trans (by norm_num)
  have L0 := hF.positive A.u3
  obtain ⟨lo, hi⟩ := middle_number hF hR
  have R0 := abs_nonneg (r : ℝ)
  have sz : size (position .equatorial p q r) = |(r : ℝ)| := position_size .equatorial (by decide) _ _ _
  obtain ⟨c0, c1, c2, hc, ec⟩ := cartesian_chord hT (s := .equatorial) (p := A.p) ⟨p, q, r, e, dp, dq, dr, rfl⟩
    (by rw [sz]; exact le_trans (by norm_num) lo) (by rw [sz]; exact hi.trans (by norm_num))
  have m0 := mul_nonneg R0 u0.le
  obtain ⟨a, b, t, hm, da, db, dt, -, b1, b2, ch1, ch2⟩ := made_near hT hI junk hc (W := position .equatorial p q r) (by rw [sz] at ec ⊢; linarith)
    (by rw [sz]; exact le_trans (by norm_num) lo) (by rw [sz]; exact hi.trans (by norm_num))
  rw [sz] at ch1 ch2
  have ha : |(a : ℝ)| ≤ 8 := (hz _ _ _ (congrArg DSph.c0 hm)).trans (by norm_num)
  have hb : |(b : ℝ)| ≤ 8 := by
    have p := Real.pi_lt_d2
    have s : (2 : ℝ) ^ (-52 : ℤ) ≤ 1 / 100 := by norm_num
    rw [abs_le]
    norm_num at p
    clear ec ch1 ch2 lo hi
    generalize (2 : ℝ) ^ (-52 : ℤ) = δ at *
    constructor <;> linarith
  have q1 : |(r : ℝ)| / 2 ≤ |(t : ℝ)| ∧ |(t : ℝ)| ≤ 101 / 100 * |(r : ℝ)| := by
    have s1 := size_sub (position .spherical a b t) (position .equatorial p q r)
    have s2 := size_sub (position .equatorial p q r) (position .spherical a b t)
    rw [chord_comm] at s2
    rw [position_size .spherical (by decide), position_size .equatorial (by decide)] at s1 s2
    have := ch1.trans (mul_le_mul_of_nonneg_left (show (2 : ℝ) ^ (-22 : ℤ) ≤ 1 / 100 by norm_num) R0)
    clear ch1 ch2 ec
    constructor <;> linarith
  have abL : ∀ z : ℝ, |z * len A.u3| = |z| * len A.u3 := fun z => by rw [abs_mul, abs_of_pos L0]
  have q2 : |(r : ℝ) * len A.u3| / 2 ≤ |(t : ℝ) * len A.u3| ∧ |(t : ℝ) * len A.u3| ≤ 101 / 100 * |(r : ℝ) * len A.u3| := by
    rw [abL, abL]
    have k1 := mul_le_mul_of_nonneg_right q1.1 L0.le
    have k2 := mul_le_mul_of_nonneg_right q1.2 L0.le
    constructor <;> linarith
  have RL := abs_nonneg ((r : ℝ) * len A.u3)
  obtain ⟨x', y', R', hC, -, cg⟩ := changed hF hr h0 h1 (s := .spherical) (by decide) (A := ⟨⟨.num a, .num b, .num t⟩, A.u1, A.u2, A.u3⟩) (w3 := f.data.u3)
    ⟨hA.1, hA.2, hf.1, hf.2⟩ rfl ha hb (middle_near hF hR' q2.1 (q2.2.trans (by linarith)))
  have cg' : chord (position .spherical x' y' R') (position .spherical a b (t * len A.u3)) ≤ |(r : ℝ) * len A.u3| * (122 * ε + 260 * unit53) := by
    refine cg.trans ?_
    have k := mul_le_mul_of_nonneg_right q2.2 (show (0 : ℝ) ≤ 120 * ε + 2 ^ (-45 : ℤ) by positivity)
    refine k.trans ?_
    rw [show (2 : ℝ) ^ (-45 : ℤ) = 256 * unit53 by norm_num [unit53]]
    have k1 := mul_nonneg RL h0
    have k2 := mul_nonneg RL u0.le
    clear cg ch1 ch2 b1 b2 hi lo
    linarith
  have tri := chord_triangle (position .spherical x' y' R') (position .spherical a b (t * len A.u3)) (position .equatorial p q (r * len A.u3))
  rw [scaled_chord (by decide) (by decide) L0] at tri
  have fin : ∀ c η : ℝ, chord (position .spherical a b t) (position .equatorial p q r) ≤ |(r : ℝ)| * c → c + 260 * unit53 ≤ η →
      chord (position .spherical x' y' R') (position .equatorial p q (r * len A.u3)) ≤ |(r : ℝ) * len A.u3| * (122 * ε + η) := by
    intro c η hc hη
    have k1 := mul_le_mul_of_nonneg_left hc L0.le
    have k2 := mul_le_mul_of_nonneg_left hη RL
    rw [abL] at k2 cg' ⊢
    clear cg ch1 ch2 b1 b2 hi lo ec
    linarith
  refine ⟨x', y', R', ?_, fin _ _ ch1 (by norm_num [unit53]), fun hs => fin _ _ (ch2 ?_) (by norm_num [unit53])⟩
  · have e2 : (QFrame.ofRep F rad T I junk f .equatorial A).data =
        (QSph.convert F rad A.u1 A.u2 A.u3 ⟨(A.p.toCartesian T .equatorial).makeAngular T I junk .spherical, rad, rad, A.u3⟩).changeUnits F rad f.data.u1 f.data.u2 f.data.u3 := rfl
    rw [e2, hm, convert_same hF da db dt]
    exact hC
  · have e3 : √((position .equatorial p q r) 0 ^ 2 + (position .equatorial p q r) 1 ^ 2) = |(r : ℝ)| * |Real.cos q| := by
      rw [← abs_mul, ← Real.sqrt_sq_eq_abs]
      congr 1
      have := Real.sin_sq_add_cos_sq (p : ℝ)
      simp only [position, Matrix.cons_val_zero, Matrix.cons_val_one]
      linear_combination ((r : ℝ) * Real.cos q) ^ 2 * this
    rw [e3]
    have := mul_le_mul_of_nonneg_left hs R0
    linarith

/-- The motion a frame makes of spherical coordinates of a differential. -/
theorem plain_motion (hF : AccurateFactors len F ε) (hr : len rad = 1) (h0 : 0 ≤ ε) (h1 : ε ≤ 2 ^ (-20 : ℤ)) {T : Trig} {I : InverseTrig} (hT : Accurate T)
    (hI : AccurateInverse I) (hz : ShortAzimuth I) (junk : Dbl) {a b r : ℚ} (da : IsDouble a) (dr : IsDouble r) (ha : |(a : ℝ)| ≤ 8) (hb : |(b : ℝ)| ≤ 4)
    {t1 t2 u1 u2 u3 w1 w2 w3 : U} (ht : AngleUnit len t1 ∧ AngleUnit len t2) (hu : AngleUnit len u1 ∧ AngleUnit len u2) (hw : AngleUnit len w1 ∧ AngleUnit len w2)
    (lo : (2 : ℝ) ^ (-460 : ℤ) ≤ |(r : ℝ)|) (hi : |(r : ℝ)| ≤ 2 ^ (480 : ℤ)) (hR' : UsualLength len w3 (r * len u3)) :
    ∃ x' y' R', Contains len ((QSph.convert F rad u1 u2 u3 ⟨DSph.ofPoint T I junk .spherical .spherical ⟨.num a,
          (((Dbl.num b).mul (F rad t2)).mul (T.cos (toRadians F rad t1 (.num a)))).mul (F t2 rad), .num r⟩, rad, rad, u3⟩).changeUnits F rad w1 w2 w3) x' y' R' ∧
      chord (position .spherical x' y' R') (position .spherical a (b * Real.cos a) (r * len u3)) ≤ |r * len u3| * (400 * ε + 2 ^ (-23 : ℤ)) ∧
      (1 / 3 ≤ |Real.sin (b * Real.cos a)| →
        chord (position .spherical x' y' R') (position .spherical a (b * Real.cos a) (r * len u3)) ≤ |r * len u3| * (400 * ε + 2 ^ (-43 : ℤ))) := by
  have u0 := unit53_pos
  have h2 : ε ≤ 1 / 1000000 := h1.trans (by norm_num)
  have L0 := hF.positive u3
  obtain ⟨q, hq, dq, eq⟩ := weighted hF hr h0 h1 hT ht.1 ht.2 da ha hb
  obtain ⟨a', b', r', hp, da', db', dr', A4, B4, ch1, ch2⟩ := rebuilt hT hI hz junk h0 h1 da dq dr eq lo hi
  rw [hq, hp, convert_same hF da' db' dr']
  have R0 := abs_nonneg (r : ℝ)
  have abL : ∀ z : ℝ, |z * len u3| = |z| * len u3 := fun z => by rw [abs_mul, abs_of_pos L0]
  have q1 := near_length ch1 (by
    have k1 : 7 / 8 * (2 : ℝ) ^ (-23 : ℤ) ≤ 1 / 1000 := by norm_num
    have k2 : unit53 ≤ 1 / 1000000 := by norm_num [unit53]
    clear ch1 ch2
    linarith)
  have q2 : |(r : ℝ) * len u3| / 2 ≤ |(r' : ℝ) * len u3| ∧ |(r' : ℝ) * len u3| ≤ 101 / 100 * |(r : ℝ) * len u3| := by
    rw [abL, abL]
    have k1 := mul_le_mul_of_nonneg_right q1.1 L0.le
    have k2 := mul_le_mul_of_nonneg_right q1.2 L0.le
    constructor <;> linarith
  have RL := abs_nonneg ((r : ℝ) * len u3)
  obtain ⟨x', y', R', hC, -, cg⟩ := changed hF hr h0 h1 (s := .spherical) (by decide) (A := ⟨⟨.num a', .num b', .num r'⟩, u1, u2, u3⟩) (w3 := w3)
    ⟨hu.1, hu.2, hw.1, hw.2⟩ rfl (A4.trans (by norm_num)) (B4.trans (by norm_num)) (middle_near hF hR' q2.1 (q2.2.trans (by linarith)))
  have cg' : chord (position .spherical x' y' R') (position .spherical a' b' (r' * len u3)) ≤ |(r : ℝ) * len u3| * (122 * ε + 260 * unit53) := by
    refine cg.trans ?_
    have k := mul_le_mul_of_nonneg_right q2.2 (show (0 : ℝ) ≤ 120 * ε + 2 ^ (-45 : ℤ) by positivity)
    refine k.trans ?_
    rw [show (2 : ℝ) ^ (-45 : ℤ) = 256 * unit53 by norm_num [unit53]]
    have k1 := mul_nonneg RL h0
    have k2 := mul_nonneg RL u0.le
    clear cg ch1 ch2 hi lo
    linarith
  have tri := chord_triangle (position .spherical x' y' R') (position .spherical a' b' (r' * len u3)) (position .spherical a (b * Real.cos a) (r * len u3))
  rw [scaled_chord (by decide) (by decide) L0] at tri
  have fin : ∀ c η : ℝ, chord (position .spherical a' b' r') (position .spherical a (b * Real.cos a) r) ≤ |(r : ℝ)| * (276 * ε + c) → c + 260 * unit53 ≤ η →
      chord (position .spherical x' y' R') (position .spherical a (b * Real.cos a) (r * len u3)) ≤ |(r : ℝ) * len u3| * (400 * ε + η) := by
    intro c η hc hη
    have k1 := mul_le_mul_of_nonneg_left hc L0.le
    have k2 := mul_le_mul_of_nonneg_left hη RL
    have k3 := mul_nonneg RL h0
    rw [abL] at k2 k3 cg' ⊢
    clear cg ch1 ch2 hi lo
    linarith
  exact ⟨x', y', R', hC, fin _ _ (by rw [← add_assoc]; exact ch1) (by norm_num [unit53]), fun hs => fin _ _ (ch2 hs) (by norm_num [unit53])⟩

/-- **C140.** A spherical differential given to a frame: the motion stands for dlat, dlon times the cosine of dlat, and the radial velocity — as a point of space, so
angles out of the usual range come back as others. -/
theorem C140_plain (hF : AccurateFactors len F ε) (hr : len rad = 1) (h0 : 0 ≤ ε) (h1 : ε ≤ 2 ^ (-20 : ℤ)) {T : Trig} {I : InverseTrig} (hT : Accurate T)
    (hI : AccurateInverse I) (hz : ShortAzimuth I) (junk : Dbl) (f : QFrame U) (s : Coord.System) (B A : QSph U) (hA : AngleUnit len A.u1 ∧ AngleUnit len A.u2)
    (hf : AngleUnit len f.motion.u1 ∧ AngleUnit len f.motion.u2) (x y R : ℝ) (h : Contains len A x y R) (hx : |x| ≤ 8) (hy : |y| ≤ 4) (hR : UsualLength len A.u3 R)
    (hR' : UsualLength len f.motion.u3 R) :
    ∃ x' y' R', Contains len (QFrame.ofRepDiff F rad T I junk f s B (.plain .spherical A)).motion x' y' R' ∧
      chord (position .spherical x' y' R') (position .spherical x (y * Real.cos x) R) ≤ |R| * (400 * ε + 2 ^ (-23 : ℤ)) ∧
      (1 / 3 ≤ |Real.sin (y * Real.cos x)| → chord (position .spherical x' y' R') (position .spherical x (y * Real.cos x) R) ≤ |R| * (400 * ε + 2 ^ (-43 : ℤ))) := by
  obtain ⟨p, q, r, e, dp, dq, dr, rfl, rfl, rfl⟩ := h
  obtain ⟨lo, hi⟩ := middle_number hF hR
  have key := plain_motion hF hr h0 h1 hT hI hz junk (a := p) (b := q) (r := r) dp dr hx hy hA hA hf (lo.trans' (by norm_num)) (hi.trans (by norm_num)) hR'
  have e2 : (QFrame.ofRepDiff F rad T I junk f s B (.plain .spherical A)).motion =
      (QSph.convert F rad A.u1 A.u2 A.u3 ⟨DSph.ofPoint T I junk .spherical .spherical ⟨A.p.c0,
          ((A.p.c1.mul (F rad A.u2)).mul (T.cos (toRadians F rad A.u1 A.p.c0))).mul (F A.u2 rad), A.p.c2⟩, rad, rad, A.u3⟩).changeUnits F rad
          f.motion.u1 f.motion.u2 f.motion.u3 := rfl
  rw [e2, e]
  exact key

/-- **C140.** An equatorial differential that stands for `v`: it is first turned into spherical coordinates `a`, `b`, `r` near `v`, and then as above. -/
theorem C140_plain_equatorial (hF : AccurateFactors len F ε) (hr : len rad = 1) (h0 : 0 ≤ ε) (h1 : ε ≤ 2 ^ (-20 : ℤ)) {T : Trig} {I : InverseTrig} (hT : Accurate T)
    (hI : AccurateInverse I) (hz : ShortAzimuth I) (junk : Dbl) (f : QFrame U) (s : Coord.System) (B A : QSph U) (hA : AngleUnit len A.u1 ∧ AngleUnit len A.u2)
    (hf : AngleUnit len f.motion.u1 ∧ AngleUnit len f.motion.u2) (x y R : ℝ) (h : Contains len A x y R) (hR : UsualLength len A.u3 R)
    (hR' : 2 ^ (-380 : ℤ) * len f.motion.u3 ≤ |R| ∧ |R| ≤ 2 ^ (380 : ℤ) * len f.motion.u3) :
    ∃ a b r, chord (position .spherical a b r) (position .equatorial x y R) ≤ |R| * 2 ^ (-22 : ℤ) ∧
      (1 / 3 ≤ |Real.cos y| → chord (position .spherical a b r) (position .equatorial x y R) ≤ |R| * 2 ^ (-44 : ℤ)) ∧
      -2 ^ (-52 : ℤ) ≤ b ∧ b ≤ Real.pi + 2 ^ (-52 : ℤ) ∧
      ∃ x' y' R', Contains len (QFrame.ofRepDiff F rad T I junk f s B (.plain .equatorial A)).motion x' y' R' ∧
        chord (position .spherical x' y' R') (position .spherical a (b * Real.cos a) r) ≤ |r| * (400 * ε + 2 ^ (-23 : ℤ)) ∧
        (1 / 3 ≤ |Real.sin (b * Real.cos a)| → chord (position .spherical x' y' R') (position .spherical a (b * Real.cos a) r) ≤ |r| * (400 * ε + 2 ^ (-43 : ℤ))) := by
  obtain ⟨p, q, r, e, dp, dq, dr, rfl, rfl, rfl⟩ := h
  have u0 := unit53_pos
  have L0 := hF.positive A.u3
  have M0 := hF.positive f.motion.u3
  have hrad : AngleUnit len rad := by rw [AngleUnit, hr]; norm_num
  obtain ⟨lo, hi⟩ := middle_number hF hR
  have R0 := abs_nonneg (r : ℝ)
  have sz : size (position .equatorial p q r) = |(r : ℝ)| := position_size .equatorial (by decide) _ _ _
  obtain ⟨c0, c1, c2, hc, ec⟩ := cartesian_chord hT (s := .equatorial) (p := A.p) ⟨p, q, r, e, dp, dq, dr, rfl⟩
    (by rw [sz]; exact le_trans (by norm_num) lo) (by rw [sz]; exact hi.trans (by norm_num))
  have m0 := mul_nonneg R0 u0.le
  obtain ⟨a, b, t, hm, da, db, dt, -, b1, b2, ch1, ch2⟩ := made_near hT hI junk hc (W := position .equatorial p q r) (by rw [sz] at ec ⊢; linarith)
    (by rw [sz]; exact le_trans (by norm_num) lo) (by rw [sz]; exact hi.trans (by norm_num))
  rw [sz] at ch1 ch2
  have ha : |(a : ℝ)| ≤ 8 := (hz _ _ _ (congrArg DSph.c0 hm)).trans (by norm_num)
  have hb : |(b : ℝ)| ≤ 4 := by
    have p := Real.pi_lt_d2
    have s : (2 : ℝ) ^ (-52 : ℤ) ≤ 1 / 100 := by norm_num
    rw [abs_le]
    norm_num at p
    clear ec ch1 ch2 lo hi
    generalize (2 : ℝ) ^ (-52 : ℤ) = δ at *
    constructor <;> linarith
  have q1 : |(r : ℝ)| / 2 ≤ |(t : ℝ)| ∧ |(t : ℝ)| ≤ 101 / 100 * |(r : ℝ)| := by
    have s1 := size_sub (position .spherical a b t) (position .equatorial p q r)
    have s2 := size_sub (position .equatorial p q r) (position .spherical a b t)
    rw [chord_comm] at s2
    rw [position_size .spherical (by decide), position_size .equatorial (by decide)] at s1 s2
    have := ch1.trans (mul_le_mul_of_nonneg_left (show (2 : ℝ) ^ (-22 : ℤ) ≤ 1 / 100 by norm_num) R0)
    clear ch1 ch2 ec
    constructor <;> linarith
  have abL : ∀ z : ℝ, |z * len A.u3| = |z| * len A.u3 := fun z => by rw [abs_mul, abs_of_pos L0]
  have mid : UsualLength len f.motion.u3 (t * len A.u3) := by
    obtain ⟨m1, m2⟩ := hR'
    rw [abL] at m1 m2
    have k1 := mul_le_mul_of_nonneg_right q1.1 L0.le
    have k2 := mul_le_mul_of_nonneg_right q1.2 L0.le
    have t1 := mul_le_mul_of_nonneg_right (show 2 * (2 : ℝ) ^ (-390 : ℤ) ≤ 2 ^ (-380 : ℤ) by norm_num) M0.le
    have t2 := mul_le_mul_of_nonneg_right (show 2 * (2 : ℝ) ^ (380 : ℤ) ≤ 2 ^ (390 : ℤ) by norm_num) M0.le
    rw [UsualLength, abL]
    clear ch1 ch2 ec lo hi hR b1 b2
    generalize (2 : ℝ) ^ (-390 : ℤ) = α at *
    generalize (2 : ℝ) ^ (-380 : ℤ) = β at *
    generalize (2 : ℝ) ^ (390 : ℤ) = γ at *
    generalize (2 : ℝ) ^ (380 : ℤ) = δ at *
    constructor <;> nlinarith
  have key := plain_motion hF hr h0 h1 hT hI hz junk (u1 := A.u1) (u2 := A.u2) (u3 := A.u3) (w1 := f.motion.u1) (w2 := f.motion.u2) da dt ha hb ⟨hrad, hrad⟩ hA hf (by
      have t1 : (2 : ℝ) ^ (-460 : ℤ) ≤ 2 ^ (-390 : ℤ) / 2 := by norm_num
      exact t1.trans ((div_le_div_of_nonneg_right lo (by norm_num)).trans q1.1)) (by
      have t1 : 101 / 100 * (2 : ℝ) ^ (390 : ℤ) ≤ 2 ^ (480 : ℤ) := by norm_num
      exact q1.2.trans ((mul_le_mul_of_nonneg_left hi (by norm_num)).trans t1)) mid
  have e2 : (QFrame.ofRepDiff F rad T I junk f s B (.plain .equatorial A)).motion =
      (QSph.convert F rad A.u1 A.u2 A.u3 ⟨DSph.ofPoint T I junk .spherical .spherical ⟨((A.p.toCartesian T .equatorial).makeAngular T I junk .spherical).c0,
          ((((A.p.toCartesian T .equatorial).makeAngular T I junk .spherical).c1.mul (F rad rad)).mul
            (T.cos (toRadians F rad rad ((A.p.toCartesian T .equatorial).makeAngular T I junk .spherical).c0))).mul (F rad rad),
          ((A.p.toCartesian T .equatorial).makeAngular T I junk .spherical).c2⟩, rad, rad, A.u3⟩).changeUnits F rad f.motion.u1 f.motion.u2 f.motion.u3 := rfl
  refine ⟨a, b, t * len A.u3, ?_, fun hs => ?_, b1, b2, ?_⟩
  · rw [scaled_chord (by decide) (by decide) L0, abL]
    refine (mul_le_mul_of_nonneg_left ch1 L0.le).trans (le_of_eq ?_)
    ring
  · have e3 : √((position .equatorial p q r) 0 ^ 2 + (position .equatorial p q r) 1 ^ 2) = |(r : ℝ)| * |Real.cos q| := by
      rw [← abs_mul, ← Real.sqrt_sq_eq_abs]
      congr 1
      have := Real.sin_sq_add_cos_sq (p : ℝ)
      simp only [position, Matrix.cons_val_zero, Matrix.cons_val_one]
      linear_combination ((r : ℝ) * Real.cos q) ^ 2 * this
    have k := ch2 (by
      rw [e3]
      have := mul_le_mul_of_nonneg_left hs R0
      linarith)
    rw [scaled_chord (by decide) (by decide) L0, abL]
    have k2 := mul_le_mul_of_nonneg_left k L0.le
    have k3 := mul_nonneg (mul_nonneg R0 L0.le) u0.le
    rw [show (2 : ℝ) ^ (-44 : ℤ) = 512 * unit53 by norm_num [unit53]]
    clear ch1 ch2 ec lo hi
    linarith
  · rw [e2, hm]
    exact key

/-- **C140.** Without radial velocity the proper motion of a spherical differential is lost: all of them give the same motion. -/
theorem C140_lost (hF : AccurateFactors len F ε) (hr : len rad = 1) (h0 : 0 ≤ ε) (h1 : ε ≤ 2 ^ (-20 : ℤ)) {T : Trig} (hT : Accurate T) (I : InverseTrig) (junk : Dbl)
    (f : QFrame U) (s : Coord.System) (B A A' : QSph U) (hA : AngleUnit len A.u1 ∧ AngleUnit len A.u2) (hu : A'.u1 = A.u1 ∧ A'.u2 = A.u2 ∧ A'.u3 = A.u3)
    (x y x' y' : ℝ) (h : Contains len A x y 0) (h' : Contains len A' x' y' 0) (hx : |x| ≤ 8) (hy : |y| ≤ 4) (hx' : |x'| ≤ 8) (hy' : |y'| ≤ 4) :
    (QFrame.ofRepDiff F rad T I junk f s B (.plain .spherical A)).motion = (QFrame.ofRepDiff F rad T I junk f s B (.plain .spherical A')).motion := by
  have key : ∀ {A : QSph U} {x y : ℝ}, AngleUnit len A.u1 ∧ AngleUnit len A.u2 → Contains len A x y 0 → |x| ≤ 8 → |y| ≤ 4 →
      A.makeCosLat F rad T I junk .spherical = ⟨(DVec.mk (.num 0) (.num 0) (.num 0)).toAngular I junk .spherical, rad, rad, A.u3⟩ := by
    rintro A x y hA ⟨p, q, r, e, dp, dq, dr, rfl, rfl, hr0⟩ hx hy
    have hr1 : r = 0 := by
      have := (mul_eq_zero.1 hr0.symm).resolve_right (hF.positive _).ne'
      exact_mod_cast this
    subst hr1
    obtain ⟨w, hw, dw, -⟩ := weighted hF hr h0 h1 hT hA.1 hA.2 dp hx hy
    have e2 : A.makeCosLat F rad T I junk .spherical = ⟨DSph.ofPoint T I junk .spherical .spherical ⟨A.p.c0,
          ((A.p.c1.mul (F rad A.u2)).mul (T.cos (toRadians F rad A.u1 A.p.c0))).mul (F A.u2 rad), A.p.c2⟩, rad, rad, A.u3⟩ := rfl
    rw [e2, e]
    dsimp only
    rw [hw]
    obtain ⟨⟨sp, hsp, -, -⟩, ⟨cp, hcp, -, -⟩⟩ := hT p dp
    obtain ⟨⟨sw, hsw, -, -⟩, ⟨cw, hcw, -, -⟩⟩ := hT w dw
    have z : ∀ k : ℚ, (Dbl.num 0).mul (.num k) = .num 0 := fun k => by
      rw [mul_num, zero_mul]
      exact round_exact ⟨0, 0, by norm_num, by norm_num, by norm_num, by norm_num⟩
    simp only [DSph.ofPoint, DSph.toCartesian, hsp, hcp, hsw, hcw, z]
  show ((A.makeCosLat F rad T I junk .spherical).convert F rad A.u1 A.u2 A.u3).changeUnits F rad _ _ _ =
    ((A'.makeCosLat F rad T I junk .spherical).convert F rad A'.u1 A'.u2 A'.u3).changeUnits F rad _ _ _
  rw [key hA h hx hy, key (by rw [hu.1, hu.2.1]; exact hA) h' hx' hy', hu.1, hu.2.1, hu.2.2]

/-- **C140.** The motion does not depend on the position. -/
theorem C140_independent (T : Trig) (I : InverseTrig) (junk : Dbl) (f : QFrame U) (s s' : Coord.System) (A B : QSph U) (d : QMotion U) :
    (QFrame.ofRepDiff F rad T I junk f s A d).motion = (QFrame.ofRepDiff F rad T I junk f s' B d).motion := rfl

/-- Radians and degrees, with the factor of Model/QtyDouble. -/
def angleFactors : Factors Bool := fun a b => if a = b then .num 1 else if a then (Dbl.num 1).div degreeFactor else degreeFactor

theorem angleFactors_accurate : AccurateFactors (fun b : Bool => if b then (1 : ℝ) else Real.pi / 180) angleFactors (2 ^ (-43 : ℤ)) where
  positive := by
    intro a
    have := Real.pi_pos
    cases a <;> simp <;> positivity
  same := by intro a; cases a <;> rfl
  other := by
    intro a b
    have p0 := Real.pi_pos
    obtain ⟨k1, k2⟩ := degree_close
    cases a <;> cases b
    · refine ⟨1, rfl, isDouble_one, ?_⟩
      simp
    · refine ⟨_, degree_num, degree_double, ?_⟩
      simp only [Bool.false_eq_true, if_false, if_true, div_one]
      rw [abs_of_nonneg (by linarith [mul_nonneg p0.le (show (0 : ℝ) ≤ 1 / 180 * (65 / 10 ^ 15) by norm_num)])]
      exact k2.trans (mul_le_mul_of_nonneg_left (by norm_num) (by positivity))
    · refine ⟨8063664102031333 * 2 ^ (-47 : ℤ), by decide +kernel, ⟨8063664102031333, -47, by norm_num, by norm_num, by norm_num, by norm_num⟩, ?_⟩
      have h1 := Real.pi_gt_d20
      have h2 := Real.pi_lt_d20
      simp only [Bool.false_eq_true, if_false, if_true]
      have e : (1 : ℝ) / (Real.pi / 180) = 180 / Real.pi := by field_simp
      have e2 : ((8063664102031333 * 2 ^ (-47 : ℤ) : ℚ) : ℝ) - 180 / Real.pi = (8063664102031333 / 2 ^ 47 * Real.pi - 180) / Real.pi := by
        push_cast
        field_simp
      rw [e, e2, abs_div, abs_of_pos p0, div_mul_eq_mul_div _ Real.pi, div_le_div_iff_of_pos_right p0, abs_le]
      norm_num at h1 h2 ⊢
      constructor <;> linarith
    · refine ⟨1, rfl, isDouble_one, ?_⟩
      simp

theorem short_exists : ∃ I : InverseTrig, AccurateInverse I ∧ ShortAzimuth I := by
  obtain ⟨I, hI⟩ := inverse_exists
  have p4 := Real.pi_lt_d2
  have h3 : ∀ b a : ℚ, ∃ y : ℚ, Near (.num y) (Coord.atan2 b a) (2 ^ (-52 : ℤ)) := fun b a => near_grid_four _ ((Complex.abs_arg_le_pi _).trans Real.pi_le_four)
  choose k hk using h3
  refine ⟨⟨I.acos, I.asin, fun d e => match d, e with | .num b, .num a => .num (k b a) | _, _ => .nan⟩, ⟨hI.acos, hI.asin, fun b a _ _ => ⟨0, ?_⟩⟩, ?_⟩
  · have e : Coord.atan2 (b : ℝ) a + 2 * Real.pi * ((0 : ℤ) : ℝ) = Coord.atan2 b a := by simp
    rw [e]
    exact hk b a
  · intro y x q h
    cases y <;> cases x <;> simp only [reduceCtorEq, Dbl.num.injEq] at h
    rename_i b a
    subst h
    obtain ⟨q, e, -, hq⟩ := hk b a
    rw [Dbl.num.inj e]
    have := Complex.abs_arg_le_pi (⟨a, b⟩ : ℂ)
    have l : |(q : ℝ)| ≤ |Coord.atan2 b a| + 2 ^ (-52 : ℤ) := by
      have := abs_sub_abs_le_abs_sub (q : ℝ) (Coord.atan2 b a)
      generalize (2 : ℝ) ^ (-52 : ℤ) = δ at *
      linarith
    have l2 : |Coord.atan2 (b : ℝ) a| ≤ Real.pi := Complex.abs_arg_le_pi _
    have s : (2 : ℝ) ^ (-52 : ℤ) ≤ 1 / 100 := by norm_num
    norm_num at p4
    clear hk
    generalize (2 : ℝ) ^ (-52 : ℤ) = δ at *
    linarith

theorem degree_unit : AngleUnit (fun b : Bool => if b then (1 : ℝ) else Real.pi / 180) false := by
  have h1 := Real.pi_gt_d2
  have h2 := Real.pi_lt_d2
  simp only [AngleUnit, Bool.false_eq_true, if_false]
  norm_num at h1 h2 ⊢
  constructor <;> linarith

/-- An equatorial place at latitude 1 and distance 2 with angles in degrees, for a frame in degrees. -/
example : ∃ (T : Trig) (I : InverseTrig), ∀ junk, ∃ x' y' R' : ℝ,
    Contains (fun b : Bool => if b then (1 : ℝ) else Real.pi / 180)
      (QFrame.ofRep angleFactors true T I junk ⟨⟨⟨.nan, .nan, .nan⟩, false, false, true⟩, ⟨⟨.nan, .nan, .nan⟩, false, false, true⟩⟩ .equatorial
        ⟨⟨.num (1 / 2), .num 1, .num 2⟩, false, false, true⟩).data x' y' R' ∧
    chord (position .spherical x' y' R') (position .equatorial (1 / 2) 1 2) ≤ |(2 : ℝ)| * (122 * 2 ^ (-43 : ℤ) + 2 ^ (-43 : ℤ)) := by
  obtain ⟨T, hT⟩ := best_exists
  obtain ⟨I, hI, hz⟩ := short_exists
  refine ⟨T, I, fun junk => ?_⟩
  have hm : UsualLength (fun b : Bool => if b then (1 : ℝ) else Real.pi / 180) true 2 := by
    simp only [UsualLength, if_true]
    norm_num
  obtain ⟨x', y', R', c, -, k⟩ := C140_equatorial angleFactors_accurate (rad := true) (by simp) (by positivity) (by norm_num) (best_accurate hT) hI hz junk
    ⟨⟨⟨.nan, .nan, .nan⟩, false, false, true⟩, ⟨⟨.nan, .nan, .nan⟩, false, false, true⟩⟩
    ⟨⟨.num (1 / 2), .num 1, .num 2⟩, false, false, true⟩ ⟨degree_unit, degree_unit⟩ ⟨degree_unit, degree_unit⟩ (1 / 2) 1 2
    ⟨1 / 2, 1, 2, rfl, ⟨1, -1, by norm_num, by norm_num, by norm_num, by norm_num⟩, isDouble_one, ⟨2, 0, by norm_num, by norm_num, by norm_num, by norm_num⟩,
      by norm_num, by norm_num, by norm_num⟩ hm hm
  refine ⟨x', y', R', c, k ?_⟩
  have c2 := Real.one_sub_sq_div_two_le_cos (x := 1)
  norm_num at c2
  rw [abs_of_nonneg (by linarith)]
  linarith

/-- Without radial velocity half a radian and one radian, or two radians and three, are the same motion. -/
example : ∃ T : Trig, ∀ (I : InverseTrig) (junk : Dbl) (f : QFrame Bool) (B : QSph Bool),
    (QFrame.ofRepDiff angleFactors true T I junk f .spherical B (.plain .spherical ⟨⟨.num (1 / 2), .num 1, .num 0⟩, false, false, true⟩)).motion =
      (QFrame.ofRepDiff angleFactors true T I junk f .spherical B (.plain .spherical ⟨⟨.num 2, .num 3, .num 0⟩, false, false, true⟩)).motion := by
  obtain ⟨T, hT⟩ := best_exists
  refine ⟨T, fun I junk f B => C140_lost angleFactors_accurate (by simp) (by positivity) (by norm_num) (best_accurate hT) I junk f .spherical B
    ⟨⟨.num (1 / 2), .num 1, .num 0⟩, false, false, true⟩ ⟨⟨.num 2, .num 3, .num 0⟩, false, false, true⟩ ⟨degree_unit, degree_unit⟩ ⟨rfl, rfl, rfl⟩
    (1 / 2) 1 2 3 ?_ ?_ (by norm_num) (by norm_num) (by norm_num) (by norm_num)⟩
  · exact ⟨1 / 2, 1, 0, rfl, ⟨1, -1, by norm_num, by norm_num, by norm_num, by norm_num⟩, isDouble_one, isDouble_zero, by norm_num, by norm_num, by norm_num⟩
  · exact ⟨2, 3, 0, rfl, ⟨2, 0, by norm_num, by norm_num, by norm_num, by norm_num⟩, ⟨3, 0, by norm_num, by norm_num, by norm_num, by norm_num⟩, isDouble_zero,
      by norm_num, by norm_num, by norm_num⟩

/-- A motion of half a radian, a radian and 2, in degrees, given to a frame in degrees: all conditions are met. -/
example : ∃ (T : Trig) (I : InverseTrig), ∀ junk, ∃ x' y' R' : ℝ,
    Contains (fun b : Bool => if b then (1 : ℝ) else Real.pi / 180)
      (QFrame.ofRepDiff angleFactors true T I junk ⟨⟨⟨.nan, .nan, .nan⟩, false, false, true⟩, ⟨⟨.nan, .nan, .nan⟩, false, false, true⟩⟩ .spherical
        ⟨⟨.num 1, .num 1, .num 1⟩, true, true, true⟩ (.plain .spherical ⟨⟨.num (1 / 2), .num 1, .num 2⟩, false, false, true⟩)).motion x' y' R' ∧
    chord (position .spherical x' y' R') (position .spherical (1 / 2) (1 * Real.cos (1 / 2)) 2) ≤ |(2 : ℝ)| * (400 * 2 ^ (-43 : ℤ) + 2 ^ (-43 : ℤ)) := by
  obtain ⟨T, hT⟩ := best_exists
  obtain ⟨I, hI, hz⟩ := short_exists
  refine ⟨T, I, fun junk => ?_⟩
  have hm : UsualLength (fun b : Bool => if b then (1 : ℝ) else Real.pi / 180) true 2 := by
    simp only [UsualLength, if_true]
    norm_num
  obtain ⟨x', y', R', c, -, k⟩ := C140_plain angleFactors_accurate (rad := true) (by simp) (by positivity) (by norm_num) (best_accurate hT) hI hz junk
    ⟨⟨⟨.nan, .nan, .nan⟩, false, false, true⟩, ⟨⟨.nan, .nan, .nan⟩, false, false, true⟩⟩ .spherical ⟨⟨.num 1, .num 1, .num 1⟩, true, true, true⟩
    ⟨⟨.num (1 / 2), .num 1, .num 2⟩, false, false, true⟩ ⟨degree_unit, degree_unit⟩ ⟨degree_unit, degree_unit⟩ (1 / 2) 1 2
    ⟨1 / 2, 1, 2, rfl, ⟨1, -1, by norm_num, by norm_num, by norm_num, by norm_num⟩, isDouble_one, ⟨2, 0, by norm_num, by norm_num, by norm_num, by norm_num⟩,
      by norm_num, by norm_num, by norm_num⟩ (by norm_num) (by norm_num) hm hm
  refine ⟨x', y', R', c, k ?_⟩
  have c1 := Real.cos_le_one (1 / 2)
  have c2 := Real.one_sub_sq_div_two_le_cos (x := 1 / 2)
  have s := Real.sin_gt_sub_cube (x := 1 * Real.cos (1 / 2)) (by norm_num at c2; linarith)
  rw [one_mul] at s ⊢
  have : (1 : ℝ) / 3 ≤ Real.sin (Real.cos (1 / 2)) := by
    norm_num at c2
    have c3 : Real.cos (1 / 2) ^ 3 ≤ Real.cos (1 / 2) := pow_le_of_le_one (by linarith) c1 (by norm_num)
    linarith
  rw [abs_of_nonneg (by linarith)]
  exact this

/-- 7/64 of a radian in a representation in radians arrives in a frame in degrees one unit in the last place smaller. -/
example (T : Trig) (I : InverseTrig) (junk : Dbl) :
    (QFrame.ofRep angleFactors true T I junk ⟨⟨⟨.nan, .nan, .nan⟩, false, false, true⟩, ⟨⟨.nan, .nan, .nan⟩, false, false, true⟩⟩ .spherical
      ⟨⟨.num (7 / 64), .num 1, .num 2⟩, true, true, true⟩).data = ⟨⟨.num (7881299347898367 / 72057594037927936), .num 1, .num 2⟩, false, false, true⟩ := by
  show QSph.mk (DSph.mk (castAngle angleFactors true true false (.num (7 / 64))) (castAngle angleFactors true true false (.num 1))
    ((Dbl.num 2).mul (angleFactors true true))) false false true = _
  rw [show castAngle angleFactors true true false (.num (7 / 64)) = .num (7881299347898367 / 72057594037927936) by decide +kernel,
    show castAngle angleFactors true true false (.num 1) = .num 1 by decide +kernel, show (Dbl.num 2).mul (angleFactors true true) = .num 2 by decide +kernel]

/-- The same representation given to a frame in radians is stored unchanged. -/
example (T : Trig) (I : InverseTrig) (junk : Dbl) (f : QFrame Bool) (h : f.data.u1 = true ∧ f.data.u2 = true ∧ f.data.u3 = true) (h' : f.motion.u1 = true ∧ f.motion.u2 = true ∧ f.motion.u3 = true) :
    (QFrame.ofRepDiff angleFactors true T I junk f .spherical ⟨⟨.num (7 / 64), .num 1, .num 2⟩, true, true, true⟩
      (.coslat ⟨⟨.num 1, .num 1, .num 0⟩, true, true, true⟩)).data = ⟨⟨.num (7 / 64), .num 1, .num 2⟩, true, true, true⟩ :=
  (C140_radians angleFactors_accurate T I junk f ⟨⟨.num (7 / 64), .num 1, .num 2⟩, true, true, true⟩ ⟨⟨.num 1, .num 1, .num 0⟩, true, true, true⟩
    (7 / 64 : ℚ) (1 : ℚ) ((2 : ℚ) * 1) (1 : ℚ) (1 : ℚ) ((0 : ℚ) * 1)
    ⟨7 / 64, 1, 2, rfl, ⟨7, -6, by norm_num, by norm_num, by norm_num, by norm_num⟩, isDouble_one, ⟨2, 0, by norm_num, by norm_num, by norm_num, by norm_num⟩, rfl, rfl, by simp⟩
    ⟨1, 1, 0, rfl, isDouble_one, isDouble_one, isDouble_zero, rfl, rfl, by simp⟩ ⟨rfl, rfl⟩ ⟨rfl, rfl⟩ h h').1

end Astro
