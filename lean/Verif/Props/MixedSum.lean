import Verif.Lemmas.MixedSum
import Verif.Props.AngDouble
import Verif.Props.QtyVec
import Verif.Props.FrameBuildDouble
import Verif.Props.DiffDouble

/-
C141: sums of representations and differentials with different units in doubles.
-/

set_option exponentiation.threshold 3000

namespace Astro

open Spec Time

attribute [local irreducible] FloatFmt.nearest FloatFmt.value Dbl.round

variable {U : Type} {len : U → ℝ} {F : Factors U} {rad : U} {ε : ℝ}

/-- The numbers of a sum, with what is needed to convert them back. -/
theorem mixed_ready (hF : AccurateFactors len F ε) (h0 : 0 ≤ ε) (h1 : ε ≤ 2 ^ (-20 : ℤ)) {T : Trig} (hT : Accurate T) {s s' : Coord.System} (hs : s ≠ .cartesian)
    {a b : QSph U} {v w : Coord.Vec} (ha : StandsFor len s a v) (hb : StandsFor len s' b w) (mv : Manageable len a.u3 v) (mw : Manageable len a.u3 w)
    (mb : s' ≠ .cartesian → Manageable len b.u3 w) (hc : (80 * ε + 2 ^ (-43 : ℤ)) * (size v + size w) ≤ size (v + w)) :
    ∃ (W : Coord.Vec) (x y z : ℚ), v + w = len a.u3 • W ∧ Coords ((a.cartesian T s).sum F (b.cartesian T s')).v x y z ∧
      len a.u3 * chord (vec x y z) W ≤ (size v + size w) * (2 * ε + 16 * unit53) ∧ 40 * chord (vec x y z) W ≤ size W ∧
      (2 : ℝ) ^ (-460 : ℤ) ≤ size W ∧ size W ≤ 2 ^ (490 : ℤ) := by
  have L0 := hF.positive a.u3
  have u0 := unit53_pos
  obtain ⟨v', hv', rfl⟩ := (own_unit hs).1 ha
  obtain ⟨w', rfl⟩ : ∃ w', w = len a.u3 • w' := ⟨(len a.u3)⁻¹ • w, by rw [smul_smul, mul_inv_cancel₀ L0.ne', one_smul]⟩
  rw [Manageable, size_smul, abs_of_pos L0, mul_comm (len a.u3)] at mv mw
  have v1 := le_of_mul_le_mul_right mv.1 L0
  have v2 := le_of_mul_le_mul_right mv.2 L0
  have w1 := le_of_mul_le_mul_right mw.1 L0
  have w2 := le_of_mul_le_mul_right mw.2 L0
  obtain ⟨x, y, z, hxyz, hE⟩ := mixed_numbers hF h0 h1 hT hs hv' hb mb v1 v2 w1 w2
  have S0 : 0 < size v' + size w' := by
    have : (0 : ℝ) < 2 ^ (-400 : ℤ) := by positivity
    linarith
  rw [← smul_add, size_smul, size_smul, size_smul, abs_of_pos L0, ← mul_add, mul_left_comm] at hc
  have hc' := le_of_mul_le_mul_left hc L0
  have k : (2 : ℝ) ^ (-60 : ℤ) ≤ 80 * ε + 2 ^ (-43 : ℤ) := by
    have : (2 : ℝ) ^ (-60 : ℤ) ≤ 2 ^ (-43 : ℤ) := by norm_num
    generalize (2 : ℝ) ^ (-60 : ℤ) = α at *
    linarith
  obtain ⟨lo, hi, -⟩ := sum_range k (by exact ⟨v1, v2⟩) (by exact ⟨w1, w2⟩) hc'
  have c1 := mul_nonneg S0.le h0
  have c2 := mul_pos S0 u0
  refine ⟨v' + w', x, y, z, (smul_add _ _ _).symm, hxyz, ?_, ?_, lo, hi⟩
  · rw [size_smul, size_smul, abs_of_pos L0, ← mul_add, mul_assoc]
    refine mul_le_mul_of_nonneg_left (hE.trans ?_) L0.le
    clear lo hi hc hc' v1 v2 w1 w2 mv mw k
    nlinarith
  · have p43 : (2 : ℝ) ^ (-43 : ℤ) = 1024 * unit53 := by norm_num [unit53]
    rw [p43] at hc'
    clear lo hi hc v1 v2 w1 w2 mv mw k
    nlinarith

/-- **C141.** sum of an angular object and an object of any kind, with any units: the vector the result stands for is within 2^-23 of the exact sum, compared with
the length of that, plus what the conversion factors (accurate to `ε`) and rounding contribute, compared with the lengths of the operands; away from the polar
axis the first part is 2^-45.  The result has the units of the first operand. -/
theorem C141_sum (hF : AccurateFactors len F ε) (h0 : 0 ≤ ε) (h1 : ε ≤ 2 ^ (-20 : ℤ)) {T : Trig} {I : InverseTrig} (hT : Accurate T) (hI : AccurateInverse I)
    (junk : Dbl) (s s' : Coord.System) (hs : s ≠ .cartesian) (a b : QSph U) (v w : Coord.Vec) (ha : StandsFor len s a v) (hb : StandsFor len s' b w)
    (mv : Manageable len a.u3 v) (mw : Manageable len a.u3 w) (mb : s' ≠ .cartesian → Manageable len b.u3 w)
    (hc : (80 * ε + 2 ^ (-43 : ℤ)) * (size v + size w) ≤ size (v + w)) :
    ∀ r, r = QSph.sum F T I junk s s' a b → r.u1 = a.u1 ∧ r.u2 = a.u2 ∧ r.u3 = a.u3 ∧ ∃ z, StandsFor len s r z ∧
      chord z (v + w) ≤ size (v + w) * 2 ^ (-23 : ℤ) + (size v + size w) * (3 * ε + 2 ^ (-48 : ℤ)) ∧
      (size (v + w) / 3 ≤ √((v + w) 0 ^ 2 + (v + w) 1 ^ 2) →
        chord z (v + w) ≤ size (v + w) * 2 ^ (-45 : ℤ) + (size v + size w) * (3 * ε + 2 ^ (-48 : ℤ))) := by
  rintro _ rfl
  refine ⟨rfl, rfl, rfl, ?_⟩
  have L0 := hF.positive a.u3
  have u0 := unit53_pos
  obtain ⟨W, x, y, z, hW, hxyz, hE, h40, lo, hi⟩ := mixed_ready hF h0 h1 hT hs ha hb mv mw mb hc
  obtain ⟨t, ht, t1, t2⟩ := back_exact_near hI junk (s := s) hxyz le_rfl (by linarith [chord_nonneg (vec x y z) W])
    ((by norm_num : (2 : ℝ) ^ (-470 : ℤ) ≤ 2 ^ (-460 : ℤ)).trans lo) hi
  refine ⟨len a.u3 • t, (own_unit hs (a := QSph.sum F T I junk s s' a b)).2 ⟨t, ht, rfl⟩, ?_⟩
  have p48 : (2 : ℝ) ^ (-48 : ℤ) = 32 * unit53 := by norm_num [unit53]
  have p45 : (2 : ℝ) ^ (-45 : ℤ) = 256 * unit53 := by norm_num [unit53]
  have S0 : 0 ≤ size v + size w := add_nonneg (size_nonneg _) (size_nonneg _)
  have W0 := mul_nonneg L0.le (size_nonneg W)
  have c1 := mul_nonneg S0 h0
  have c2 := mul_nonneg S0 u0.le
  have c3 := mul_nonneg W0 u0.le
  clear lo hi mv mw mb hc
  have e : √((len a.u3 • W) 0 ^ 2 + (len a.u3 • W) 1 ^ 2) = len a.u3 * √(W 0 ^ 2 + W 1 ^ 2) := by
    have : (len a.u3 • W) 0 ^ 2 + (len a.u3 • W) 1 ^ 2 = len a.u3 ^ 2 * (W 0 ^ 2 + W 1 ^ 2) := by simp; ring
    rw [this, Real.sqrt_mul (sq_nonneg _), Real.sqrt_sq L0.le]
  rw [hW, chord_smul, size_smul, abs_of_pos L0, e, p48, p45]
  constructor
  · have m := mul_le_mul_of_nonneg_left t1 L0.le
    have c4 : 0 ≤ len a.u3 * size W * 2 ^ (-23 : ℤ) := mul_nonneg W0 (by positivity)
    generalize (2 : ℝ) ^ (-23 : ℤ) = δ at *
    nlinarith
  · intro h
    have m := mul_le_mul_of_nonneg_left (t2 (by
      have : len a.u3 * (size W / 3) ≤ len a.u3 * √(W 0 ^ 2 + W 1 ^ 2) := by rw [← mul_div_assoc]; exact h
      exact le_of_mul_le_mul_left this L0)) L0.le
    nlinarith

/-- **C141.** operator+ of an angular object converts the sum twice: the error near the axis may be twice as large. -/
theorem C141_plus (hF : AccurateFactors len F ε) (h0 : 0 ≤ ε) (h1 : ε ≤ 2 ^ (-20 : ℤ)) {T : Trig} {I : InverseTrig} (hT : Accurate T) (hI : AccurateInverse I)
    (junk : Dbl) (s s' : Coord.System) (hs : s ≠ .cartesian) (a b : QSph U) (v w : Coord.Vec) (ha : StandsFor len s a v) (hb : StandsFor len s' b w)
    (mv : Manageable len a.u3 v) (mw : Manageable len a.u3 w) (mb : s' ≠ .cartesian → Manageable len b.u3 w)
    (hc : (80 * ε + 2 ^ (-43 : ℤ)) * (size v + size w) ≤ size (v + w)) :
    ∀ r, r = QSph.plus F rad T I junk s s' a b → r.u1 = a.u1 ∧ r.u2 = a.u2 ∧ r.u3 = a.u3 ∧ ∃ z, StandsFor len s r z ∧
      chord z (v + w) ≤ size (v + w) * 2 ^ (-22 : ℤ) + (size v + size w) * (3 * ε + 2 ^ (-48 : ℤ)) ∧
      (size (v + w) / 3 ≤ √((v + w) 0 ^ 2 + (v + w) 1 ^ 2) →
        chord z (v + w) ≤ size (v + w) * 2 ^ (-44 : ℤ) + (size v + size w) * (3 * ε + 2 ^ (-48 : ℤ))) := by
  intro r hr
  have L0 := hF.positive a.u3
  have u0 := unit53_pos
  obtain ⟨W, x, y, z, hW, hxyz, hE, h40, lo, hi⟩ := mixed_ready hF h0 h1 hT hs ha hb mv mw mb hc
  obtain ⟨t, ht, t1, t2⟩ := twice_back hT hI junk (s := s) hxyz le_rfl h40 lo hi
  have hr' : r = ⟨((a.cartesian T s).sum F (b.cartesian T s')).v.makeAngular T I junk s, a.u1, a.u2, a.u3⟩ := by
    obtain ⟨p, q, d, hp, dp, dq, dd, -⟩ := ht
    rw [hr, hp]
    have e : QSph.plus F rad T I junk s s' a b =
        QSph.convert F rad a.u1 a.u2 a.u3 ⟨((a.cartesian T s).sum F (b.cartesian T s')).v.makeAngular T I junk s, rad, rad, a.u3⟩ := by
      cases s with
      | cartesian => exact absurd rfl hs
      | spherical => rfl
      | equatorial => rfl
    rw [e, hp, convert_same hF dp dq dd]
  rw [hr']
  refine ⟨rfl, rfl, rfl, len a.u3 • t, (own_unit hs (a := ⟨_, a.u1, a.u2, a.u3⟩)).2 ⟨t, ht, rfl⟩, ?_⟩
  have p48 : (2 : ℝ) ^ (-48 : ℤ) = 32 * unit53 := by norm_num [unit53]
  have S0 : 0 ≤ size v + size w := add_nonneg (size_nonneg _) (size_nonneg _)
  have c1 := mul_nonneg S0 h0
  have c2 := mul_nonneg S0 u0.le
  clear lo hi mv mw mb hc
  have e : √((len a.u3 • W) 0 ^ 2 + (len a.u3 • W) 1 ^ 2) = len a.u3 * √(W 0 ^ 2 + W 1 ^ 2) := by
    have : (len a.u3 • W) 0 ^ 2 + (len a.u3 • W) 1 ^ 2 = len a.u3 ^ 2 * (W 0 ^ 2 + W 1 ^ 2) := by simp; ring
    rw [this, Real.sqrt_mul (sq_nonneg _), Real.sqrt_sq L0.le]
  rw [hW, chord_smul, size_smul, abs_of_pos L0, e, p48]
  constructor
  · have m := mul_le_mul_of_nonneg_left t1 L0.le
    generalize (2 : ℝ) ^ (-22 : ℤ) = δ at *
    nlinarith
  · intro h
    have m := mul_le_mul_of_nonneg_left (t2 (by
      have : len a.u3 * (size W / 3) ≤ len a.u3 * √(W 0 ^ 2 + W 1 ^ 2) := by rw [← mul_div_assoc]; exact h
      exact le_of_mul_le_mul_left this L0)) L0.le
    generalize (2 : ℝ) ^ (-44 : ℤ) = δ at *
    nlinarith

/-- One coordinate of a Cartesian sum. -/
theorem cartesian_part (hF : AccurateFactors len F ε) (h0 : 0 ≤ ε) (h1 : ε ≤ 2 ^ (-20 : ℤ)) (u : U) {x p : ℚ} {t S : ℝ} (dx : IsDouble x) (dp : IsDouble p)
    (hx : |x * len u| ≤ 2 ^ (900 : ℤ) * len u) (ep : |p * len u - t| ≤ S * (101 / 100 * ε + 7 * unit53)) (ht : |t| ≤ S) (hS : S ≤ 2 ^ (400 : ℤ) * len u) :
    ∃ q, (Dbl.num x).add (.num p) = .num q ∧ IsDouble q ∧ |q * len u - (x * len u + t)| ≤ (|x * len u| + S) * (2 * ε + 2 ^ (-49 : ℤ)) := by
  have L0 := hF.positive u
  have u0 := unit53_pos
  have h2 : ε ≤ 1 / 1000000 := h1.trans (by norm_num)
  have hx' : |(x : ℝ)| ≤ 2 ^ (900 : ℤ) := by
    rw [abs_mul, abs_of_pos L0] at hx
    exact le_of_mul_le_mul_right hx L0
  have sc : ∀ c : ℝ, c / len u * len u = c := fun c => div_mul_cancel₀ c L0.ne'
  have hS' : S / len u ≤ 2 ^ (400 : ℤ) := (div_le_iff₀ L0).2 hS
  obtain ⟨q, hq, dq, eq⟩ := added_part (x := x) (x' := p) (t := x) (t' := t / len u) (R := |(x : ℝ)|) (R' := S / len u) (δ := 101 / 100 * ε) (by positivity)
    (by linarith) dx dp (by rw [sub_self, abs_zero]; positivity) le_rfl (by
      have e : (p : ℝ) - t / len u = (p * len u - t) / len u := by rw [sub_div, mul_div_cancel_right₀ _ L0.ne']
      rw [e, abs_div, abs_of_pos L0, div_mul_eq_mul_div]
      exact div_le_div_of_nonneg_right ep L0.le) (by rw [abs_div, abs_of_pos L0]; exact div_le_div_of_nonneg_right ht L0.le)
    ((add_le_add hx' hS').trans (by norm_num))
  refine ⟨q, hq, dq, ?_⟩
  have e : q * len u - (x * len u + t) = (q - (x + t / len u)) * len u := by
    have := sc t
    linear_combination this
  rw [e, abs_mul, abs_of_pos L0]
  have m := mul_le_mul_of_nonneg_right eq L0.le
  refine m.trans ?_
  have e2 : (|(x : ℝ)| + S / len u) * (101 / 100 * ε + 9 * unit53) * len u = (|x * len u| + S) * (101 / 100 * ε + 9 * unit53) := by
    rw [abs_mul, abs_of_pos L0]
    have := sc S
    linear_combination (101 / 100 * ε + 9 * unit53) * this
  rw [e2]
  have S0 : 0 ≤ |x * len u| + S := add_nonneg (abs_nonneg _) ((abs_nonneg _).trans ht)
  refine mul_le_mul_of_nonneg_left ?_ S0
  have p49 : (2 : ℝ) ^ (-49 : ℤ) = 16 * unit53 := by norm_num [unit53]
  rw [p49]
  linarith

/-- **C141.** A Cartesian object with three different units, plus an object of any kind: every coordinate is accurate compared with that coordinate of the first
operand and the length of the second.  sum and operator+ give the same. -/
theorem C141_cartesian (hF : AccurateFactors len F ε) (h0 : 0 ≤ ε) (h1 : ε ≤ 2 ^ (-20 : ℤ)) {T : Trig} (hT : Accurate T) (I : InverseTrig)
    (junk : Dbl) (s' : Coord.System) (a b : QSph U) (v w : Coord.Vec) (ha : StandsFor len .cartesian a v) (hb : StandsFor len s' b w)
    (mv : |v 0| ≤ 2 ^ (900 : ℤ) * len a.u1 ∧ |v 1| ≤ 2 ^ (900 : ℤ) * len a.u2 ∧ |v 2| ≤ 2 ^ (900 : ℤ) * len a.u3)
    (mw : Manageable len a.u1 w ∧ Manageable len a.u2 w ∧ Manageable len a.u3 w) (mb : s' ≠ .cartesian → Manageable len b.u3 w) :
    QSph.plus F rad T I junk .cartesian s' a b = QSph.sum F T I junk .cartesian s' a b ∧
    ∀ r, r = QSph.sum F T I junk .cartesian s' a b → r.u1 = a.u1 ∧ r.u2 = a.u2 ∧ r.u3 = a.u3 ∧ ∃ z, StandsFor len .cartesian r z ∧
      ∀ i, |z i - (v i + w i)| ≤ (|v i| + size w) * (2 * ε + 2 ^ (-49 : ℤ)) := by
  refine ⟨rfl, ?_⟩
  rintro _ rfl
  refine ⟨rfl, rfl, rfl, ?_⟩
  obtain ⟨p, q, r, hp, hq, hr, dp, dq, dr, ep, eq, er⟩ := converted hF h0 h1 hT hb a.u1 a.u2 a.u3 mb mw.1 mw.2.1 mw.2.2
  obtain ⟨x, y, z, hx, dx, dy, dz, rfl⟩ := ha
  obtain ⟨c0, c1, c2⟩ := coord_le_size w
  obtain ⟨x', hx', dx', ex'⟩ := cartesian_part hF h0 h1 a.u1 dx dp mv.1 ep c0 mw.1.2
  obtain ⟨y', hy', dy', ey'⟩ := cartesian_part hF h0 h1 a.u2 dy dq mv.2.1 eq c1 mw.2.1.2
  obtain ⟨z', hz', dz', ez'⟩ := cartesian_part hF h0 h1 a.u3 dz dr mv.2.2 er c2 mw.2.2.2
  refine ⟨![x' * len a.u1, y' * len a.u2, z' * len a.u3], ⟨x', y', z', ?_, dx', dy', dz', rfl⟩, ?_⟩
  · have hc : a.cartesian T .cartesian = ⟨⟨.num x, .num y, .num z⟩, a.u1, a.u2, a.u3⟩ := by
      simp only [QSph.cartesian, hx]
      rfl
    simp only [QSph.sum, hc, QVec.sum, hp, hq, hr, hx', hy', hz']
    rfl
  · intro i
    fin_cases i
    · exact ex'
    · exact ey'
    · exact ez'

/-- **C141.** With equal units of length the conversions do nothing: the numbers are those of the sum with one unit (C123). -/
theorem C141_same (hF : AccurateFactors len F ε) {T : Trig} {I : InverseTrig} (hT : Accurate T) (junk : Dbl) (s s' : Coord.System)
    (hs : s ≠ .cartesian) (hs' : s' ≠ .cartesian) (a b : QSph U) (w : Coord.Vec) (hb : StandsFor len s' b w) (mw : Manageable len b.u3 w) (hu : b.u3 = a.u3) :
    (QSph.sum F T I junk s s' a b).p = DSph.sum T I junk s s' a.p b.p := by
  have L0 := hF.positive a.u3
  obtain ⟨w', hw', rfl⟩ := (own_unit hs').1 hb
  rw [hu, Manageable, size_smul, abs_of_pos L0, mul_comm (len a.u3)] at mw
  obtain ⟨x, y, z, ⟨hc, dx, dy, dz⟩, -⟩ := stored_near hT hw' ((by norm_num : (2 : ℝ) ^ (-900 : ℤ) ≤ 2 ^ (-400 : ℤ)).trans (le_of_mul_le_mul_right mw.1 L0))
    ((le_of_mul_le_mul_right mw.2 L0).trans (by norm_num))
  have ea : a.cartesian T s = ⟨a.p.toCartesian T s, a.u3, a.u3, a.u3⟩ := by
    cases s with
    | cartesian => exact absurd rfl hs
    | spherical => rfl
    | equatorial => rfl
  have eb : b.cartesian T s' = ⟨b.p.toCartesian T s', a.u3, a.u3, a.u3⟩ := by
    rw [← hu]
    cases s' with
    | cartesian => exact absurd rfl hs'
    | spherical => rfl
    | equatorial => rfl
  simp only [QSph.sum, DSph.sum, ea, eb, QVec.sum, hc, factor_same hF _ dx, factor_same hF _ dy, factor_same hF _ dz]
  rfl

/-- **C141.** An angular differential times a number with a unit of size `K`, as a time: the product is within 2^-22 of the exact one, away from the polar axis
within 2^-43, plus what the conversion of the angles to their units and back contributes. -/
theorem C141_times (hF : AccurateFactors len F ε) (hr : len rad = 1) (h0 : 0 ≤ ε) (h1 : ε ≤ 2 ^ (-20 : ℤ)) {T : Trig} {I : InverseTrig} (hT : Accurate T)
    (hI : AccurateInverse I) (hz : ShortAzimuth I) (junk : Dbl) (s : Coord.System) (hs : s ≠ .cartesian) (a : QSph U) (v : Coord.Vec) (ha : StandsFor len s a v)
    (hA : AngleUnit len a.u1 ∧ AngleUnit len a.u2) (mv : 2 ^ (-300 : ℤ) * len a.u3 ≤ size v ∧ size v ≤ 2 ^ (300 : ℤ) * len a.u3) (k : ℚ)
    (hk : 2 ^ (-100 : ℤ) ≤ |(k : ℝ)|) (hk' : |(k : ℝ)| ≤ 2 ^ (100 : ℤ)) (u : U) (K : ℝ) (hK : len u = len a.u3 * K) :
    ∀ r, r = QSph.times F rad T I junk s a (.num k) u → r.u1 = a.u1 ∧ r.u2 = a.u2 ∧ r.u3 = u ∧ ∃ z, StandsFor len s r z ∧
      chord z ((k * K) • v) ≤ size ((k * K) • v) * (120 * ε + 2 ^ (-22 : ℤ)) ∧
      (size v / 3 ≤ √(v 0 ^ 2 + v 1 ^ 2) → chord z ((k * K) • v) ≤ size ((k * K) • v) * (120 * ε + 2 ^ (-43 : ℤ))) := by
  rintro _ rfl
  refine ⟨rfl, rfl, rfl, ?_⟩
  have L0 := hF.positive a.u3
  have Lu := hF.positive u
  have K0 : 0 < K := by
    rw [hK] at Lu
    exact (mul_pos_iff_of_pos_left L0).1 Lu
  have u0 := unit53_pos
  have h2 : ε ≤ 1 / 1000000 := h1.trans (by norm_num)
  obtain ⟨v', hv', rfl⟩ := (own_unit hs).1 ha
  rw [size_smul, abs_of_pos L0, mul_comm (len a.u3)] at mv
  have v1 := le_of_mul_le_mul_right mv.1 L0
  have v2 := le_of_mul_le_mul_right mv.2 L0
  obtain ⟨t, ht, t1, t2⟩ := C128_times hT hI junk s a.p v' k hv' ⟨v1, v2⟩ hk hk'
  obtain ⟨p, q, d, hp, dp, dq, dd, ap, aq⟩ := short_angles hT hI hz junk hs hv' (le_trans (by norm_num) v1) (v2.trans (by norm_num))
  obtain ⟨p1, q1, d1, ht1, -, -, dd1, rfl⟩ := ht
  have form : a.p.times T I junk s (.num k) = ⟨.num p, .num q, (Dbl.num d).mul (.num k)⟩ := by
    cases s with
    | cartesian => exact absurd rfl hs
    | spherical => simp only [DSph.times, hp]
    | equatorial => simp only [DSph.times, hp]
  rw [form] at ht1
  have e1 : p = p1 := Dbl.num.inj (congrArg DSph.c0 ht1)
  have e2 : q = q1 := Dbl.num.inj (congrArg DSph.c1 ht1)
  have e3 : (Dbl.num d).mul (.num k) = .num d1 := congrArg DSph.c2 ht1
  subst e1 e2
  have l4 : (4 : ℝ) ≤ 2 ^ (300 : ℤ) := by norm_num
  obtain ⟨p', hp', dp', ep'⟩ := angle_radians hF hr h0 h1 hA.1 dp (ap.trans l4)
  obtain ⟨q', hq', dq', eq'⟩ := angle_radians hF hr h0 h1 hA.2 dq (aq.trans l4)
  have small : ∀ x : ℝ, |x| ≤ 4 → |x| * (4 * ε + 2 ^ (-51 : ℤ)) + 2 ^ (-1040 : ℤ) ≤ 16 * ε + 17 * unit53 := by
    intro x hx
    have a1 : (2 : ℝ) ^ (-51 : ℤ) = 4 * unit53 := by norm_num [unit53]
    have a2 : (2 : ℝ) ^ (-1040 : ℤ) ≤ unit53 := by norm_num [unit53]
    have a3 : |x| * (4 * ε + 4 * unit53) ≤ 4 * (4 * ε + 4 * unit53) := mul_le_mul_of_nonneg_right hx (by positivity)
    rw [a1]
    generalize (2 : ℝ) ^ (-1040 : ℤ) = δ at *
    linarith
  have mv' := moved hs (a := p) (b := q) (R := d1) (R' := d1) (f := 0) (ep'.trans (small _ ap)) (eq'.trans (small _ aq)) (by simp)
  have szt : size (position s p q d1) = |(d1 : ℝ)| := position_size s hs _ _ _
  have n1 := size_sub (position s p q d1) ((k : ℝ) • v')
  have S0 := size_nonneg ((k : ℝ) • v')
  have tri := chord_triangle (position s p' q' d1) (position s p q d1) ((k : ℝ) • v')
  rw [szt] at n1
  have big : |(d1 : ℝ)| ≤ size ((k : ℝ) • v') * 2 := by
    have : size ((k : ℝ) • v') * 2 ^ (-23 : ℤ) ≤ size ((k : ℝ) • v') * 1 := mul_le_mul_of_nonneg_left (by norm_num) S0
    linarith
  have m : |(d1 : ℝ)| * (7 / 2 * (16 * ε + 17 * unit53) + 0) ≤ size ((k : ℝ) • v') * 2 * (7 / 2 * (16 * ε + 17 * unit53) + 0) :=
    mul_le_mul_of_nonneg_right big (by positivity)
  have e : (k * K) • len a.u3 • v' = len u • (k : ℝ) • v' := by
    rw [smul_smul, smul_smul, hK]
    congr 1
    ring
  refine ⟨len u • position s p' q' d1, (own_unit hs (a := QSph.times F rad T I junk s a (.num k) u)).2 ⟨_, ⟨p', q', d1, ?_, dp', dq', dd1, rfl⟩, rfl⟩, ?_⟩
  · simp only [QSph.times, hp, hp', hq', e3]
  have c1 := mul_nonneg S0 h0
  have c2 := mul_nonneg S0 u0.le
  clear mv v1 v2 hk hk' l4
  rw [e, chord_smul, size_smul (len u), abs_of_pos Lu, mul_assoc]
  constructor
  · refine mul_le_mul_of_nonneg_left ?_ Lu.le
    have p22 : (2 : ℝ) ^ (-22 : ℤ) = 2 * 2 ^ (-23 : ℤ) := by norm_num
    have c3 : size ((k : ℝ) • v') * (1000 * unit53) ≤ size ((k : ℝ) • v') * 2 ^ (-23 : ℤ) := mul_le_mul_of_nonneg_left (by norm_num [unit53]) S0
    rw [p22]
    generalize (2 : ℝ) ^ (-23 : ℤ) = δ at *
    nlinarith
  · intro h
    rw [mul_assoc]
    refine mul_le_mul_of_nonneg_left ?_ Lu.le
    have p43 : (2 : ℝ) ^ (-43 : ℤ) = 1024 * unit53 := by norm_num [unit53]
    have p45 : (2 : ℝ) ^ (-45 : ℤ) = 256 * unit53 := by norm_num [unit53]
    have h' := t2 (by
      have e : √((len a.u3 • v') 0 ^ 2 + (len a.u3 • v') 1 ^ 2) = len a.u3 * √(v' 0 ^ 2 + v' 1 ^ 2) := by
        have : (len a.u3 • v') 0 ^ 2 + (len a.u3 • v') 1 ^ 2 = len a.u3 ^ 2 * (v' 0 ^ 2 + v' 1 ^ 2) := by simp; ring
        rw [this, Real.sqrt_mul (sq_nonneg _), Real.sqrt_sq L0.le]
      rw [e, size_smul, abs_of_pos L0, mul_div_assoc] at h
      exact le_of_mul_le_mul_left h L0)
    rw [p45] at h'
    rw [p43]
    nlinarith

/-- (1 km, 500 m, 0 m) + (250 m, 1 km, 3 km) = (1.25 km, 1500 m, 3000 m), by sum and by operator+. -/
example (T : Trig) (I : InverseTrig) (junk : Dbl) :
    QSph.sum exampleFactors T I junk .cartesian .cartesian ⟨⟨.num 1, .num 500, .num 0⟩, true, false, false⟩ ⟨⟨.num 250, .num 1, .num 3⟩, false, true, true⟩ =
      ⟨⟨.num (5 / 4), .num 1500, .num 3000⟩, true, false, false⟩ ∧
    QSph.plus exampleFactors true T I junk .cartesian .cartesian ⟨⟨.num 1, .num 500, .num 0⟩, true, false, false⟩ ⟨⟨.num 250, .num 1, .num 3⟩, false, true, true⟩ =
      ⟨⟨.num (5 / 4), .num 1500, .num 3000⟩, true, false, false⟩ := by
  have x : (Dbl.num 1).add ((Dbl.num 250).mul (exampleFactors false true)) = .num (5 / 4) := by decide +kernel
  have y : (Dbl.num 500).add ((Dbl.num 1).mul (exampleFactors true false)) = .num 1500 := by decide +kernel
  have z : (Dbl.num 0).add ((Dbl.num 3).mul (exampleFactors true false)) = .num 3000 := by decide +kernel
  have e : ∀ p q r : Dbl, (⟨p, q, r⟩ : DSph).toCartesian T .cartesian = ⟨p, q, r⟩ := fun _ _ _ => rfl
  have e' : ∀ p q r : Dbl, (⟨p, q, r⟩ : DVec).toAngular I junk .cartesian = ⟨p, q, r⟩ := fun _ _ _ => rfl
  constructor <;> simp only [QSph.sum, QSph.plus, QSph.cartesian, QVec.sum, e, e', x, y, z]

/-- Two kilometres in some direction and 500 metres along the axis: the result is in kilometres and right to 2 millimetres. -/
example : ∃ (T : Trig) (I : InverseTrig), ∀ junk, ∀ r, r = QSph.plus exampleFactors true T I junk .spherical .cartesian
      ⟨⟨.num 1, .num 1, .num 2⟩, true, true, true⟩ ⟨⟨.num 0, .num 0, .num 500⟩, false, false, false⟩ →
    r.u3 = true ∧ ∃ z, StandsFor (fun b : Bool => if b then (1000 : ℝ) else 1) .spherical r z ∧ chord z (position .spherical 1 1 2000 + ![0, 0, 500]) ≤ 2 / 1000 := by
  obtain ⟨T, hT⟩ := best_exists
  obtain ⟨I, hI⟩ := inverse_exists
  refine ⟨T, I, fun junk r hr => ?_⟩
  have d (i : ℤ) (h : |i| ≤ 2 ^ 53) : IsDouble i := isDouble_int h
  have d1 : IsDouble 1 := by simpa using d 1 (by norm_num)
  have d2 : IsDouble 2 := by simpa using d 2 (by norm_num)
  have d5 : IsDouble 500 := by simpa using d 500 (by norm_num)
  have s1 : size (position .spherical 1 1 2000) = 2000 := by rw [position_size _ (by decide)]; norm_num
  have s2 : size ![0, 0, 500] = 500 := by
    rw [size_eq]
    simp only [Matrix.cons_val]
    rw [show ((0 : ℝ) ^ 2 + 0 ^ 2 + 500 ^ 2) = 500 ^ 2 by norm_num, Real.sqrt_sq (by norm_num)]
  have s3 := size_add (position .spherical 1 1 2000) ![0, 0, 500]
  have s4 := size_sub (position .spherical 1 1 2000) (position .spherical 1 1 2000 + ![0, 0, 500])
  have s5 : chord (position .spherical 1 1 2000) (position .spherical 1 1 2000 + ![0, 0, 500]) = 500 := by
    rw [← s2, size_eq, chord]
    congr 1
    simp
  rw [s1, s5] at s4
  rw [s1, s2] at s3
  obtain ⟨-, -, hu, z, hz, z1, -⟩ := C141_plus exampleFactors_accurate (by positivity) (by norm_num) (best_accurate hT) hI junk .spherical .cartesian (by decide)
    ⟨⟨.num 1, .num 1, .num 2⟩, true, true, true⟩ ⟨⟨.num 0, .num 0, .num 500⟩, false, false, false⟩ (position .spherical 1 1 2000) ![0, 0, 500]
    ⟨1, 1, 2, rfl, d1, d1, d2, by norm_num⟩ ⟨0, 0, 500, rfl, isDouble_zero, isDouble_zero, d5, by norm_num⟩
    (by rw [Manageable, s1]; norm_num) (by rw [Manageable, s2]; norm_num) (fun h => absurd rfl h) (by
      rw [s1, s2]
      refine le_trans ?_ (show (1500 : ℝ) ≤ _ by linarith)
      norm_num) r hr
  refine ⟨hu, z, hz, z1.trans ?_⟩
  rw [s1, s2]
  have := mul_le_mul_of_nonneg_right s3 (show (0 : ℝ) ≤ 2 ^ (-22 : ℤ) by positivity)
  refine (add_le_add this le_rfl).trans ?_
  norm_num

/-- Three times a differential of length 2 whose angles are in degrees: right to a millionth of the length. -/
example : ∃ (T : Trig) (I : InverseTrig), ∀ junk, ∀ r, r = QSph.times angleFactors true T I junk .spherical
      ⟨⟨.num 1, .num 1, .num 2⟩, false, false, true⟩ (.num 3) true →
    r.u1 = false ∧ ∃ z, StandsFor (fun b : Bool => if b then (1 : ℝ) else Real.pi / 180) .spherical r z ∧ chord z ((3 : ℝ) • position .spherical 1 1 2) ≤ 6 / 1000000 := by
  obtain ⟨T, hT⟩ := best_exists
  obtain ⟨I, hI, hz⟩ := short_exists
  refine ⟨T, I, fun junk r hr => ?_⟩
  have d (i : ℤ) (h : |i| ≤ 2 ^ 53) : IsDouble i := isDouble_int h
  have d1 : IsDouble 1 := by simpa using d 1 (by norm_num)
  have d2 : IsDouble 2 := by simpa using d 2 (by norm_num)
  have s1 : size (position .spherical 1 1 2) = 2 := by rw [position_size _ (by decide)]; norm_num
  have p1 := Real.pi_gt_three
  have p2 := Real.pi_le_four
  have hA : AngleUnit (fun b : Bool => if b then (1 : ℝ) else Real.pi / 180) false := by
    constructor
    · simp only [Bool.false_eq_true, if_false]
      have : (2 : ℝ) ^ (-30 : ℤ) ≤ 3 / 180 := by norm_num
      linarith
    · simp only [Bool.false_eq_true, if_false]
      have : (4 : ℝ) / 180 ≤ 2 ^ (30 : ℤ) := by norm_num
      linarith
  obtain ⟨hu, -, -, z, hz', z1, -⟩ := C141_times angleFactors_accurate (rad := true) (by simp) (by positivity) (by norm_num) (best_accurate hT) hI hz junk .spherical
    (by decide) ⟨⟨.num 1, .num 1, .num 2⟩, false, false, true⟩ (position .spherical 1 1 2) ⟨1, 1, 2, rfl, d1, d1, d2, by norm_num⟩ ⟨hA, hA⟩
    (by rw [s1]; norm_num) 3 (by norm_num) (by norm_num) true 1 (by simp) r hr
  refine ⟨hu, z, hz', ?_⟩
  rw [size_smul, s1] at z1
  norm_num at z1 ⊢
  linarith

end Astro
