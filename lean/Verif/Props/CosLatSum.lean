import Verif.Lemmas.CosLatSum
import Verif.Props.MixedSum

/-
C142: sums and products of coslat differentials with different units in doubles.
-/

set_option exponentiation.threshold 3000

namespace Astro

open Spec Time

attribute [local irreducible] FloatFmt.nearest FloatFmt.value Dbl.round

variable {U : Type} {len : U → ℝ} {F : Factors U} {rad : U} {ε : ℝ}

/-- **C142.** A coslat differential plus a Cartesian, spherical or equatorial differential with any units; `v` is what the stored numbers of the first operand stand
for when they are read as azimuth and polar angle.  There are an azimuth `α`, a polar angle `β` in the usual range and a length `ρ` that stand for `v + w`, within
2^-22 (2^-44 away from the axis) of its length and what the factors, accurate to `ε`, and rounding contribute, compared with the operands; the result stands for
`α`, `β cos α`, `ρ` within 2^-22 (2^-44) and has the units of the first operand. -/
theorem C142_plus (hF : AccurateFactors len F ε) (h0 : 0 ≤ ε) (h1 : ε ≤ 2 ^ (-20 : ℤ)) {T : Trig} {I : InverseTrig} (hT : Accurate T) (hI : AccurateInverse I)
    (junk : Dbl) (s : Coord.System) (a b : QSph U) (v w : Coord.Vec) (ha : StandsFor len .spherical a v) (hb : StandsFor len s b w)
    (mv : Manageable len a.u3 v) (mw : Manageable len a.u3 w) (mb : s ≠ .cartesian → Manageable len b.u3 w)
    (hc : (80 * ε + 2 ^ (-43 : ℤ)) * (size v + size w) ≤ size (v + w)) :
    ∀ r, r = QSph.cosLatPlus F rad T I junk a (.plain s b) → r.u1 = a.u1 ∧ r.u2 = a.u2 ∧ r.u3 = a.u3 ∧ ∃ α β ρ : ℝ,
      (0 ≤ ρ ∧ -2 ^ (-52 : ℤ) ≤ β ∧ β ≤ Real.pi + 2 ^ (-52 : ℤ)) ∧
      chord (position .spherical α β ρ) (v + w) ≤ size (v + w) * 2 ^ (-22 : ℤ) + (size v + size w) * (3 * ε + 2 ^ (-48 : ℤ)) ∧
      (size (v + w) / 3 ≤ √((v + w) 0 ^ 2 + (v + w) 1 ^ 2) →
        chord (position .spherical α β ρ) (v + w) ≤ size (v + w) * 2 ^ (-44 : ℤ) + (size v + size w) * (3 * ε + 2 ^ (-48 : ℤ))) ∧
      ∃ z, StandsFor len .spherical r z ∧ chord z (position .spherical α (β * Real.cos α) ρ) ≤ size (v + w) * 2 ^ (-22 : ℤ) ∧
        (1 / 3 ≤ |Real.sin (β * Real.cos α)| → chord z (position .spherical α (β * Real.cos α) ρ) ≤ size (v + w) * 2 ^ (-44 : ℤ)) := by
  intro r hr
  have L0 := hF.positive a.u3
  have u0 := unit53_pos
  have h2 : ε ≤ 1 / 1000000 := h1.trans (by norm_num)
  have ns : Coord.System.spherical ≠ .cartesian := by decide
  obtain ⟨W, x, y, z, hW, hxyz, hE, h40, lo, hi⟩ := mixed_ready hF h0 h1 hT ns ha hb mv mw mb hc
  obtain ⟨p, q, m, hm, dp, dq, dm, hr', t1, t2⟩ := twice_polar hT hI junk hxyz le_rfl h40 lo hi
  have S0 : 0 ≤ size v + size w := add_nonneg (size_nonneg _) (size_nonneg _)
  have W0 := size_nonneg W
  have hb4 : |(q : ℝ)| ≤ 4 := by
    have p := Real.pi_lt_d2
    have s : (2 : ℝ) ^ (-52 : ℤ) ≤ 1 / 100 := by norm_num
    obtain ⟨-, b1, b2⟩ := hr'
    rw [abs_le]
    norm_num at p
    clear lo hi t1 t2 hc h1
    generalize (2 : ℝ) ^ (-52 : ℤ) = ε at *
    constructor <;> linarith
  have zW : size (v + w) = len a.u3 * size W := by rw [hW, size_smul, abs_of_pos L0]
  have lo2 : (2 : ℝ) ^ (-444 : ℤ) ≤ size W := by
    have k : (2 : ℝ) ^ (-43 : ℤ) * (2 ^ (-400 : ℤ) * len a.u3) ≤ len a.u3 * size W := by
      rw [← zW]
      refine le_trans ?_ hc
      have b0 : 2 ^ (-400 : ℤ) * len a.u3 ≤ size v + size w := mv.1.trans (le_add_of_nonneg_right (size_nonneg _))
      refine mul_le_mul ?_ b0 (by positivity) (by positivity)
      exact le_add_of_nonneg_left (by positivity)
    have k' : (2 : ℝ) ^ (-443 : ℤ) * len a.u3 ≤ size W * len a.u3 := by
      rw [mul_comm (size W)]
      refine le_trans (le_of_eq ?_) k
      rw [← mul_assoc, ← zpow_add₀ (by norm_num)]
      norm_num
    exact (by norm_num : (2 : ℝ) ^ (-444 : ℤ) ≤ 2 ^ (-443 : ℤ)).trans (le_of_mul_le_mul_right k' L0)
  have hi2 : size W ≤ 2 ^ (401 : ℤ) := by
    have k := (size_add v w).trans (add_le_add mv.2 mw.2)
    rw [zW, mul_comm (len a.u3)] at k
    have e : (2 : ℝ) ^ (400 : ℤ) * len a.u3 + 2 ^ (400 : ℤ) * len a.u3 = 2 ^ (401 : ℤ) * len a.u3 := by
      rw [show (2 : ℝ) ^ (401 : ℤ) = 2 ^ (400 : ℤ) + 2 ^ (400 : ℤ) by norm_num]
      ring
    rw [e] at k
    exact le_of_mul_le_mul_right k L0
  have s1 := size_sub (position .spherical p q m) W
  have s2 := size_sub W (position .spherical p q m)
  rw [chord_comm] at s2
  rw [position_size .spherical (by decide)] at s1 s2
  have ch : chord (position .spherical p q m) W ≤ size W * (1 / 1000) + size W / 30 :=
    t1.trans (add_le_add (mul_le_mul_of_nonneg_left (by norm_num) W0) (by linarith))
  have r1 : |(m : ℝ)| ≤ 2 * size W := by
    clear lo hi lo2 hi2 t1 t2 hc h1
    linarith
  have r2 : size W / 2 ≤ |(m : ℝ)| := by
    clear lo hi lo2 hi2 t1 t2 hc h1
    linarith
  obtain ⟨t, ht, z1, z2⟩ := cosLat_stored hT hI junk dp dm hb4 (by
      refine le_trans ?_ r2
      have t1 : (2 : ℝ) ^ (-460 : ℤ) ≤ 2 ^ (-444 : ℤ) / 2 := by norm_num
      exact t1.trans (div_le_div_of_nonneg_right lo2 (by norm_num))) (r1.trans (by
      have t1 : 2 * (2 : ℝ) ^ (401 : ℤ) ≤ 2 ^ (480 : ℤ) := by norm_num
      exact (mul_le_mul_of_nonneg_left hi2 (by norm_num)).trans t1))
  have hform : r = ⟨DSph.ofPoint T I junk .spherical .spherical ⟨.num p, (Dbl.num q).mul (T.cos (.num p)), .num m⟩, a.u1, a.u2, a.u3⟩ := by
    rw [hr]
    exact cosLat_unconverted hF hT junk hm dp dq hb4 ht a.u3 a.u1 a.u2
  rw [hform]
  have sc : ∀ α β ρ : ℝ, position .spherical α β (len a.u3 * ρ) = len a.u3 • position .spherical α β ρ := fun α β ρ => (position_smul .spherical ns α β ρ _).symm
  refine ⟨rfl, rfl, rfl, p, q, len a.u3 * m, ⟨mul_nonneg L0.le hr'.1, hr'.2⟩, ?_, ?_, len a.u3 • t,
    (own_unit ns (a := ⟨_, a.u1, a.u2, a.u3⟩)).2 ⟨t, ht, rfl⟩, ?_, ?_⟩
  · rw [sc, zW, hW, chord_smul, abs_of_pos L0, show (2 : ℝ) ^ (-48 : ℤ) = 32 * unit53 by norm_num [unit53]]
    have m := mul_le_mul_of_nonneg_left t1 L0.le
    have c1 := mul_nonneg S0 h0
    have c2 := mul_nonneg S0 u0.le
    clear lo hi lo2 hi2 t2 hc h1 mv mw mb hr'
    generalize (2 : ℝ) ^ (-22 : ℤ) = δ at *
    nlinarith
  · intro h
    rw [zW, hW, axis_smul, abs_of_pos L0, mul_div_assoc] at h
    have m := mul_le_mul_of_nonneg_left (t2 (le_of_mul_le_mul_left h L0)) L0.le
    rw [sc, zW, hW, chord_smul, abs_of_pos L0, show (2 : ℝ) ^ (-48 : ℤ) = 32 * unit53 by norm_num [unit53]]
    have c1 := mul_nonneg S0 h0
    have c2 := mul_nonneg S0 u0.le
    clear lo hi lo2 hi2 t1 t2 hc h1 mv mw mb hr'
    generalize (2 : ℝ) ^ (-44 : ℤ) = δ at *
    nlinarith
  · rw [sc, zW, chord_smul, abs_of_pos L0, mul_assoc]
    refine mul_le_mul_of_nonneg_left (z1.trans ((mul_le_mul_of_nonneg_right r1 (by positivity)).trans (le_of_eq ?_))) L0.le
    rw [show (2 : ℝ) ^ (-22 : ℤ) = 2 * 2 ^ (-23 : ℤ) by norm_num]
    ring
  · intro h
    rw [sc, zW, chord_smul, abs_of_pos L0, mul_assoc]
    refine mul_le_mul_of_nonneg_left ((z2 h).trans ((mul_le_mul_of_nonneg_right r1 (by positivity)).trans (le_of_eq ?_))) L0.le
    rw [show (2 : ℝ) ^ (-44 : ℤ) = 2 * 2 ^ (-45 : ℤ) by norm_num]
    ring

/-- **C142.** The same with a coslat differential as the second operand, with the azimuth `φ`, the product `c` of polar angle and cosine, and the length `R`: it
is read as the polar angle `c / cos φ`, and the error grows with the inverse square of the cosine. -/
theorem C142_coslat (hF : AccurateFactors len F ε) (h0 : 0 ≤ ε) (h1 : ε ≤ 2 ^ (-20 : ℤ)) {T : Trig} {I : InverseTrig} (hT : Accurate T) (hI : AccurateInverse I)
    (junk : Dbl) (a : QSph U) (v : Coord.Vec) (ha : StandsFor len .spherical a v) (φ c R : ℚ) (dφ : IsDouble φ) (dR : IsDouble R) (u1 u2 u3 : U)
    (hφ : 2 ^ (-20 : ℤ) ≤ |Real.cos φ|) (hw : |(c : ℝ)| ≤ 4) (w : Coord.Vec) (hb : w = position .spherical φ (c / Real.cos φ) (R * len u3))
    (mv : Manageable len a.u3 v) (mw : Manageable len a.u3 w) (mb : Manageable len u3 w)
    (hc : (80 * ε + 2 ^ (-41 : ℤ) / Real.cos φ ^ 2) * (size v + size w) ≤ size (v + w)) :
    ∀ r, r = QSph.cosLatPlus F rad T I junk a (.coslat ⟨⟨.num φ, .num c, .num R⟩, u1, u2, u3⟩) → r.u1 = a.u1 ∧ r.u2 = a.u2 ∧ r.u3 = a.u3 ∧ ∃ α β ρ : ℝ,
      (0 ≤ ρ ∧ -2 ^ (-52 : ℤ) ≤ β ∧ β ≤ Real.pi + 2 ^ (-52 : ℤ)) ∧
      chord (position .spherical α β ρ) (v + w) ≤ size (v + w) * 2 ^ (-22 : ℤ) + (size v + size w) * (3 * ε + 2 ^ (-46 : ℤ) / Real.cos φ ^ 2) ∧
      (size (v + w) / 2 ≤ √((v + w) 0 ^ 2 + (v + w) 1 ^ 2) →
        chord (position .spherical α β ρ) (v + w) ≤ size (v + w) * 2 ^ (-44 : ℤ) + (size v + size w) * (3 * ε + 2 ^ (-46 : ℤ) / Real.cos φ ^ 2)) ∧
      ∃ z, StandsFor len .spherical r z ∧ chord z (position .spherical α (β * Real.cos α) ρ) ≤ size (v + w) * 2 ^ (-21 : ℤ) ∧
        (1 / 3 ≤ |Real.sin (β * Real.cos α)| → chord z (position .spherical α (β * Real.cos α) ρ) ≤ size (v + w) * 2 ^ (-43 : ℤ)) := by
  intro r hr
  have u0 := unit53_pos
  have L0 := hF.positive u3
  have ns : Coord.System.spherical ≠ .cartesian := by decide
  obtain ⟨q, hq, dq, eq⟩ := cosLat_angle hT dφ hφ hw
  have c0 : 0 < Real.cos φ ^ 2 := by
    rw [← sq_abs]
    exact pow_pos (lt_of_lt_of_le (by positivity) hφ) 2
  have c1 : Real.cos φ ^ 2 ≤ 1 := Real.cos_sq_le_one _
  have e : QSph.cosLatPlus F rad T I junk a (.coslat ⟨⟨.num φ, .num c, .num R⟩, u1, u2, u3⟩) =
      QSph.cosLatPlus F rad T I junk a (.plain .spherical ⟨⟨.num φ, .num q, .num R⟩, u1, u2, u3⟩) := by
    simp only [QSph.cosLatPlus, QMotion.cartesian, DSph.cosLatCartesian, hq, QSph.cartesian]
  set κ : ℝ := unit53 / Real.cos φ ^ 2 with hκ
  have κ0 : 0 < κ := div_pos u0 c0
  have κ1 : unit53 ≤ κ := by
    rw [hκ, le_div_iff₀ c0]
    nlinarith
  set w' := position .spherical φ q (R * len u3) with hw'
  have zw : size w = |R * len u3| := by rw [hb, position_size .spherical (by decide)]
  have zw' : size w' = size w := by rw [zw, position_size .spherical (by decide)]
  have d : chord w' w ≤ size w * (35 / 2 * κ) := by
    have k := fun i => position_close ns (a := φ) (a' := φ) (b := q) (b' := c / Real.cos φ) (r := R * len u3) (e := 0) (by simp) eq i
    have := chord_le_of (v := w') (w := w) (e := |R * len u3| * (10 * κ)) ?_ ?_ ?_
    · refine this.trans (le_of_eq ?_)
      rw [zw]
      ring
    all_goals
      rw [hb]
      refine (k _).trans (le_of_eq ?_)
      rw [hκ, zero_add, mul_div_assoc]
  have d' : chord (v + w') (v + w) = chord w' w := by
    simp only [chord, Pi.add_apply, add_sub_add_left_eq_sub]
  have S1 := size_nonneg v
  have S2 := size_nonneg w
  have t1 := size_sub (v + w') (v + w)
  have t2 := size_sub (v + w) (v + w')
  rw [chord_comm] at t2
  rw [d'] at t1 t2
  have g1 := mul_nonneg S1 κ0.le
  have g2 := mul_nonneg S2 κ0.le
  have g3 := mul_nonneg S1 h0
  have g4 := mul_nonneg S2 h0
  have g5 : size w * unit53 ≤ size w * κ := mul_le_mul_of_nonneg_left κ1 S2
  have g6 : size v * unit53 ≤ size v * κ := mul_le_mul_of_nonneg_left κ1 S1
  have p41 : (2 : ℝ) ^ (-41 : ℤ) / Real.cos φ ^ 2 = 4096 * κ := by
    rw [hκ, ← mul_div_assoc]
    congr 1
    norm_num [unit53]
  have p46 : (2 : ℝ) ^ (-46 : ℤ) / Real.cos φ ^ 2 = 128 * κ := by
    rw [hκ, ← mul_div_assoc]
    congr 1
    norm_num [unit53]
  have p43 : (2 : ℝ) ^ (-43 : ℤ) = 1024 * unit53 := by norm_num [unit53]
  have p48 : (2 : ℝ) ^ (-48 : ℤ) = 32 * unit53 := by norm_num [unit53]
  rw [p41] at hc
  have small : size w * (35 / 2 * κ) ≤ size (v + w) / 200 := by
    clear mv mw mb h1 hφ
    nlinarith
  obtain ⟨a1, a2, a3, α, β, ρ, hρ, k1, k2, z, hz, z1, z2⟩ := C142_plus hF h0 h1 hT hI junk .spherical a ⟨⟨.num φ, .num q, .num R⟩, u1, u2, u3⟩ v w' ha
    ⟨φ, q, R, rfl, dφ, dq, dR, rfl⟩ mv (by rw [Manageable, zw']; exact mw) (fun _ => by rw [Manageable, zw']; exact mb) (by
      rw [zw', p43]
      clear mv mw mb h1 hφ
      nlinarith) r (hr.trans e)
  rw [zw'] at k1 k2
  have far := chord_triangle (position .spherical α β ρ) (v + w') (v + w)
  rw [d'] at far
  have g7 : 0 ≤ size (v + w) := size_nonneg _
  clear mv mw mb h1 hφ
  refine ⟨a1, a2, a3, α, β, ρ, hρ, ?_, fun h => ?_, z, hz, z1.trans ?_, fun h => (z2 h).trans ?_⟩
  · rw [p46]
    rw [p48] at k1
    have m := mul_le_mul_of_nonneg_right t1 (show (0 : ℝ) ≤ 2 ^ (-22 : ℤ) by positivity)
    have m' : chord w' w * 2 ^ (-22 : ℤ) ≤ chord w' w * 1 := mul_le_mul_of_nonneg_left (by norm_num) (chord_nonneg _ _)
    generalize (2 : ℝ) ^ (-22 : ℤ) = δ at *
    clear k2
    linarith
  · have ax := axis_near (v + w') (v + w)
    rw [d'] at ax
    have k := k2 (by clear k1 k2; linarith)
    rw [p46]
    rw [p48] at k
    have m := mul_le_mul_of_nonneg_right t1 (show (0 : ℝ) ≤ 2 ^ (-44 : ℤ) by positivity)
    have m' : chord w' w * 2 ^ (-44 : ℤ) ≤ chord w' w * 1 := mul_le_mul_of_nonneg_left (by norm_num) (chord_nonneg _ _)
    generalize (2 : ℝ) ^ (-44 : ℤ) = δ at *
    clear k1 k2
    linarith
  · rw [show (2 : ℝ) ^ (-21 : ℤ) = 2 * 2 ^ (-22 : ℤ) by norm_num, ← mul_assoc]
    exact mul_le_mul_of_nonneg_right (by clear k1 k2; linarith) (by positivity)
  · rw [show (2 : ℝ) ^ (-43 : ℤ) = 2 * 2 ^ (-44 : ℤ) by norm_num, ← mul_assoc]
    exact mul_le_mul_of_nonneg_right (by clear k1 k2; linarith) (by positivity)

/-- **C142.** A coslat differential times a number: its stored numbers read as a spherical differential are those of the multiple within `120 ε + 2^-22`, away from
the axis `120 ε + 2^-43`. -/
theorem C142_times (hF : AccurateFactors len F ε) (hr : len rad = 1) (h0 : 0 ≤ ε) (h1 : ε ≤ 2 ^ (-20 : ℤ)) {T : Trig} {I : InverseTrig} (hT : Accurate T)
    (hI : AccurateInverse I) (hz : ShortAzimuth I) (junk : Dbl) (a : QSph U) (v : Coord.Vec) (ha : StandsFor len .spherical a v)
    (hA : AngleUnit len a.u1 ∧ AngleUnit len a.u2) (mv : 2 ^ (-300 : ℤ) * len a.u3 ≤ size v ∧ size v ≤ 2 ^ (300 : ℤ) * len a.u3) (k : ℚ)
    (hk : 2 ^ (-100 : ℤ) ≤ |(k : ℝ)|) (hk' : |(k : ℝ)| ≤ 2 ^ (100 : ℤ)) (u : U) (K : ℝ) (hK : len u = len a.u3 * K) :
    ∀ r, r = QSph.cosLatTimes F rad T I junk a (.num k) u → r.u1 = a.u1 ∧ r.u2 = a.u2 ∧ r.u3 = u ∧ ∃ z, StandsFor len .spherical r z ∧
      chord z ((k * K) • v) ≤ size ((k * K) • v) * (120 * ε + 2 ^ (-22 : ℤ)) ∧
      (size v / 3 ≤ √(v 0 ^ 2 + v 1 ^ 2) → chord z ((k * K) • v) ≤ size ((k * K) • v) * (120 * ε + 2 ^ (-43 : ℤ))) :=
  C141_times hF hr h0 h1 hT hI hz junk .spherical (by decide) a v ha hA mv k hk hk' u K hK

/-- Two kilometres in some direction and a coslat differential of 500 metres at the azimuth 0, in metres: the result is in kilometres, and some polar coordinates of
it stand for the sum to 2 millimetres. -/
example : ∃ (T : Trig) (I : InverseTrig), ∀ junk, ∀ r, r = QSph.cosLatPlus exampleFactors true T I junk ⟨⟨.num 1, .num 1, .num 2⟩, true, true, true⟩
      (.coslat ⟨⟨.num 0, .num 1, .num 500⟩, false, false, false⟩) →
    r.u3 = true ∧ ∃ α β ρ : ℝ, chord (position .spherical α β ρ) (position .spherical 1 1 2000 + position .spherical 0 1 500) ≤ 2 / 1000 ∧
      ∃ z, StandsFor (fun b : Bool => if b then (1000 : ℝ) else 1) .spherical r z ∧ chord z (position .spherical α (β * Real.cos α) ρ) ≤ 2 / 1000 := by
  obtain ⟨T, hT⟩ := best_exists
  obtain ⟨I, hI⟩ := inverse_exists
  refine ⟨T, I, fun junk r hr => ?_⟩
  have d (i : ℤ) (h : |i| ≤ 2 ^ 53) : IsDouble i := isDouble_int h
  have d1 : IsDouble 1 := by simpa using d 1 (by norm_num)
  have d2 : IsDouble 2 := by simpa using d 2 (by norm_num)
  have d5 : IsDouble 500 := by simpa using d 500 (by norm_num)
  have s1 : size (position .spherical 1 1 2000) = 2000 := by rw [position_size _ (by decide)]; norm_num
  have s2 : size (position .spherical 0 1 500) = 500 := by rw [position_size _ (by decide)]; norm_num
  have s3 := size_add (position .spherical 1 1 2000) (position .spherical 0 1 500)
  have s4 := size_sub (position .spherical 1 1 2000) (position .spherical 1 1 2000 + position .spherical 0 1 500)
  have s5 : chord (position .spherical 1 1 2000) (position .spherical 1 1 2000 + position .spherical 0 1 500) = 500 := by
    refine Eq.trans ?_ s2
    rw [size_eq, chord]
    congr 1
    simp
  rw [s1, s5] at s4
  rw [s1, s2] at s3
  obtain ⟨-, -, hu, α, β, ρ, -, k1, -, z, hz, z1, -⟩ := C142_coslat exampleFactors_accurate (by positivity) (by norm_num) (best_accurate hT) hI junk
    ⟨⟨.num 1, .num 1, .num 2⟩, true, true, true⟩ (position .spherical 1 1 2000) ⟨1, 1, 2, rfl, d1, d1, d2, by norm_num⟩ 0 1 500 isDouble_zero d5 false false false
    (by norm_num) (by norm_num) (position .spherical 0 1 500) (by norm_num)
    (by rw [Manageable, s1]; norm_num) (by rw [Manageable, s2]; norm_num) (by rw [Manageable, s2]; norm_num) (by
      rw [s1, s2]
      refine le_trans ?_ (show (1500 : ℝ) ≤ _ by linarith)
      norm_num) r hr
  refine ⟨hu, α, β, ρ, k1.trans ?_, z, hz, z1.trans ?_⟩
  · rw [s1, s2]
    norm_num
    linarith
  · norm_num
    linarith

end Astro
