import Verif.Lemmas.UnitChain
import Verif.Props.TimeDouble
import Verif.Props.UnitChain
import Verif.Spec.Observe

/-
Lemmas about the direction of a star over the horizon.
-/

set_option exponentiation.threshold 3000

namespace Astro

open Spec Time Matrix

attribute [local irreducible] FloatFmt.nearest FloatFmt.value Dbl.round

/-- The two rotations are the astronomical triangle. -/
theorem turned_horizon (θ φ α δ : ℝ) : turned [(.hourAngle, θ), (.horizon, φ)] (Coord.columnVector α δ) = overHorizon φ (θ - α) δ := by
  have h : turned [(.hourAngle, θ), (.horizon, φ)] (Coord.columnVector α δ) = Coord.haDecHorizon φ *ᵥ (Coord.haDecRaDec θ *ᵥ Coord.columnVector α δ) := rfl
  rw [h, C82_right_ascension]
  unfold overHorizon
  ext i
  fin_cases i <;> simp [Coord.haDecHorizon, Coord.columnVector, mulVec, dotProduct, Fin.sum_univ_three] <;> ring

/-- Whole turns of the hour angle do not count, and a small change turns the star by no more than that. -/
theorem overHorizon_close (φ δ a b : ℝ) (k : ℤ) {e : ℝ} (h : |a - (b + 2 * Real.pi * k)| ≤ e) : chord (overHorizon φ a δ) (overHorizon φ b δ) ≤ e := by
  have hb : overHorizon φ b δ = overHorizon φ (b + 2 * Real.pi * k) δ := by
    unfold overHorizon
    have h1 : Real.cos (b + 2 * Real.pi * k) = Real.cos b := by rw [mul_comm]; exact Real.cos_add_int_mul_two_pi b k
    have h2 : Real.sin (b + 2 * Real.pi * k) = Real.sin b := by rw [mul_comm]; exact Real.sin_add_int_mul_two_pi b k
    rw [h1, h2]
  have g := exact_close .hourAngle a (b + 2 * Real.pi * k) (Coord.columnVector 0 δ)
  rw [column_size, mul_one] at g
  have g2 : chord (exactMatrix .horizon φ *ᵥ (exactMatrix .hourAngle a *ᵥ Coord.columnVector 0 δ)) (exactMatrix .horizon φ *ᵥ (exactMatrix .hourAngle (b + 2 * Real.pi * k) *ᵥ Coord.columnVector 0 δ)) ≤ e := by
    rw [chord_rotate (exact_angle _ _)]
    exact g.trans h
  have s := fun θ => turned_horizon θ φ 0 δ
  have s1 : ∀ θ, turned [(.hourAngle, θ), (.horizon, φ)] (Coord.columnVector 0 δ) = exactMatrix .horizon φ *ᵥ (exactMatrix .hourAngle θ *ᵥ Coord.columnVector 0 δ) := fun _ => rfl
  rw [← s1, ← s1, s, s, sub_zero, sub_zero] at g2
  rw [hb]
  exact g2

/-- Local sidereal time in degrees. -/
theorem sidereal_degrees (N : Nearest) (t : PTime) (h : Representable t.date) (ht : TimeOfDay t) (l : ℚ) (hl : |l| ≤ 720) (dir : Direction) {s : ℚ} (hs : GreenwichHour t s) :
    ∃ r, lst N.rounding l dir t = some r ∧ |N.rnd (15 * r.dh)| ≤ 360 ∧
      ∃ k : ℤ, |degree (N.rnd (15 * r.dh)) - (degree (15 * s + eastward l dir) + 2 * Real.pi * k)| ≤ 27 / 10 ^ 11 := by
  obtain ⟨g, r, hg, hr, r0, r24, k1, hk1⟩ := C89_lst N t h ht l hl dir
  obtain ⟨k2, hk2⟩ : NearHour g.dh s (1 / 10 ^ 9) := by
    by_cases hj : Earlier lastJulian t.date
    · obtain ⟨g', hg', -, -, -, e⟩ := C88_gst N t h ht hj
      rw [hg] at hg'
      obtain rfl := Option.some.inj hg'
      rw [hs.1 hj]
      exact e
    · obtain ⟨g', hg', -, -, -, e⟩ := C88_gst_julian N t h ht hj
      rw [hg] at hg'
      obtain rfl := Option.some.inj hg'
      rw [hs.2 hj]
      exact e
  have hk1 : |r.dh - (g.dh + eastward l dir / 15 + 24 * k1)| ≤ 1 / 2 ^ 46 := by
    cases dir <;> exact hk1
  have r1 : -(1 / 1024) ≤ r.dh := (neg_le_neg tiny_le).trans r0.le
  have hb : |15 * r.dh| ≤ 360 := by
    rw [abs_le]
    constructor <;> linarith
  have d360 : IsDouble 360 := ⟨360, 0, by norm_num, by omega, by omega, by norm_num⟩
  have hst : |N.rnd (15 * r.dh)| ≤ 360 := by
    rw [abs_le] at hb ⊢
    have u := Time.near_mono N hb.2
    have v := Time.near_mono N hb.1
    rw [near_exact N d360] at u
    rw [near_exact N (isDouble_neg d360)] at v
    exact ⟨v, u⟩
  have he := near_err N (15 * r.dh) (-44) (by omega) (by omega) (hb.trans (by norm_num))
  refine ⟨r, hr, hst, k1 + k2, ?_⟩
  have hq : |N.rnd (15 * r.dh) - (15 * s + eastward l dir + 360 * ((k1 + k2 : ℤ) : ℚ))| ≤ 151 / 10 ^ 10 := by
    rw [abs_le] at he hk1 hk2 ⊢
    push_cast
    norm_num at he hk1 hk2 ⊢
    constructor <;> linarith [he.1, he.2, hk1.1, hk1.2, hk2.1, hk2.2]
  have hq' := (Rat.cast_le (K := ℝ)).2 hq
  have e : degree (N.rnd (15 * r.dh)) - (degree (15 * s + eastward l dir) + 2 * Real.pi * ((k1 + k2 : ℤ) : ℝ)) =
      ((N.rnd (15 * r.dh) - (15 * s + eastward l dir + 360 * ((k1 + k2 : ℤ) : ℚ)) : ℚ) : ℝ) * (Real.pi / 180) := by
    unfold degree
    push_cast
    ring
  rw [e, abs_mul, abs_of_pos (show 0 < Real.pi / 180 by positivity)]
  rw [Rat.cast_abs] at hq'
  have hpi := Real.pi_lt_d2
  refine (mul_le_mul hq' (show Real.pi / 180 ≤ 315 / 18000 by linarith) (by positivity) (by push_cast; norm_num)).trans ?_
  push_cast
  norm_num

theorem add_isDouble {a b : Dbl} {c : ℚ} (h : a.add b = .num c) : IsDouble c := by
  match a, b, h with
  | .num x, .num y, h => exact round_isDouble h
  | .inf a, .inf b, h => unfold Dbl.add at h; dsimp only at h; split_ifs at h

/-- The latitude that comes out is between -90 and 90 degrees. -/
theorem convert_range {T : Trig} {I : InverseTrig} (hI : AccurateInverse I) (D : DMat) (p : Dbl × Dbl) {v : ℚ} (h : (D.convert T I p).2 = .num v) :
    |(v : ℝ)| ≤ Real.pi / 2 + 2 ^ (-52 : ℤ) := by
  unfold DMat.convert DVec.extract at h
  dsimp only at h
  obtain ⟨c, hc, dc⟩ : ∃ c, (D.prod (DVec.column T p.1 p.2)).z = .num c ∧ IsDouble c := by
    cases hz : (D.prod (DVec.column T p.1 p.2)).z with
    | nan => rw [hz] at h; simp [InverseTrig.asinOf] at h
    | inf a => rw [hz] at h; simp [InverseTrig.asinOf] at h
    | num c =>
      refine ⟨c, rfl, ?_⟩
      unfold DMat.prod DMat.row at hz
      dsimp only at hz
      exact add_isDouble hz
  rw [hc] at h
  unfold InverseTrig.asinOf at h
  dsimp only at h
  split_ifs at h with hin
  obtain ⟨q, hq, -, eq⟩ := hI.asin c dc (abs_le.2 hin)
  rw [hq] at h
  cases h
  have b1 := Real.arcsin_le_pi_div_two (c : ℝ)
  have b2 := Real.neg_pi_div_two_le_arcsin (c : ℝ)
  generalize (2 : ℝ) ^ (-52 : ℤ) = ε at *
  rw [abs_le] at eq ⊢
  constructor <;> linarith [eq.1, eq.2]

end Astro
