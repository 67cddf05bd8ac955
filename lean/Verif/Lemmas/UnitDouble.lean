import Verif.Lemmas.Magnitude

/-
Sums of squares, magnitudes and unit vectors of doubles.
-/

set_option exponentiation.threshold 3000

namespace Astro

open Spec Time FloatFmt

attribute [local irreducible] FloatFmt.nearest FloatFmt.value Dbl.round Nat.sqrt

/-- The sum of squares that magnitude and bg::transform take the root of. -/
def squares (v : DVec) : Dbl := ((v.x.mul v.x).add (v.y.mul v.y)).add (v.z.mul v.z)

theorem rnd_le_add {p q : ℚ} (hp : IsDouble p) (hq : 0 ≤ q) : p ≤ ieee.rnd (p + q) := by
  have := near_mono ieee (show p ≤ p + q by linarith)
  rwa [near_exact ieee hp] at this

theorem squares_err {v : DVec} {x y z : ℚ} (h : Coords v x y z) (hS : x * x + y * y + z * z ≤ 2 ^ 1022) :
    ∃ s, squares v = .num s ∧ IsDouble s ∧ 0 ≤ s ∧ |s - (x * x + y * y + z * z)| ≤ 4 * ulp * (x * x + y * y + z * z) + 4 * speck ∧
      ieee.rnd (x * x) ≤ s ∧ ieee.rnd (y * y) ≤ s ∧ ieee.rnd (z * z) ≤ s := by
  obtain ⟨rfl, dx, dy, dz⟩ := h
  have x0 := mul_self_nonneg x
  have y0 := mul_self_nonneg y
  have z0 := mul_self_nonneg z
  have b : ∀ t : ℚ, t * t ≤ 2 ^ 1022 → |t * t| ≤ 2 ^ (1023 : ℤ) := by
    intro t ht
    rw [abs_mul_self]
    exact big_top (ht.trans (by norm_num))
  obtain ⟨p, hp, dp, ep, rp⟩ := mul_err (b x (by linarith))
  obtain ⟨q, hq, dq, eq, rq⟩ := mul_err (b y (by linarith))
  obtain ⟨r, hr, dr, er, rr⟩ := mul_err (b z (by linarith))
  rw [abs_mul_self] at ep eq er
  obtain ⟨s, hs, ds, es, rs⟩ := nested_err (a := z * z) (b := x * x) (c := y * y) (abs_mul_self z).le (abs_mul_self x).le (abs_mul_self y).le
    (by linarith) er ep eq dr dp dq
  have p0 : 0 ≤ p := by rw [rp]; exact rnd_nonneg x0
  have q0 : 0 ≤ q := by rw [rq]; exact rnd_nonneg y0
  have r0 : 0 ≤ r := by rw [rr]; exact rnd_nonneg z0
  have t0 : 0 ≤ ieee.rnd (p + q) := rnd_nonneg (add_nonneg p0 q0)
  have hrs : r ≤ s := by rw [rs]; exact rnd_le_add dr t0
  have hts : ieee.rnd (p + q) ≤ s := by
    rw [rs, add_comm r]
    exact rnd_le_add (ieee.isDouble _) r0
  refine ⟨s, ?_, ds, r0.trans hrs, ?_, ?_, ?_, ?_⟩
  · unfold squares
    rw [hp, hq, hr, dbl_add_comm, hs]
  · have e1 : s - (x * x + y * y + z * z) = s - (z * z + x * x + y * y) := by ring
    rw [e1]
    refine es.trans (le_of_eq ?_)
    ring
  · rw [← rp]
    exact (rnd_le_add dp q0).trans hts
  · rw [← rq]
    refine le_trans ?_ hts
    rw [add_comm]
    exact rnd_le_add dq p0
  · rw [← rr]
    exact hrs

theorem round_double {q r : ℚ} (h : Dbl.round q = .num r) : IsDouble r := by
  rcases round_cases q with ⟨x, e, hx⟩ | e
  · rw [e] at h
    rw [← Dbl.num.inj h, hx]
    exact ieee.isDouble _
  · rw [e] at h
    cases h

/-- The sum of two doubles is a double. -/
theorem add_double {a b : Dbl} {r : ℚ} (h : a.add b = .num r) : IsDouble r := by
  cases a with
  | num x =>
    cases b with
    | num y => exact round_double h
    | inf _ => cases h
    | nan => cases h
  | inf a =>
    cases b with
    | num y => cases h
    | inf b => cases a <;> cases b <;> cases h
    | nan => cases h
  | nan => cases h

theorem zero_add' {a : Dbl} (h : ∀ x, a = .num x → IsDouble x) : (Dbl.num 0).add a = a := by
  cases a with
  | num x => rw [add_num, zero_add, round_exact (h x rfl)]
  | inf _ => rfl
  | nan => rfl

theorem magnitude_eq (v : DVec) : v.magnitude = (squares v).sqrt := by
  show ((Dbl.num 0).add (squares v)).sqrt = _
  rw [zero_add']
  intro x hx
  exact add_double hx

/-- The length of a vector. -/
noncomputable def lengthOf (x y z : ℚ) : ℝ := √((x * x + y * y + z * z : ℚ) : ℝ)

theorem ulp_real : ((ulp : ℚ) : ℝ) ≤ 1 / 1024 ∧ (0 : ℝ) < ((ulp : ℚ) : ℝ) :=
  ⟨by have := (Rat.cast_le (K := ℝ)).2 ulp_small; push_cast at this; exact this, by exact_mod_cast ulp_pos⟩

theorem magnitude_err {v : DVec} {x y z : ℚ} (h : Coords v x y z) (hlo : 2 ^ (-960 : ℤ) ≤ x * x + y * y + z * z) (hhi : x * x + y * y + z * z ≤ 2 ^ (1000 : ℤ)) :
    ∃ m, v.magnitude = .num m ∧ IsDouble m ∧ 2 ^ (-481 : ℤ) ≤ m ∧ |(m : ℝ) - lengthOf x y z| ≤ lengthOf x y z * (4 * ((ulp : ℚ) : ℝ)) ∧
      |x| ≤ m ∧ |y| ≤ m ∧ |z| ≤ m := by
  have hS0 : 0 < x * x + y * y + z * z := lt_of_lt_of_le (two_zpow_pos _) hlo
  have h1000 : (2 : ℚ) ^ (1000 : ℤ) ≤ 2 ^ 1022 := by
    rw [show (2 : ℚ) ^ (1000 : ℤ) = 2 ^ 1000 from zpow_ofNat 2 1000]
    exact pow_le_pow_right₀ (by norm_num) (by norm_num)
  obtain ⟨s, hs, ds, s0, es, gx, gy, gz⟩ := squares_err h (hhi.trans h1000)
  obtain ⟨-, dx, dy, dz⟩ := h
  have hsp : 4 * speck ≤ (x * x + y * y + z * z) * ulp / 1024 := by
    have h1 : (x * x + y * y + z * z) * ulp ≥ 2 ^ (-960 : ℤ) * ulp := mul_le_mul_of_nonneg_right hlo ulp_pos.le
    have h2 : (2 : ℚ) ^ (-960 : ℤ) * ulp = 2 ^ 62 * speck := by
      rw [ulp, speck, ← zpow_add₀ (by norm_num)]
      exact zpow_split_nat (by norm_num)
    rw [h2] at h1
    have := speck_pos
    linarith
  have hx : x * x ≤ x * x + y * y + z * z := by linarith [mul_self_nonneg y, mul_self_nonneg z]
  have hy : y * y ≤ x * x + y * y + z * z := by linarith [mul_self_nonneg x, mul_self_nonneg z]
  have hz : z * z ≤ x * x + y * y + z * z := by linarith [mul_self_nonneg x, mul_self_nonneg y]
  unfold lengthOf
  generalize x * x + y * y + z * z = S at *
  have hu := mul_ulp hS0.le
  have hs1 : 99 / 100 * S ≤ s := by
    have := (abs_le.1 es).1
    linarith
  have hs2 : s ≤ 101 / 100 * S := by
    have := (abs_le.1 es).2
    linarith
  have es' : |s - S| ≤ S * ulp * (4 + 1 / 1024) := es.trans (by linarith)
  have hspos : 0 < s := by linarith
  obtain ⟨m, hm, dm, m0, -, hc⟩ := sqrt_closest s0 ds
  have hrel := sqrt_rel ds hspos hc
  have hroot : ∀ c : ℚ, IsDouble c → 2 ^ (-500 : ℤ) ≤ |c| → c * c ≤ S → ieee.rnd (c * c) ≤ s → |c| ≤ m := by
    intro c dc hge hcS hg
    refine root_ge (isDouble_abs.2 dc) hge ?_ (by rwa [abs_mul_abs_self]) dm (hc _ (isDouble_abs.2 dc))
    by_contra hb
    rw [not_lt] at hb
    have h1 : (2 : ℚ) ^ (501 : ℤ) * 2 ^ (501 : ℤ) ≤ |c| * |c| := mul_le_mul hb hb (two_zpow_pos _).le (abs_nonneg _)
    rw [abs_mul_abs_self, ← zpow_add₀ (by norm_num)] at h1
    have := (zpow_le_zpow_iff_right₀ (by norm_num : (1 : ℚ) < 2)).1 (h1.trans (hcS.trans hhi))
    omega
  -- everything in real numbers
  obtain ⟨hU1, hU0⟩ := ulp_real
  have hSr : (0 : ℝ) < S := by exact_mod_cast hS0
  have hsr : (0 : ℝ) < s := by exact_mod_cast hspos
  have hes : |(s : ℝ) - S| ≤ S * ((ulp : ℚ) : ℝ) * (4 + 1 / 1024) := by
    have := (Rat.cast_le (K := ℝ)).2 es'
    push_cast at this
    exact this
  have hs1r : 99 / 100 * (S : ℝ) ≤ s := by
    have := (Rat.cast_le (K := ℝ)).2 hs1
    push_cast at this
    exact this
  have hs2r : (s : ℝ) ≤ 101 / 100 * S := by
    have := (Rat.cast_le (K := ℝ)).2 hs2
    push_cast at this
    exact this
  have hLS : (2 : ℝ) ^ (-480 : ℤ) ≤ √(S : ℝ) := by
    apply Real.le_sqrt_of_sq_le
    have := (Rat.cast_le (K := ℝ)).2 hlo
    rw [Rat.cast_zpow, Rat.cast_ofNat] at this
    refine le_trans (le_of_eq ?_) this
    rw [sq, ← zpow_add₀ (by norm_num)]
    rfl
  have hSq := Real.mul_self_sqrt hSr.le
  have hsq := Real.mul_self_sqrt hsr.le
  have pS := Real.sqrt_pos.2 hSr
  have ps := Real.sqrt_pos.2 hsr
  generalize √(S : ℝ) = L at *
  generalize √(s : ℝ) = l at *
  generalize ((ulp : ℚ) : ℝ) = U at *
  have l1 : 99 / 100 * L ≤ l := by
    by_contra hc
    rw [not_le] at hc
    nlinarith
  have l2 : l ≤ 101 / 100 * L := by
    by_contra hc
    rw [not_le] at hc
    nlinarith
  have e1 : |l - L| * (l + L) ≤ L * L * U * (4 + 1 / 1024) := by
    have : |l - L| * (l + L) = |(s : ℝ) - S| := by
      rw [← hsq, ← hSq, ← abs_of_pos (show 0 < l + L by linarith), ← abs_mul]
      congr 1
      ring
    rw [this, hSq]
    exact hes
  have e2 : |l - L| ≤ L * U * (5 / 2) := by
    by_contra hc
    rw [not_le] at hc
    have h1 : L * U * (5 / 2) * (199 / 100 * L) ≤ |l - L| * (l + L) := mul_le_mul hc.le (by linarith) (by positivity) (abs_nonneg _)
    have h2 : 0 < L * L * U := by positivity
    nlinarith
  have e3 : |(m : ℝ) - L| ≤ L * (4 * U) := by
    have : (m : ℝ) - L = (m - l) + (l - L) := by ring
    rw [this]
    refine (abs_add_le _ _).trans ?_
    have : l * U ≤ 101 / 100 * L * U := mul_le_mul_of_nonneg_right l2 hU0.le
    have : 0 < L * U := by positivity
    linarith
  have hmL : 2 ^ (-481 : ℤ) ≤ (m : ℝ) := by
    have h1 := (abs_le.1 e3).1
    have h2 : L * (4 * U) ≤ L * (4 * (1 / 1024)) := mul_le_mul_of_nonneg_left (by linarith) pS.le
    have h3 : (2 : ℝ) ^ (-480 : ℤ) = 2 * 2 ^ (-481 : ℤ) := by
      rw [show (-480 : ℤ) = -481 + 1 by norm_num, zpow_add_one₀ (by norm_num)]
      ring
    have h4 : (0 : ℝ) < 2 ^ (-481 : ℤ) := zpow_pos (by norm_num) _
    linarith
  have hmQ : 2 ^ (-481 : ℤ) ≤ m := by
    have h1 : (((2 : ℚ) ^ (-481 : ℤ) : ℚ) : ℝ) ≤ ((m : ℚ) : ℝ) := by
      rw [Rat.cast_zpow, Rat.cast_ofNat]
      exact hmL
    exact Rat.cast_le.1 h1
  have hcomp : ∀ c : ℚ, IsDouble c → c * c ≤ S → ieee.rnd (c * c) ≤ s → |c| ≤ m := by
    intro c dc hcS hg
    rcases lt_or_ge |c| (2 ^ (-500 : ℤ)) with hlt | hge
    · exact hlt.le.trans (le_trans (zpow_le_zpow_right₀ (by norm_num) (by norm_num)) hmQ)
    · exact hroot c dc hge hcS hg
  exact ⟨m, by rw [magnitude_eq, hs, hm], dm, hmQ, e3, hcomp x dx hx gx, hcomp y dy hy gy, hcomp z dz hz gz⟩

end Astro
