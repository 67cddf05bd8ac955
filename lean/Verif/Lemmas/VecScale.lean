import Verif.Lemmas.UnitDouble

/-
Underflow, overflow, quotients and halves.
-/

set_option exponentiation.threshold 3000

namespace Astro

open Spec Time FloatFmt

attribute [local irreducible] FloatFmt.nearest FloatFmt.value Nat.sqrt

/-- Half the smallest double goes to zero. -/
theorem round_speck : Dbl.round (1 / 2 ^ 1075) = .num 0 := by decide +kernel

attribute [local irreducible] Dbl.round

theorem speck_eq : speck = 1 / 2 ^ 1075 := by
  rw [speck, zpow_neg, show (2 : ℚ) ^ (1075 : ℤ) = 2 ^ 1075 from zpow_ofNat 2 1075, one_div]

theorem two_speck : (2 : ℚ) ^ (-1074 : ℤ) = 2 * speck := by
  rw [speck, show (-1074 : ℤ) = -1075 + 1 by norm_num, zpow_add_one₀ (by norm_num)]
  ring

/-- A non-negative number is rounded to zero when it is at most half the smallest double. -/
theorem round_zero_iff {q : ℚ} (hq : 0 ≤ q) : Dbl.round q = .num 0 ↔ q ≤ speck := by
  constructor
  · intro h
    by_contra hc
    rw [not_le] at hc
    rcases round_cases q with ⟨x, e, hx⟩ | e
    · rw [e] at h
      have h0 : ieee.rnd q = 0 := by rw [← hx]; exact Dbl.num.inj h
      have hd : IsDouble (2 ^ (-1074 : ℤ)) := ⟨1, -1074, by norm_num, by norm_num, by norm_num, by simp⟩
      have := ieee.closest q _ hd
      rw [h0, zero_sub, abs_neg, abs_of_nonneg hq, two_speck] at this
      have sp := speck_pos
      rcases abs_cases (2 * speck - q) with a | a <;> linarith
    · rw [e] at h
      cases h
  · intro h
    have h1 : |q| ≤ 2 ^ (1023 : ℤ) := by
      rw [abs_of_nonneg hq]
      refine h.trans (speck_small.trans ?_)
      exact one_le_zpow₀ (by norm_num) (by norm_num)
    rw [round_top h1]
    congr 1
    apply le_antisymm _ (rnd_nonneg hq)
    have h2 := near_mono ieee h
    have h3 := round_speck
    rw [← speck_eq, round_top (by
      rw [abs_of_pos speck_pos]
      exact speck_small.trans (one_le_zpow₀ (by norm_num) (by norm_num)))] at h3
    rwa [Dbl.num.inj h3] at h2

/-- From the limit on, rounding overflows. -/
theorem round_inf {q : ℚ} (h : limit .double ≤ |q|) : Dbl.round q = .inf (decide (q < 0)) := by
  rcases hn : FloatFmt.double.nearest |q| with _ | n
  · exact round_none hn
  · have := ((nearest_iff cpp_facts.1 cpp_facts.2 (abs_nonneg q)).1 hn).1
    exact absurd h (not_le.2 this)

/-- A coordinate divided by a magnitude that is not below it. -/
theorem quotient_err {c m : ℚ} (hm : 0 < m) (hc : |c| ≤ m) {L : ℝ} (hL : 0 < L) (he : |(m : ℝ) - L| ≤ L * (4 * ((ulp : ℚ) : ℝ))) :
    ∃ u, (Dbl.num c).div (.num m) = .num u ∧ IsDouble u ∧ |u| ≤ 1 ∧
      |(u : ℝ) - c / L| ≤ 8 * ((ulp : ℚ) : ℝ) * (|(c : ℝ)| / L) + ((speck : ℚ) : ℝ) := by
  have h1 : |c / m| ≤ 1 := by
    rw [abs_div, abs_of_pos hm, div_le_one hm]
    exact hc
  have h2 : |c / m| ≤ 2 ^ (1023 : ℤ) := h1.trans (one_le_zpow₀ (by norm_num) (by norm_num))
  have d1 : IsDouble 1 := by simpa using isDouble_int (i := 1) (by norm_num)
  refine ⟨ieee.rnd (c / m), ?_, ieee.isDouble _, ?_, ?_⟩
  · rw [div_num hm.ne', round_top h2]
  · rw [abs_le] at h1 ⊢
    have a1 := near_mono ieee h1.1
    have a2 := near_mono ieee h1.2
    rw [near_exact ieee (isDouble_neg d1)] at a1
    rw [near_exact ieee d1] at a2
    exact ⟨a1, a2⟩
  · have h3 := near_rel_abs ieee h2
    generalize ieee.rnd (c / m) = u at *
    rw [← ulp, ← speck, abs_div, abs_of_pos hm] at h3
    have h4 : |(u : ℝ) - c / m| ≤ |(c : ℝ)| / m * ((ulp : ℚ) : ℝ) + ((speck : ℚ) : ℝ) := by
      have := (Rat.cast_le (K := ℝ)).2 h3
      push_cast at this
      exact this
    obtain ⟨hU1, hU0⟩ := ulp_real
    have hmr : (0 : ℝ) < m := by exact_mod_cast hm
    generalize ((ulp : ℚ) : ℝ) = U at *
    generalize ((speck : ℚ) : ℝ) = p at *
    generalize (m : ℝ) = M at *
    generalize (c : ℝ) = C at *
    have h5 : 99 / 100 * L ≤ M := by
      have := (abs_le.1 he).1
      nlinarith
    have h6 : |C / M - C / L| ≤ |C| / M * (4 * U) := by
      have e : C / M - C / L = C / M * ((L - M) / L) := by field_simp
      rw [e, abs_mul, abs_div, abs_of_pos hmr]
      refine mul_le_mul_of_nonneg_left ?_ (by positivity)
      rw [abs_div, abs_of_pos hL, div_le_iff₀ hL, abs_sub_comm]
      linarith
    have h7 : |C| / M ≤ 100 / 99 * (|C| / L) := by
      rw [div_le_iff₀ hmr]
      have : |C| = |C| / L * L := by field_simp
      have h8 : 0 ≤ |C| / L := by positivity
      calc |C| = 100 / 99 * (|C| / L) * (99 / 100 * L) := by field_simp
        _ ≤ _ := mul_le_mul_of_nonneg_left h5 (by positivity)
    have e : (u : ℝ) - C / L = (u - C / M) + (C / M - C / L) := by ring
    rw [e]
    refine (abs_add_le _ _).trans ?_
    have h9 : |C| / M * U ≤ 100 / 99 * (|C| / L) * U := mul_le_mul_of_nonneg_right h7 hU0.le
    have h10 : 0 ≤ |C| / L * U := by positivity
    linarith

/-- Twice a double, unless it is too large. -/
theorem isDouble_double {x : ℚ} (h : IsDouble x) (hx : |x| ≤ 2 ^ 1022) : IsDouble (2 * x) := by
  obtain ⟨m, e, hm, h1, h2, rfl⟩ := h
  by_cases he : e ≤ 970
  · refine ⟨m, e + 1, hm, by omega, by omega, ?_⟩
    rw [zpow_add_one₀ (by norm_num)]
    ring
  · obtain rfl : e = 971 := by omega
    refine ⟨2 * m, 971, ?_, by norm_num, by norm_num, by push_cast; ring⟩
    rw [abs_mul, abs_of_pos (two_zpow_pos _)] at hx
    have h3 : (2 : ℚ) ^ 1022 = 2 ^ 51 * 2 ^ (971 : ℤ) := by
      rw [← zpow_natCast]
      exact zpow_split_nat (by norm_num)
    rw [h3] at hx
    have h4 := le_of_mul_le_mul_right hx (two_zpow_pos _)
    have h5 : |m| ≤ 2 ^ 51 := by exact_mod_cast h4
    rw [abs_mul]
    norm_num
    omega

/-- Half a double, unless it is too small. -/
theorem isDouble_half {x : ℚ} (h : IsDouble x) (hx : 2 ^ (-1021 : ℤ) ≤ |x|) : IsDouble (x / 2) := by
  obtain ⟨m, hm⟩ := double_multiple h (k := -1073) (by
    refine le_trans (le_of_eq ?_) hx
    rfl)
  obtain ⟨m', e, hm', h1, h2, he⟩ := h
  by_cases hlow : -1073 ≤ e
  · refine ⟨m', e - 1, hm', by omega, by omega, ?_⟩
    rw [he, zpow_sub_one₀ (by norm_num)]
    ring
  · obtain rfl : e = -1074 := by omega
    refine ⟨m, -1074, ?_, by norm_num, by norm_num, ?_⟩
    · have e1 : (2 : ℚ) ^ (-1073 : ℤ) = 2 * 2 ^ (-1074 : ℤ) := by
        rw [show (-1073 : ℤ) = -1074 + 1 by norm_num, zpow_add_one₀ (by norm_num)]
        ring
      rw [hm, e1] at he
      have e2 : (2 * m : ℚ) = m' := mul_right_cancel₀ (two_zpow_pos (-1074)).ne' (by linarith)
      have e3 : 2 * m = m' := by exact_mod_cast e2
      rw [← e3, abs_mul] at hm'
      norm_num at hm' ⊢
      omega
    · rw [hm, show (-1073 : ℤ) = -1074 + 1 by norm_num, zpow_add_one₀ (by norm_num)]
      ring

/-- A small sum is exact. -/
theorem isDouble_add {x y : ℚ} (hx : IsDouble x) (hy : IsDouble y) (hs : |x + y| < 2 ^ (-1021 : ℤ)) : IsDouble (x + y) := by
  obtain ⟨m, e, hm, h1, h2, rfl⟩ := hx
  obtain ⟨m', e', hm', h1', h2', rfl⟩ := hy
  have e1 : ∀ (m e : ℤ), -1074 ≤ e → (m : ℚ) * 2 ^ e = ((m * 2 ^ (e + 1074).toNat : ℤ) : ℚ) * 2 ^ (-1074 : ℤ) := by
    intro m e h1
    push_cast
    rw [mul_assoc, ← zpow_split_nat (show e = _ by omega)]
  rw [e1 m e h1, e1 m' e' h1', ← add_mul, ← Int.cast_add] at hs ⊢
  generalize m * 2 ^ (e + 1074).toNat + m' * 2 ^ (e' + 1074).toNat = k at *
  refine ⟨k, -1074, ?_, by omega, by omega, rfl⟩
  rw [abs_mul, abs_of_pos (two_zpow_pos _)] at hs
  have h3 : (2 : ℚ) ^ (-1021 : ℤ) = 2 ^ 53 * 2 ^ (-1074 : ℤ) := zpow_split_nat (by norm_num)
  rw [h3] at hs
  have := lt_of_mul_lt_mul_right hs (two_zpow_pos _).le
  exact_mod_cast this

/-- The mean of two coordinates. -/
theorem half_sum {x y : ℚ} (dx : IsDouble x) (dy : IsDouble y) (hx : |x| ≤ 2 ^ 1022) (hy : |y| ≤ 2 ^ 1022) :
    ∃ m, ((Dbl.num x).add (.num y)).div (.num 2) = .num m ∧ IsDouble m ∧ min x y ≤ m ∧ m ≤ max x y ∧
      |m - (x + y) / 2| ≤ |(x + y) / 2| * ulp + speck := by
  have b : |x + y| ≤ 2 ^ (1023 : ℤ) := (abs_add_le _ _).trans ((add_le_add hx hy).trans (by rw [← two_mul]; exact two_top))
  obtain ⟨s, hs, ds, es, rs⟩ := add_err dx dy b
  have lo : 2 * min x y ≤ s := by
    have d : IsDouble (2 * min x y) := by
      rcases min_choice x y with h | h <;> rw [h]
      · exact isDouble_double dx hx
      · exact isDouble_double dy hy
    rw [rs, ← near_exact ieee d]
    exact near_mono ieee (by linarith [min_le_left x y, min_le_right x y])
  have hi : s ≤ 2 * max x y := by
    have d : IsDouble (2 * max x y) := by
      rcases max_choice x y with h | h <;> rw [h]
      · exact isDouble_double dx hx
      · exact isDouble_double dy hy
    rw [rs, ← near_exact ieee d]
    exact near_mono ieee (by linarith [le_max_left x y, le_max_right x y])
  have dmin : IsDouble (min x y) := by rcases min_choice x y with h | h <;> rwa [h]
  have dmax : IsDouble (max x y) := by rcases max_choice x y with h | h <;> rwa [h]
  have hb2 : |s / 2| ≤ 2 ^ (1023 : ℤ) := by
    have h1 : |s / 2| ≤ 2 ^ 1022 := by
      rw [abs_le] at hx hy ⊢
      have h1 : max x y ≤ 2 ^ 1022 := max_le hx.2 hy.2
      have h2 : -2 ^ 1022 ≤ min x y := le_min hx.1 hy.1
      exact ⟨by linarith, by linarith⟩
    exact h1.trans (pow_le_top (by norm_num))
  refine ⟨ieee.rnd (s / 2), ?_, ieee.isDouble _, ?_, ?_, ?_⟩
  · rw [hs, div_num (by norm_num), round_top hb2]
  · rw [← near_exact ieee dmin]
    exact near_mono ieee (by linarith)
  · rw [← near_exact ieee dmax]
    exact near_mono ieee (by linarith)
  · have hu := ulp_pos
    have hsp := speck_pos
    rcases le_or_gt (2 ^ (-1021 : ℤ)) |x + y| with hc | hc
    · have hc' : 2 ^ (-1021 : ℤ) ≤ |s| := by
        have hd : IsDouble (2 ^ (-1021 : ℤ)) := ⟨1, -1021, by norm_num, by norm_num, by norm_num, by simp⟩
        rw [rs]
        rcases le_abs.1 hc with h | h
        · have := near_mono ieee h
          rw [near_exact ieee hd] at this
          exact le_abs.2 (.inl this)
        · have := near_mono ieee (le_neg_of_le_neg h)
          rw [near_exact ieee (isDouble_neg hd)] at this
          exact le_abs.2 (.inr (by linarith))
      rw [near_exact ieee (isDouble_half ds hc')]
      have e : s / 2 - (x + y) / 2 = (s - (x + y)) / 2 := by ring
      rw [e, abs_div, abs_div, abs_two]
      linarith
    · have hex : s = x + y := by rw [rs, near_exact ieee (isDouble_add dx dy hc)]
      rw [hex]
      exact near_rel_abs ieee (z := (x + y) / 2) (by rw [← hex]; exact hb2)

theorem four_ulp_real : 4 * ((ulp : ℚ) : ℝ) = 2 ^ (-51 : ℤ) := by norm_num [ulp]

theorem eight_ulp_real : 8 * ((ulp : ℚ) : ℝ) = 2 ^ (-50 : ℤ) := by norm_num [ulp]

theorem speck_real : ((speck : ℚ) : ℝ) = 2 ^ (-1075 : ℤ) := by rw [speck, Rat.cast_zpow, Rat.cast_ofNat]

/-- The length of three coordinates that are nearly those of a unit vector. -/
theorem length_err {p q r x y z : ℚ} {L : ℝ} (hL : 0 < L) (hLL : L * L = x * x + y * y + z * z)
    (hp : |(p : ℝ) - x / L| ≤ 8 * ((ulp : ℚ) : ℝ) * (|(x : ℝ)| / L) + ((speck : ℚ) : ℝ))
    (hq : |(q : ℝ) - y / L| ≤ 8 * ((ulp : ℚ) : ℝ) * (|(y : ℝ)| / L) + ((speck : ℚ) : ℝ))
    (hr : |(r : ℝ) - z / L| ≤ 8 * ((ulp : ℚ) : ℝ) * (|(z : ℝ)| / L) + ((speck : ℚ) : ℝ)) :
    |(p : ℝ) * p + q * q + r * r - 1| ≤ 2 ^ (-48 : ℤ) := by
  obtain ⟨hU1, hU0⟩ := ulp_real
  have hs0 : (0 : ℝ) < ((speck : ℚ) : ℝ) := by exact_mod_cast speck_pos
  have hsU : ((speck : ℚ) : ℝ) ≤ ((ulp : ℚ) : ℝ) / 1024 := by
    have : speck ≤ ulp / 1024 := by
      have h1 : speck ≤ 2 ^ (-63 : ℤ) := zpow_le_zpow_right₀ (by norm_num) (by norm_num)
      refine h1.trans (le_of_eq ?_)
      norm_num [ulp]
    have := (Rat.cast_le (K := ℝ)).2 this
    push_cast at this
    exact this
  have h48 : (2 : ℝ) ^ (-48 : ℤ) = 32 * ((ulp : ℚ) : ℝ) := by norm_num [ulp]
  rw [h48]
  have hunit : (x / L) ^ 2 + (y / L) ^ 2 + (z / L) ^ 2 = (1 : ℝ) := by
    field_simp
    nlinarith
  have hxL : |(x : ℝ)| / L = |(x : ℝ) / L| := by rw [abs_div, abs_of_pos hL]
  have hyL : |(y : ℝ)| / L = |(y : ℝ) / L| := by rw [abs_div, abs_of_pos hL]
  have hzL : |(z : ℝ)| / L = |(z : ℝ) / L| := by rw [abs_div, abs_of_pos hL]
  rw [hxL] at hp
  rw [hyL] at hq
  rw [hzL] at hr
  generalize (x : ℝ) / L = a at *
  generalize (y : ℝ) / L = b at *
  generalize (z : ℝ) / L = c at *
  generalize ((speck : ℚ) : ℝ) = s at *
  generalize ((ulp : ℚ) : ℝ) = U at *
  have key : ∀ u t : ℝ, t ^ 2 ≤ 1 → |u - t| ≤ 8 * U * |t| + s → |u * u - t ^ 2| ≤ 17 * U * t ^ 2 + 4 * s := by
    intro u t ht h
    have ht1 : |t| ≤ 1 := by rwa [← sq_le_one_iff_abs_le_one]
    have h0 := abs_nonneg t
    have e : u * u - t ^ 2 = (u - t) * (u - t) + 2 * t * (u - t) := by ring
    rw [e]
    refine (abs_add_le _ _).trans ?_
    rw [abs_mul, abs_mul, abs_mul, abs_two]
    have hd := abs_nonneg (u - t)
    have h1 : |u - t| * |u - t| ≤ (8 * U * |t| + s) * (8 * U * |t| + s) := mul_le_mul h h hd (by positivity)
    have h2 : 2 * |t| * |u - t| ≤ 2 * |t| * (8 * U * |t| + s) := mul_le_mul_of_nonneg_left h (by positivity)
    rw [← sq_abs t]
    generalize |t| = T at *
    have h3 : U * U * T ^ 2 ≤ U * T ^ 2 / 1024 := by
      have := mul_le_mul_of_nonneg_right (mul_le_mul_of_nonneg_left hU1 hU0.le) (sq_nonneg T)
      linarith
    have h4 : U * T * s ≤ 1 / 1024 * s := by
      have : U * T ≤ 1 / 1024 * 1 := mul_le_mul hU1 ht1 h0 (by norm_num)
      exact mul_le_mul_of_nonneg_right (by linarith) hs0.le
    have h5 : s * s ≤ s * (1 / 1024) := mul_le_mul_of_nonneg_left (by linarith) hs0.le
    have h6 : T * s ≤ 1 * s := mul_le_mul_of_nonneg_right ht1 hs0.le
    nlinarith
  have a2 := sq_nonneg a
  have b2 := sq_nonneg b
  have c2 := sq_nonneg c
  have k1 := key p a (by linarith) hp
  have k2 := key q b (by linarith) hq
  have k3 := key r c (by linarith) hr
  have e : (p : ℝ) * p + q * q + r * r - 1 = (p * p - a ^ 2) + (q * q - b ^ 2) + (r * r - c ^ 2) := by rw [← hunit]; ring
  rw [e]
  refine (abs_add_le _ _).trans ?_
  have := abs_add_le ((p : ℝ) * p - a ^ 2) (q * q - b ^ 2)
  nlinarith

theorem inf_add {a : Dbl} (h : a.NonNeg) : (Dbl.inf false).add a = .inf false := by
  cases a with
  | num x => rfl
  | inf b =>
    obtain rfl : b = false := h
    rfl
  | nan => exact absurd h id

/-- A sum without negative terms is zero when they are. -/
theorem sum_zero_iff {a b : Dbl} (ha : a.NonNeg) (hb : b.NonNeg) (da : ∀ r, a = .num r → IsDouble r) (db : ∀ r, b = .num r → IsDouble r) :
    a.add b = .num 0 ↔ a = .num 0 ∧ b = .num 0 := by
  cases a with
  | num x =>
    cases b with
    | num y =>
      rw [add_num, Dbl.num.injEq, Dbl.num.injEq]
      have x0 : 0 ≤ x := ha
      have y0 : 0 ≤ y := hb
      constructor
      · intro h
        rcases round_cases (x + y) with ⟨r, e, hr⟩ | e
        · rw [e] at h
          have hr0 : r = 0 := Dbl.num.inj h
          have h1 := rnd_le_add (da x rfl) y0
          have h2 := rnd_le_add (db y rfl) x0
          rw [add_comm y, ← hr, hr0] at h2
          rw [← hr, hr0] at h1
          exact ⟨le_antisymm h1 x0, le_antisymm h2 y0⟩
        · rw [e] at h
          cases h
      · rintro ⟨rfl, rfl⟩
        rw [add_zero, round_zero]
    | inf b => exact ⟨fun h => (by cases h), fun h => (by cases h.2)⟩
    | nan => exact absurd hb id
  | inf a =>
    obtain rfl : a = false := ha
    rw [inf_add hb]
    exact ⟨fun h => (by cases h), fun h => (by cases h.1)⟩
  | nan => exact absurd ha id

theorem root_zero_iff {a : Dbl} (ha : a.NonNeg) (da : ∀ r, a = .num r → IsDouble r) : a.sqrt = .num 0 ↔ a = .num 0 := by
  cases a with
  | num x => rw [sqrt_zero_iff ha (da x rfl), Dbl.num.injEq]
  | inf a =>
    obtain rfl : a = false := ha
    exact ⟨fun h => (by cases h), fun h => (by cases h)⟩
  | nan => exact absurd ha id

end Astro
