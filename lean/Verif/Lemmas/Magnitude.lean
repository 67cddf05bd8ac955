import Verif.Lemmas.VecDouble

/-
The magnitude of a vector of doubles.
-/

set_option exponentiation.threshold 3000

namespace Astro

open Spec Time FloatFmt

attribute [local irreducible] FloatFmt.nearest FloatFmt.value Dbl.round Nat.sqrt

/-- A double is a multiple of the spacing below it. -/
theorem double_multiple {x : ℚ} (h : IsDouble x) {k : ℤ} (hk : 2 ^ (52 + k) ≤ |x|) : ∃ m : ℤ, x = m * 2 ^ k := by
  obtain ⟨m, e, hm, h1, h2, rfl⟩ := h
  have hm' : |(m : ℚ)| < 2 ^ 53 := by exact_mod_cast hm
  rw [abs_mul, abs_of_pos (two_zpow_pos e)] at hk
  have h3 : (2 : ℚ) ^ (52 + k) < 2 ^ (53 + e) := by
    rw [zpow_split_nat (show (53 : ℤ) + e = (53 : ℕ) + e by norm_num)]
    exact hk.trans_lt (mul_lt_mul_of_pos_right hm' (two_zpow_pos e))
  have h4 := (zpow_lt_zpow_iff_right₀ (by norm_num : (1 : ℚ) < 2)).1 h3
  refine ⟨m * 2 ^ (e - k).toNat, ?_⟩
  push_cast
  rw [mul_assoc, ← zpow_split_nat (show e = _ by omega)]

/-- A root that is not below the root of the rounded square of `c` is not rounded below `c`. -/
theorem root_ge {c V r : ℚ} (hc : IsDouble c) (hlo : 2 ^ (-500 : ℤ) ≤ c) (hhi : c < 2 ^ (501 : ℤ)) (hV : ieee.rnd (c * c) ≤ V)
    (hr : IsDouble r) (hcl : |(r : ℝ) - √(V : ℝ)| ≤ |(c : ℝ) - √(V : ℝ)|) : c ≤ r := by
  by_contra hlt
  rw [not_le] at hlt
  have hcpos : 0 < c := lt_of_lt_of_le (two_zpow_pos _) hlo
  have hV0 : 0 ≤ V := (rnd_nonneg (mul_self_nonneg c)).trans hV
  -- the root is not above the middle of r and c
  have hmid : √(V : ℝ) ≤ ((r : ℝ) + c) / 2 := by
    by_contra hm
    rw [not_le] at hm
    have hlt' : (r : ℝ) < c := by exact_mod_cast hlt
    rcases abs_cases ((r : ℝ) - √(V : ℝ)) with a | a <;> rcases abs_cases ((c : ℝ) - √(V : ℝ)) with b | b <;> linarith
  have hsum : 0 ≤ ((r : ℝ) + c) / 2 := (Real.sqrt_nonneg _).trans hmid
  have hV2 : (V : ℝ) ≤ (((r : ℝ) + c) / 2) ^ 2 := (Real.sqrt_le_left hsum).1 hmid
  have hV3 : V ≤ ((r + c) / 2) ^ 2 := by exact_mod_cast hV2
  have hsumq : 0 ≤ (r + c) / 2 := by exact_mod_cast hsum
  obtain ⟨e, he, he'⟩ := exists_mem_Ico_zpow hcpos (by norm_num : (1 : ℚ) < 2)
  have e1 : (-501 : ℤ) < e := by
    have := (zpow_lt_zpow_iff_right₀ (by norm_num : (1 : ℚ) < 2)).1 (hlo.trans_lt he')
    omega
  have e2 : e < 501 := (zpow_lt_zpow_iff_right₀ (by norm_num : (1 : ℚ) < 2)).1 (he.trans_lt hhi)
  obtain ⟨k, rfl⟩ : ∃ k, e = 52 + k := ⟨e - 52, by ring⟩
  obtain ⟨M, hM⟩ := double_multiple hc (k := k) (by rwa [abs_of_pos hcpos])
  have hg := two_zpow_pos k
  have hlow : (2 : ℚ) ^ (52 + k) = 2 ^ 52 * 2 ^ k := zpow_split_nat (by norm_num)
  have hup : (2 : ℚ) ^ (52 + k + 1) = 2 ^ 53 * 2 ^ k := zpow_split_nat (by push_cast; ring)
  rw [hlow, hM] at he
  rw [hup, hM] at he'
  have M1 : (2 : ℚ) ^ 52 ≤ M := le_of_mul_le_mul_right he hg
  have M2 : (M : ℚ) < 2 ^ 53 := lt_of_mul_lt_mul_right he' hg.le
  have hsq : c * c = (M * M : ℚ) * (2 ^ (2 * k)) := by
    rw [hM, two_mul, zpow_add₀ (by norm_num)]
    ring
  by_cases hM52 : M = 2 ^ 52
  · -- a power of two has an exact square
    have hd : IsDouble (c * c) := by
      refine ⟨2 ^ 52, 2 * k + 52, by norm_num, by omega, by omega, ?_⟩
      rw [hsq, hM52]
      have : (2 : ℚ) ^ (2 * k + 52) = 2 ^ 52 * 2 ^ (2 * k) := zpow_split_nat (by push_cast; ring)
      rw [this]
      push_cast
      ring
    rw [near_exact ieee hd] at hV
    have h3 : (r + c) / 2 < c := by linarith
    have : ((r + c) / 2) ^ 2 < c ^ 2 := pow_lt_pow_left₀ h3 hsumq (by norm_num)
    linarith [sq c]
  · have M3 : (2 : ℚ) ^ 52 + 1 ≤ M := by
      have : (2 : ℤ) ^ 52 ≤ M := by exact_mod_cast M1
      have : (2 : ℤ) ^ 52 + 1 ≤ M := by omega
      exact_mod_cast this
    -- the next double below
    have hrM : r ≤ (M - 1) * 2 ^ k := by
      rcases lt_or_ge r (2 ^ (52 + k)) with h | h
      · rw [hlow] at h
        exact h.le.trans (mul_le_mul_of_nonneg_right (by linarith) hg.le)
      · have hr0 : 0 < r := lt_of_lt_of_le (two_zpow_pos _) h
        obtain ⟨R, hR⟩ := double_multiple hr (k := k) (by rwa [abs_of_pos hr0])
        rw [hR, hM] at hlt
        have : R < M := by exact_mod_cast lt_of_mul_lt_mul_right hlt hg.le
        rw [hR]
        refine mul_le_mul_of_nonneg_right ?_ hg.le
        have : R + 1 ≤ M := this
        have : (R : ℚ) + 1 ≤ M := by exact_mod_cast this
        linarith
    have hmid2 : (r + c) / 2 ≤ (M - 1 / 2) * 2 ^ k := by
      rw [hM]
      linarith
    have hV4 : V ≤ ((M - 1 / 2) * 2 ^ k) ^ 2 := hV3.trans (pow_le_pow_left₀ hsumq hmid2 2)
    have hg2 : ((2 : ℚ) ^ k) ^ 2 = 2 ^ (2 * k) := by rw [two_mul, zpow_add₀ (by norm_num), sq]
    have herr := near_err ieee (c * c) (2 * k + 53) (by omega) (by omega) (by
      rw [hsq, abs_of_nonneg (mul_nonneg (mul_self_nonneg _) (two_zpow_pos _).le)]
      have : (2 : ℚ) ^ (2 * k + 53) = 2 ^ 53 * 2 ^ (2 * k) := zpow_split_nat (by push_cast; ring)
      rw [this, ← mul_assoc]
      exact mul_le_mul_of_nonneg_right (mul_le_mul M2.le M2.le (by linarith) (by norm_num)) (two_zpow_pos _).le)
    have h53 : (2 : ℚ) ^ (2 * k + 53) / 2 = 2 ^ 52 * 2 ^ (2 * k) := by
      rw [zpow_split_nat (show 2 * k + 53 = (53 : ℕ) + 2 * k by push_cast; ring)]
      ring
    rw [h53] at herr
    have h5 := (abs_le.1 herr).1
    rw [mul_pow, hg2] at hV4
    have hG := two_zpow_pos (2 * k)
    rw [hsq] at h5 hV
    generalize (2 : ℚ) ^ (2 * k) = G at *
    have h6 : (M * M - 2 ^ 52) * G ≤ (M - 1 / 2) ^ 2 * G := by nlinarith
    have h7 := le_of_mul_le_mul_right h6 hG
    nlinarith

/-- The relative error of a root. -/
theorem sqrt_rel {x r : ℚ} (hd : IsDouble x) (hx : 0 < x)
    (hcl : ∀ z : ℚ, IsDouble z → |(r : ℝ) - √(x : ℝ)| ≤ |(z : ℝ) - √(x : ℝ)|) : |(r : ℝ) - √(x : ℝ)| ≤ √(x : ℝ) * ((ulp : ℚ) : ℝ) := by
  have hxr : (0 : ℝ) < x := by exact_mod_cast hx
  have hpos := Real.sqrt_pos.2 hxr
  obtain ⟨e, he, he'⟩ := exists_mem_Ico_zpow hpos (by norm_num : (1 : ℝ) < 2)
  have hlow : (2 : ℚ) ^ (-1074 : ℤ) ≤ x := by
    obtain ⟨k, hk⟩ := double_grid hd 1074 rfl
    have hp : (0 : ℚ) < 2 ^ 1074 := by positivity
    have h1 : (0 : ℚ) < k := by rw [← hk]; positivity
    have h2 : (1 : ℚ) ≤ k := by exact_mod_cast h1
    have h3 : (2 : ℚ) ^ (-1074 : ℤ) * 2 ^ 1074 = 1 := by
      rw [zpow_neg, show (2 : ℚ) ^ (1074 : ℤ) = 2 ^ 1074 from zpow_ofNat 2 1074]
      exact inv_mul_cancel₀ hp.ne'
    rw [← hk, ← h3] at h2
    exact le_of_mul_le_mul_right h2 hp
  have hhigh : x < (2 : ℚ) ^ (1024 : ℤ) := by
    have := double_le_largest hd
    rw [abs_of_pos hx] at this
    refine this.trans_lt ?_
    rw [show (2 : ℚ) ^ (1024 : ℤ) = 2 ^ 1024 from zpow_ofNat 2 1024]
    norm_num
  have hlow' : (2 : ℝ) ^ (-1074 : ℤ) ≤ x := by
    have := (Rat.cast_le (K := ℝ)).2 hlow
    rwa [Rat.cast_zpow, Rat.cast_ofNat] at this
  have hhigh' : (x : ℝ) < 2 ^ (1024 : ℤ) := by
    have := (Rat.cast_lt (K := ℝ)).2 hhigh
    rwa [Rat.cast_zpow, Rat.cast_ofNat] at this
  have hsq := Real.mul_self_sqrt hxr.le
  have e1 : -538 ≤ e := by
    by_contra h
    have h1 : √(x : ℝ) < 2 ^ (-538 : ℤ) := he'.trans_le (zpow_le_zpow_right₀ (by norm_num) (by omega))
    have h2 : √(x : ℝ) * √(x : ℝ) < 2 ^ (-538 : ℤ) * 2 ^ (-538 : ℤ) := mul_lt_mul h1 h1.le hpos (zpow_pos (by norm_num) _).le
    rw [hsq, ← zpow_add₀ (by norm_num)] at h2
    have := (zpow_lt_zpow_iff_right₀ (by norm_num : (1 : ℝ) < 2)).1 (hlow'.trans_lt h2)
    omega
  have e2 : e ≤ 512 := by
    by_contra h
    have h1 : (2 : ℝ) ^ (513 : ℤ) ≤ √(x : ℝ) := (zpow_le_zpow_right₀ (by norm_num) (by omega)).trans he
    have h2 : (2 : ℝ) ^ (513 : ℤ) * 2 ^ (513 : ℤ) ≤ √(x : ℝ) * √(x : ℝ) := mul_le_mul h1 h1 (zpow_pos (by norm_num) _).le hpos.le
    rw [hsq, ← zpow_add₀ (by norm_num)] at h2
    have := (zpow_lt_zpow_iff_right₀ (by norm_num : (1 : ℝ) < 2)).1 (h2.trans_lt hhigh')
    omega
  have hg : (0 : ℝ) < 2 ^ (e - 52) := zpow_pos (by norm_num) _
  have hn := abs_sub_round (√(x : ℝ) / 2 ^ (e - 52))
  generalize hN : round (√(x : ℝ) / 2 ^ (e - 52)) = n at hn
  have ht : √(x : ℝ) / 2 ^ (e - 52) < 2 ^ 53 := by
    rw [div_lt_iff₀ hg, ← zpow_natCast, ← zpow_add₀ (by norm_num)]
    refine he'.trans_le (le_of_eq ?_)
    congr 1
    push_cast
    ring
  have ht0 : 0 ≤ √(x : ℝ) / 2 ^ (e - 52) := by positivity
  have hn1 := abs_le.1 hn
  have n1 : n ≤ 2 ^ 53 := by
    have : (n : ℝ) < ((2 ^ 53 + 1 : ℤ) : ℝ) := by push_cast; linarith
    have : n < 2 ^ 53 + 1 := by exact_mod_cast this
    omega
  have n0 : 0 ≤ n := by
    have : ((-1 : ℤ) : ℝ) < n := by push_cast; linarith
    have : -1 < n := by exact_mod_cast this
    omega
  have hz := isDouble_mul n (e - 52) (by rwa [abs_of_nonneg n0]) (by omega) (by omega)
  refine (hcl _ hz).trans ?_
  push_cast
  have h1 : (n : ℝ) * 2 ^ (e - 52) - √(x : ℝ) = -((√(x : ℝ) / 2 ^ (e - 52) - n) * 2 ^ (e - 52)) := by
    field_simp
    ring
  rw [h1, abs_neg, abs_mul, abs_of_pos hg]
  generalize |√(x : ℝ) / 2 ^ (e - 52) - n| = t at *
  have h2 : (2 : ℝ) ^ (e - 52) = 2 ^ e * 2 ^ (-52 : ℤ) := by
    rw [← zpow_add₀ (by norm_num)]
    rfl
  have h3 : ((ulp : ℚ) : ℝ) = 1 / 2 * 2 ^ (-52 : ℤ) := by norm_num [ulp]
  rw [h3, h2]
  have h4 : (0 : ℝ) < 2 ^ (-52 : ℤ) := zpow_pos (by norm_num) _
  have h5 : (0 : ℝ) < 2 ^ e := zpow_pos (by norm_num) _
  calc t * (2 ^ e * 2 ^ (-52 : ℤ)) ≤ 1 / 2 * (2 ^ e * 2 ^ (-52 : ℤ)) := mul_le_mul_of_nonneg_right hn (by positivity)
    _ = 2 ^ e * (1 / 2 * 2 ^ (-52 : ℤ)) := by ring
    _ ≤ √(x : ℝ) * (1 / 2 * 2 ^ (-52 : ℤ)) := mul_le_mul_of_nonneg_right he (by positivity)

end Astro
