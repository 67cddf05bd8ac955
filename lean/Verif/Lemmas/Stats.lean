import Verif.Lemmas.Ieee
import Verif.Spec.Stats

/-
Sums and means in double arithmetic.
-/

namespace Astro

open Spec Time FloatFmt

attribute [local irreducible] FloatFmt.nearest FloatFmt.value FloatFmt.infinity

theorem add_num (x y : ℚ) : Dbl.add (.num x) (.num y) = Dbl.round (x + y) := rfl

theorem rnd_rounded {q : ℚ} (h : |q| < limit .double) : Rounded q (ieee.rnd q) := by
  obtain ⟨n, hn, hc⟩ := nearest_some cpp_facts.1 cpp_facts.2 (abs_nonneg q) h
  have e : ieee.rnd q = _ := ieeeRnd_some hn
  have hv := value_nonneg .double n
  refine ⟨n, hc, magnitude_iff.2 ⟨nearest_lt (abs_nonneg q) hn, ?_⟩, ?_, ?_⟩
  · rw [e]
    split
    · rw [abs_neg, abs_of_nonneg hv]
    · rw [abs_of_nonneg hv]
  · intro h0
    rw [e, if_neg (not_lt.2 h0)]
    exact hv
  · intro h0
    rcases h0.lt_or_eq with h1 | h1
    · rw [e, if_pos h1]
      linarith
    · rw [h1, near_zero]

theorem rounded_unique {q m m' : ℚ} (h : Rounded q m) (h' : Rounded q m') : m = m' := by
  obtain ⟨n, hc, hm, h1, h2⟩ := h
  obtain ⟨n', hc', hm', h1', h2'⟩ := h'
  obtain rfl := closest_unique hc hc'
  have e : |m| = |m'| := (magnitude_iff.1 hm).2.trans (magnitude_iff.1 hm').2.symm
  rcases le_total 0 q with h0 | h0
  · rwa [abs_of_nonneg (h1 h0), abs_of_nonneg (h1' h0)] at e
  · rw [abs_of_nonpos (h2 h0), abs_of_nonpos (h2' h0)] at e
    linarith

/-- Adding integers below 2^53 is exact. -/
theorem sum_int (l : List ℤ) : ∀ a : ℤ, |a| + (l.map abs).sum ≤ 2 ^ 53 → l.foldl (fun s (x : ℤ) => Dbl.add s (.num x)) (.num a) = .num (a + l.sum : ℤ) := by
  induction l with
  | nil => intro a _; simp
  | cons x t ih =>
    intro a h
    simp only [List.map_cons, List.sum_cons] at h
    have hnn : 0 ≤ (t.map abs).sum := List.sum_nonneg (by simp only [List.mem_map]; rintro y ⟨z, -, rfl⟩; exact abs_nonneg z)
    have h1 := abs_add_le a x
    have e : Dbl.add (.num (a : ℚ)) (.num (x : ℚ)) = .num ((a + x : ℤ) : ℚ) := by
      show Dbl.round _ = _
      rw [← Int.cast_add]
      exact round_exact (isDouble_int (by linarith))
    rw [List.foldl_cons, e, ih (a + x) (by linarith), List.sum_cons, add_assoc]

theorem abs_sum_le (l : List ℤ) : |l.sum| ≤ (l.map abs).sum := by
  induction l with
  | nil => simp
  | cons x t ih =>
    simp only [List.sum_cons, List.map_cons]
    exact (abs_add_le _ _).trans (by linarith)

theorem zpow_split {a b c : ℤ} (h : a = b + c) : (2 : ℚ) ^ a = 2 ^ b * 2 ^ c := by
  rw [h, zpow_add₀ (by norm_num)]

theorem zpow_split_nat {a c : ℤ} {b : ℕ} (h : a = b + c) : (2 : ℚ) ^ a = 2 ^ b * 2 ^ c := by
  rw [h, zpow_add₀ (by norm_num), zpow_natCast]

theorem top_eq : (2 : ℚ) ^ (1023 : ℤ) = 2 ^ 1023 := zpow_ofNat 2 1023

theorem isDouble_top : IsDouble (2 ^ (1023 : ℤ)) := by
  refine ⟨2 ^ 52, 971, by norm_num, by norm_num, by norm_num, ?_⟩
  rw [Int.cast_pow]
  exact zpow_split_nat (by norm_num)

/-- The relative error of a rounding is at most 2^-53 unless the result is tiny. -/
theorem near_rel (N : Nearest) {z : ℚ} (hs : 2 ^ (-1021 : ℤ) ≤ |z|) (h : |z| ≤ 2 ^ (1023 : ℤ)) :
    |N.rnd z - z| ≤ |z| * 2 ^ (-53 : ℤ) := by
  have hz : 0 < |z| := lt_of_lt_of_le (two_zpow_pos _) hs
  obtain ⟨e, he, he'⟩ := exists_mem_Ico_zpow hz (by norm_num : (1 : ℚ) < 2)
  have h1 : (-1021 : ℤ) ≤ e := by
    have := (zpow_lt_zpow_iff_right₀ (by norm_num : (1 : ℚ) < 2)).1 (hs.trans_lt he')
    omega
  have h2 : e ≤ 1023 := (zpow_le_zpow_iff_right₀ (by norm_num : (1 : ℚ) < 2)).1 (he.trans h)
  by_cases htop : e ≤ 1022
  · have := near_err N z (e - 52) (by omega) (by omega) (by
      rw [← zpow_split_nat (show e + 1 = _ by push_cast; ring)]
      exact he'.le)
    refine this.trans ?_
    have e2 : (2 : ℚ) ^ (e - 52) / 2 = 2 ^ e * 2 ^ (-53 : ℤ) := by
      rw [show e - 52 = (e + -53) + 1 by ring, zpow_add_one₀ (by norm_num), zpow_add₀ (by norm_num)]
      field_simp
    rw [e2]
    exact mul_le_mul_of_nonneg_right he (two_zpow_pos _).le
  · have e3 : e = 1023 := by omega
    subst e3
    have hd : IsDouble z := by
      rw [← isDouble_abs, le_antisymm h he]
      exact isDouble_top
    rw [near_exact N hd, sub_self, abs_zero]
    exact mul_nonneg (abs_nonneg _) (two_zpow_pos _).le

theorem near_rel_abs (N : Nearest) {z : ℚ} (h : |z| ≤ 2 ^ (1023 : ℤ)) :
    |N.rnd z - z| ≤ |z| * 2 ^ (-53 : ℤ) + 2 ^ (-1075 : ℤ) := by
  rcases le_or_gt (2 ^ (-1021 : ℤ)) |z| with hs | hs
  · exact (near_rel N hs h).trans (le_add_of_nonneg_right (two_zpow_pos _).le)
  · have := near_err N z (-1074) (by omega) (by omega) (by
      rw [← zpow_split_nat (show (-1021 : ℤ) = _ by norm_num)]
      exact hs.le)
    have e2 : (2 : ℚ) ^ (-1074 : ℤ) / 2 = 2 ^ (-1075 : ℤ) := by
      rw [show (-1074 : ℤ) = -1075 + 1 by ring, zpow_add_one₀ (by norm_num), mul_div_assoc]
      norm_num
    rw [e2] at this
    exact this.trans (le_add_of_nonneg_left (mul_nonneg (abs_nonneg _) (two_zpow_pos _).le))

/-- The relative error of an addition is at most 2^-53, however small the sum. -/
theorem add_rel (N : Nearest) {x y : ℚ} (hx : IsDouble x) (hy : IsDouble y) (h : |x + y| ≤ 2 ^ (1023 : ℤ)) :
    |N.rnd (x + y) - (x + y)| ≤ |x + y| * 2 ^ (-53 : ℤ) := by
  by_cases hs : |x + y| < 2 ^ (-1021 : ℤ)
  · have hd : IsDouble (x + y) := by
      obtain ⟨m, e, hm, h1, h2, rfl⟩ := hx
      obtain ⟨m', e', hm', h1', h2', rfl⟩ := hy
      have e1 : ∀ (m e : ℤ), -1074 ≤ e → (m : ℚ) * 2 ^ e = ((m * 2 ^ (e + 1074).toNat : ℤ) : ℚ) * 2 ^ (-1074 : ℤ) := by
        intro m e h1
        push_cast
        rw [mul_assoc, ← zpow_split_nat (show e = _ by omega)]
      rw [e1 m e h1, e1 m' e' h1', ← add_mul, ← Int.cast_add] at hs ⊢
      generalize m * 2 ^ (e + 1074).toNat + m' * 2 ^ (e' + 1074).toNat = k at *
      refine ⟨k, -1074, ?_, by omega, by omega, rfl⟩
      rw [abs_mul, abs_of_pos (two_zpow_pos _)] at hs
      have h3 : (2 : ℚ) ^ (-1021 : ℤ) = 2 ^ 53 * 2 ^ (-1074 : ℤ) := zpow_split_nat (by norm_num)
      rw [h3] at hs
      have := lt_of_mul_lt_mul_right hs (two_zpow_pos _).le
      exact_mod_cast this
    rw [near_exact N hd, sub_self, abs_zero]
    exact mul_nonneg (abs_nonneg _) (two_zpow_pos _).le
  · exact near_rel N (not_lt.1 hs) h

/-- Unit of the relative error. -/
def ulp : ℚ := 2 ^ (-53 : ℤ)

theorem ulp_pos : 0 < ulp := two_zpow_pos _

theorem pow_ulp : ∀ k : ℕ, (k : ℚ) * 2 * ulp ≤ 1 → (1 + ulp) ^ k ≤ 1 + 2 * k * ulp := by
  intro k
  induction k with
  | zero => intro _; simp
  | succ k ih =>
    intro h
    have hu := ulp_pos
    push_cast at h ⊢
    have h1 := ih (by nlinarith)
    rw [pow_succ]
    have h2 : (1 + ulp) ^ k * (1 + ulp) ≤ (1 + 2 * k * ulp) * (1 + ulp) := mul_le_mul_of_nonneg_right h1 (by linarith)
    nlinarith

theorem sum_abs_nonneg (l : List ℚ) : 0 ≤ (l.map abs).sum :=
  List.sum_nonneg (by simp only [List.mem_map]; rintro y ⟨z, -, rfl⟩; exact abs_nonneg z)

theorem abs_sum_leq (l : List ℚ) : |l.sum| ≤ (l.map abs).sum := by
  induction l with
  | nil => simp
  | cons x t ih =>
    simp only [List.sum_cons, List.map_cons]
    exact (abs_add_le _ _).trans (by linarith)

/-- The sum of doubles from left to right. -/
theorem sum_err (l : List ℚ) : (∀ x ∈ l, IsDouble x) → (l.map abs).sum * (1 + ulp) ^ l.length ≤ 2 ^ (1023 : ℤ) →
    ∃ s, l.foldl (fun s x => Dbl.add s (.num x)) (.num 0) = .num s ∧ IsDouble s ∧
      |s - l.sum| ≤ ((1 + ulp) ^ l.length - 1) * (l.map abs).sum := by
  induction l using List.reverseRecOn with
  | nil => intro _ _; exact ⟨0, rfl, isDouble_int (i := 0) (by norm_num), by simp⟩
  | append_singleton t x ih =>
    intro hd hb
    have hu := ulp_pos
    simp only [List.map_append, List.sum_append, List.map_cons, List.map_nil, List.sum_cons, List.sum_nil, add_zero, List.length_append,
      List.length_cons, List.length_nil, zero_add, pow_succ] at hb ⊢
    have hA := sum_abs_nonneg t
    have hx := abs_nonneg x
    have hp : 1 ≤ (1 + ulp) ^ t.length := one_le_pow₀ (by linarith)
    generalize hP : (1 + ulp) ^ t.length = P at *
    generalize hAA : (t.map abs).sum = A at *
    have hb1 : (A + |x|) * P ≤ 2 ^ (1023 : ℤ) := by
      refine le_trans ?_ hb
      rw [← mul_assoc]
      exact le_mul_of_one_le_right (by positivity) (by linarith)
    obtain ⟨s, hs, hsd, he⟩ := ih (fun y hy => hd y (List.mem_append_left _ hy)) (by
      refine le_trans ?_ hb1
      exact mul_le_mul_of_nonneg_right (by linarith) (by linarith))
    have hS := abs_sum_leq t
    rw [hAA] at hS
    have h1 : |s| ≤ P * A := by
      have h3 : s = (s - t.sum) + t.sum := by ring
      rw [h3]
      refine (abs_add_le _ _).trans ?_
      nlinarith
    have h2 : |s + x| ≤ P * (A + |x|) := by
      refine (abs_add_le _ _).trans ?_
      nlinarith
    have h4 : |s + x| ≤ 2 ^ (1023 : ℤ) := by linarith
    have h5 := add_rel ieee hsd (hd x (by simp)) h4
    refine ⟨ieee.rnd (s + x), ?_, ieee.isDouble _, ?_⟩
    · rw [List.foldl_append, hs]
      rw [List.foldl_cons, List.foldl_nil, add_num]
      rw [top_eq] at h4
      exact round_num h4
    · have h6 : ieee.rnd (s + x) - (t.sum + x) = (ieee.rnd (s + x) - (s + x)) + (s - t.sum) := by ring
      rw [h6]
      refine (abs_add_le _ _).trans ?_
      have h7 : |s + x| * ulp ≤ P * (A + |x|) * ulp := mul_le_mul_of_nonneg_right h2 hu.le
      have h8 : (P - 1) * A ≤ (P - 1) * (A + |x|) := mul_le_mul_of_nonneg_left (by linarith) (by linarith)
      have h9 : |s + x| * 2 ^ (-53 : ℤ) = |s + x| * ulp := by rw [ulp]
      rw [h9] at h5
      linarith

end Astro
