import Verif.Lemmas.StatsInt
import Verif.Spec.VecDouble

/-
Rounding errors of vector arithmetic.
-/

set_option exponentiation.threshold 3000

namespace Astro

open Spec Time FloatFmt

attribute [local irreducible] FloatFmt.nearest FloatFmt.value Dbl.round Nat.sqrt

theorem dbl_mul_comm (a b : Dbl) : a.mul b = b.mul a := by
  cases a with
  | num x =>
    cases b with
    | num y => rw [mul_num, mul_num, mul_comm]
    | inf b => simp only [Dbl.mul]; split <;> [rfl; (congr 1; cases b <;> cases decide (x < 0) <;> rfl)]
    | nan => rfl
  | inf a =>
    cases b with
    | num y => simp only [Dbl.mul]; split <;> [rfl; (congr 1; cases a <;> cases decide (y < 0) <;> rfl)]
    | inf b => simp only [Dbl.mul]; congr 1; cases a <;> cases b <;> rfl
    | nan => rfl
  | nan => cases b <;> rfl

theorem dbl_add_comm (a b : Dbl) : a.add b = b.add a := by
  cases a with
  | num x =>
    cases b with
    | num y => rw [add_num, add_num, add_comm]
    | inf b => rfl
    | nan => rfl
  | inf a =>
    cases b with
    | num y => rfl
    | inf b => cases a <;> cases b <;> rfl
    | nan => rfl
  | nan => cases b <;> rfl

/-- Rounding is symmetric. -/
theorem round_neg (q : ℚ) (h : q ≠ 0) : Dbl.round (-q) = (Dbl.round q).neg := by
  have hd : decide (-q < 0) = !decide (q < 0) := by
    rcases lt_or_gt_of_ne h with h | h
    · simp [h, h.le]
    · simp [h, h.le]
  cases hn : FloatFmt.double.nearest |q| with
  | some n =>
    rw [round_some hn, round_some (n := n) (by rwa [abs_neg])]
    unfold Dbl.neg
    rcases lt_or_gt_of_ne h with h | h
    · simp [h, not_lt.2 h.le]
    · simp [h, not_lt.2 h.le]
  | none =>
    rw [round_none hn, round_none (by rwa [abs_neg]), hd]
    rfl

theorem isDouble_zero : IsDouble 0 := by simpa using isDouble_int (i := 0) (by norm_num)

theorem round_zero : Dbl.round 0 = .num 0 := round_exact isDouble_zero

theorem round_neg' (q : ℚ) : Dbl.round (-q) = (Dbl.round q).neg := by
  by_cases h : q = 0
  · subst h
    rw [neg_zero, round_zero]
    simp [Dbl.neg]
  · exact round_neg q h

theorem neg_neg' (a : Dbl) : a.neg.neg = a := by
  cases a with
  | num x => simp [Dbl.neg]
  | inf b => simp [Dbl.neg]
  | nan => rfl

/-- Exchanging the operands of a difference changes its sign. -/
theorem dbl_sub_swap (a b : Dbl) : b.sub a = (a.sub b).neg := by
  cases a with
  | num x =>
    cases b with
    | num y => rw [sub_num, sub_num, ← round_neg', neg_sub]
    | inf b => simp [Dbl.sub, Dbl.add, Dbl.neg]
    | nan => rfl
  | inf a =>
    cases b with
    | num y => simp [Dbl.sub, Dbl.add, Dbl.neg]
    | inf b => cases a <;> cases b <;> rfl
    | nan => rfl
  | nan => cases b <;> rfl

/-- A product of two numbers. -/
theorem mul_err {x y : ℚ} (h : |x * y| ≤ 2 ^ (1023 : ℤ)) :
    ∃ p, (Dbl.num x).mul (.num y) = .num p ∧ IsDouble p ∧ |p - x * y| ≤ |x * y| * ulp + speck ∧ p = ieee.rnd (x * y) := by
  refine ⟨ieee.rnd (x * y), ?_, ieee.isDouble _, near_rel_abs ieee h, rfl⟩
  rw [mul_num, round_top h]

/-- A sum of two doubles. -/
theorem add_err {x y : ℚ} (hx : IsDouble x) (hy : IsDouble y) (h : |x + y| ≤ 2 ^ (1023 : ℤ)) :
    ∃ s, (Dbl.num x).add (.num y) = .num s ∧ IsDouble s ∧ |s - (x + y)| ≤ |x + y| * ulp ∧ s = ieee.rnd (x + y) := by
  refine ⟨ieee.rnd (x + y), ?_, ieee.isDouble _, add_rel ieee hx hy h, rfl⟩
  rw [add_num, round_top h]

theorem abs_of_near {p t e : ℚ} (h : |p - t| ≤ e) : |p| ≤ |t| + e := by
  have : p = t + (p - t) := by ring
  rw [this]
  exact (abs_add_le _ _).trans (by linarith)

theorem ulp_small : ulp ≤ 1 / 1024 := by norm_num [ulp]

/-- The unit is small. -/
theorem mul_ulp {t : ℚ} (h : 0 ≤ t) : t * ulp ≤ t / 1024 := by
  rw [div_eq_mul_one_div]
  exact mul_le_mul_of_nonneg_left ulp_small h

theorem speck_small : speck ≤ 1 := zpow_le_one_of_nonpos₀ (by norm_num) (by norm_num)

theorem two_top : 2 * (2 : ℚ) ^ 1022 ≤ 2 ^ (1023 : ℤ) := by
  rw [top_eq]
  norm_num

theorem big_top {t : ℚ} (h : t ≤ 3 / 2 * 2 ^ 1022 + 10) : t ≤ 2 ^ (1023 : ℤ) := by
  rw [top_eq]
  exact h.trans (by norm_num)

/-- The sum of a number and the sum of two products, each with its error. -/
theorem nested_err {a b c A B C : ℚ} (hA : |a| ≤ A) (hB : |b| ≤ B) (hC : |c| ≤ C) (h : A + B + C ≤ 2 ^ 1022)
    {p q r : ℚ} (hp : |p - a| ≤ A * ulp + speck) (hq : |q - b| ≤ B * ulp + speck) (hr : |r - c| ≤ C * ulp + speck)
    (dp : IsDouble p) (dq : IsDouble q) (dr : IsDouble r) :
    ∃ s, (Dbl.num p).add ((Dbl.num q).add (.num r)) = .num s ∧ IsDouble s ∧ |s - (a + b + c)| ≤ 4 * ulp * (A + B + C) + 4 * speck ∧
      s = ieee.rnd (p + ieee.rnd (q + r)) := by
  have hu := ulp_pos
  have hu1 := ulp_small
  have hs := speck_pos
  have hs1 := speck_small
  have hA0 := (abs_nonneg a).trans hA
  have hB0 := (abs_nonneg b).trans hB
  have hC0 := (abs_nonneg c).trans hC
  have np := abs_of_near hp
  have nq := abs_of_near hq
  have nr := abs_of_near hr
  have Bu : B * ulp ≤ B / 1024 := mul_ulp hB0
  have Cu : C * ulp ≤ C / 1024 := mul_ulp hC0
  have Au : A * ulp ≤ A / 1024 := mul_ulp hA0
  have b1 : |q + r| ≤ (B + C) * (1 + ulp) + 2 * speck := (abs_add_le _ _).trans (by linarith)
  obtain ⟨t, ht, dt, et, rt⟩ := add_err dq dr (big_top (b1.trans (by linarith)))
  have b2 : |q + r| * ulp ≤ ((B + C) * (1 + ulp) + 2 * speck) * ulp := mul_le_mul_of_nonneg_right b1 hu.le
  have Buu : B * ulp * ulp ≤ B * ulp / 1024 := mul_ulp (mul_nonneg hB0 hu.le)
  have Cuu : C * ulp * ulp ≤ C * ulp / 1024 := mul_ulp (mul_nonneg hC0 hu.le)
  have su : speck * ulp ≤ speck / 1024 := mul_ulp hs.le
  have e1 : |t - (b + c)| ≤ (B + C) * ulp * (2 + 1 / 1024) + speck * (2 + 2 / 1024) := by
    have : t - (b + c) = (t - (q + r)) + (q - b) + (r - c) := by ring
    rw [this]
    refine (abs_add_le _ _).trans ?_
    have := abs_add_le (t - (q + r)) (q - b)
    linarith
  have nt := abs_of_near e1
  have bc : |b + c| ≤ B + C := (abs_add_le _ _).trans (by linarith)
  have b3 : |p + t| ≤ A * (1 + ulp) + speck + (B + C) + ((B + C) * ulp * (2 + 1 / 1024) + speck * (2 + 2 / 1024)) := (abs_add_le _ _).trans (by linarith)
  obtain ⟨s, hs', ds, es, rs⟩ := add_err dp dt (big_top (b3.trans (by linarith)))
  refine ⟨s, by rw [ht, hs'], ds, ?_, by rw [rs, rt]⟩
  have b4 : |p + t| * ulp ≤ (A * (1 + ulp) + speck + (B + C) + ((B + C) * ulp * (2 + 1 / 1024) + speck * (2 + 2 / 1024))) * ulp :=
    mul_le_mul_of_nonneg_right b3 hu.le
  have Auu : A * ulp * ulp ≤ A * ulp / 1024 := mul_ulp (mul_nonneg hA0 hu.le)
  have : s - (a + b + c) = (s - (p + t)) + (p - a) + (t - (b + c)) := by ring
  rw [this]
  refine (abs_add_le _ _).trans ?_
  have := abs_add_le (s - (p + t)) (p - a)
  have A0 := mul_nonneg hA0 hu.le
  have B0 := mul_nonneg hB0 hu.le
  have C0 := mul_nonneg hC0 hu.le
  linarith

/-- The difference of two products. -/
theorem sub_err {a b A B : ℚ} (hA : |a| ≤ A) (hB : |b| ≤ B) (h : A + B ≤ 2 ^ 1022)
    {p q : ℚ} (hp : |p - a| ≤ A * ulp + speck) (hq : |q - b| ≤ B * ulp + speck) (dp : IsDouble p) (dq : IsDouble q) :
    ∃ s, (Dbl.num p).sub (.num q) = .num s ∧ IsDouble s ∧ |s - (a - b)| ≤ 4 * ulp * (A + B) + 4 * speck ∧ s = ieee.rnd (p - q) := by
  have hu := ulp_pos
  have hu1 := ulp_small
  have hs := speck_pos
  have hs1 := speck_small
  have hA0 := (abs_nonneg a).trans hA
  have hB0 := (abs_nonneg b).trans hB
  have np := abs_of_near hp
  have nq := abs_of_near hq
  have Bu : B * ulp ≤ B / 1024 := mul_ulp hB0
  have Au : A * ulp ≤ A / 1024 := mul_ulp hA0
  have b1 : |p + -q| ≤ (A + B) * (1 + ulp) + 2 * speck := (abs_add_le _ _).trans (by rw [abs_neg]; linarith)
  obtain ⟨s, hs', ds, es, rs⟩ := add_err dp (isDouble_neg dq) (big_top (b1.trans (by linarith)))
  refine ⟨s, hs', ds, ?_, by rw [rs, sub_eq_add_neg]⟩
  have b4 : |p + -q| * ulp ≤ ((A + B) * (1 + ulp) + 2 * speck) * ulp := mul_le_mul_of_nonneg_right b1 hu.le
  have Auu : A * ulp * ulp ≤ A * ulp / 1024 := mul_ulp (mul_nonneg hA0 hu.le)
  have Buu : B * ulp * ulp ≤ B * ulp / 1024 := mul_ulp (mul_nonneg hB0 hu.le)
  have su : speck * ulp ≤ speck / 1024 := mul_ulp hs.le
  have A0 := mul_nonneg hA0 hu.le
  have B0 := mul_nonneg hB0 hu.le
  have : s - (a - b) = (s - (p + -q)) + (p - a) + (b - q) := by ring
  rw [this]
  refine (abs_add_le _ _).trans ?_
  have := abs_add_le (s - (p + -q)) (p - a)
  rw [abs_sub_comm q b] at hq
  linarith

theorem round_int {i : ℤ} (h : |i| ≤ 2 ^ 53) : Dbl.round (i : ℚ) = .num i := round_exact (isDouble_int h)

theorem mul_int {i j : ℤ} (h : |i * j| ≤ 2 ^ 53) : (Dbl.num i).mul (.num j) = .num ((i * j : ℤ) : ℚ) := by
  rw [mul_num, ← Int.cast_mul, round_int h]

theorem add_int {i j : ℤ} (h : |i + j| ≤ 2 ^ 53) : (Dbl.num i).add (.num j) = .num ((i + j : ℤ) : ℚ) := by
  rw [add_num, ← Int.cast_add, round_int h]

theorem sub_int {i j : ℤ} (h : |i - j| ≤ 2 ^ 53) : (Dbl.num i).sub (.num j) = .num ((i - j : ℤ) : ℚ) := by
  rw [sub_num, ← Int.cast_sub, round_int h]


theorem four_ulp : 4 * ulp = 2 ^ (-51 : ℤ) := by norm_num [ulp]

theorem four_speck : 4 * speck = 2 ^ (-1073 : ℤ) := by
  rw [speck, show (2 : ℚ) ^ (-1073 : ℤ) = 2 ^ 2 * 2 ^ (-1075 : ℤ) from zpow_split_nat (by norm_num)]
  norm_num

end Astro
