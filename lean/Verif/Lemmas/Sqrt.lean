import Verif.Lemmas.StatsFold
import Mathlib.Analysis.Real.Sqrt

/-
Square roots of doubles.
-/

set_option exponentiation.threshold 4000

namespace Astro

open Spec Time FloatFmt

attribute [local irreducible] FloatFmt.nearest FloatFmt.value Dbl.round

/-- Doubles are multiples of the smallest positive one. -/
theorem double_grid {x : ℚ} (h : IsDouble x) (B : ℕ) (hB : B = 1074) : ∃ k : ℤ, x * 2 ^ B = k := by
  obtain ⟨m, e, hm, h1, h2, rfl⟩ := h
  refine ⟨m * 2 ^ (e + B).toNat, ?_⟩
  push_cast
  rw [mul_assoc, ← zpow_natCast, ← zpow_natCast, ← zpow_add₀ (by norm_num)]
  congr 2
  omega

/-- A point between the same multiples of the grid as the root is as far from doubles as the root, as far as comparisons go. -/
theorem closest_transfer {r q : ℝ} {y z : ℚ} (B : ℕ) (hB : B = 1074) (hy : IsDouble y) (hz : IsDouble z)
    (h : ∀ k : ℤ, q * 2 ^ (B + 1) ≤ k ↔ r * 2 ^ (B + 1) ≤ k) (h' : ∀ k : ℤ, (k : ℝ) ≤ q * 2 ^ (B + 1) ↔ (k : ℝ) ≤ r * 2 ^ (B + 1))
    (hq : |(y : ℝ) - q| ≤ |(z : ℝ) - q|) : |(y : ℝ) - r| ≤ |(z : ℝ) - r| := by
  obtain ⟨k, hk⟩ := double_grid hy B hB
  obtain ⟨l, hl⟩ := double_grid hz B hB
  have hk' : (y : ℝ) * 2 ^ B = k := by exact_mod_cast congrArg (fun t : ℚ => (t : ℝ)) hk
  have hl' : (z : ℝ) * 2 ^ B = l := by exact_mod_cast congrArg (fun t : ℚ => (t : ℝ)) hl
  have hp : (0 : ℝ) < 2 ^ B := by positivity
  generalize (y : ℝ) = Y at *
  generalize (z : ℝ) = Z at *
  have e : ∀ t : ℝ, |Y - t| ≤ |Z - t| ↔ (Y - Z) * (Y + Z - 2 * t) ≤ 0 := by
    intro t
    rw [← sq_le_sq]
    constructor <;> intro h <;> nlinarith
  rw [e] at hq ⊢
  rw [pow_succ] at h h'
  generalize (2 : ℝ) ^ B = P at *
  have hm : (Y + Z) * P = ((k + l : ℤ) : ℝ) := by push_cast; linarith
  rcases lt_trichotomy Y Z with hlt | heq | hgt
  · have h1 : 0 ≤ Y + Z - 2 * q := by nlinarith
    have h2 := (h (k + l)).1 (by rw [← hm]; nlinarith)
    rw [← hm] at h2
    have : 0 ≤ Y + Z - 2 * r := by
      by_contra hc
      nlinarith
    nlinarith
  · rw [heq]
    simp
  · have h1 : Y + Z - 2 * q ≤ 0 := by nlinarith
    have h2 := (h' (k + l)).1 (by rw [← hm]; nlinarith)
    rw [← hm] at h2
    have : Y + Z - 2 * r ≤ 0 := by
      by_contra hc
      nlinarith
    nlinarith

/-- Where the root is on a grid. -/
theorem root_grid {x : ℚ} (hx : 0 ≤ x) (C : ℕ) :
    ∃ t : ℚ, (let y := x * 4 ^ C; let s := Nat.sqrt ⌊y⌋₊; (if (s : ℚ) * s = y then (s : ℚ) else s + 1 / 2)) = t ∧ 0 ≤ t ∧ t * t ≤ 4 * (x * 4 ^ C) + 1 ∧
      (x = 0 → t = 0) ∧
      (∀ k : ℤ, (t : ℝ) ≤ k ↔ √(x : ℝ) * 2 ^ C ≤ k) ∧ ∀ k : ℤ, (k : ℝ) ≤ t ↔ (k : ℝ) ≤ √(x : ℝ) * 2 ^ C := by
  have hy : 0 ≤ x * 4 ^ C := by positivity
  have hr : √(x : ℝ) * 2 ^ C = √((x * 4 ^ C : ℚ) : ℝ) := by
    push_cast
    rw [Real.sqrt_mul (by exact_mod_cast hx), show (4 : ℝ) = 2 ^ 2 by norm_num, ← pow_mul, mul_comm 2 C, pow_mul, Real.sqrt_sq (by positivity)]
  rw [hr]
  have h0 : x = 0 → x * 4 ^ C = 0 := by rintro rfl; simp
  dsimp only
  generalize x * 4 ^ C = y at *
  have h1 : (Nat.sqrt ⌊y⌋₊ : ℚ) * Nat.sqrt ⌊y⌋₊ ≤ y := by
    have : ((Nat.sqrt ⌊y⌋₊ * Nat.sqrt ⌊y⌋₊ : ℕ) : ℚ) ≤ (⌊y⌋₊ : ℚ) := by exact_mod_cast Nat.sqrt_le _
    push_cast at this
    exact this.trans (Nat.floor_le hy)
  have h2 : y < (Nat.sqrt ⌊y⌋₊ + 1 : ℚ) * (Nat.sqrt ⌊y⌋₊ + 1) := by
    have h3 : ⌊y⌋₊ + 1 ≤ (Nat.sqrt ⌊y⌋₊ + 1) * (Nat.sqrt ⌊y⌋₊ + 1) := Nat.lt_succ_sqrt _
    have h4 : ((⌊y⌋₊ + 1 : ℕ) : ℚ) ≤ ((Nat.sqrt ⌊y⌋₊ + 1) * (Nat.sqrt ⌊y⌋₊ + 1) : ℕ) := by exact_mod_cast h3
    push_cast at h4
    exact (Nat.lt_floor_add_one y).trans_le h4
  have h5 : y = 0 → (Nat.sqrt ⌊y⌋₊ : ℚ) = 0 := by rintro rfl; simp
  generalize Nat.sqrt ⌊y⌋₊ = s at *
  have hy' : (0 : ℝ) ≤ y := by exact_mod_cast hy
  have hs1 : (s : ℝ) ≤ √(y : ℝ) := Real.le_sqrt_of_sq_le (by rw [sq]; exact_mod_cast h1)
  have hs2 : √(y : ℝ) < s + 1 := by
    rw [Real.sqrt_lt' (by positivity), sq]
    exact_mod_cast h2
  have hs0 : (0 : ℚ) ≤ s := by positivity
  by_cases he : (s : ℚ) * s = y
  · rw [if_pos he]
    have hroot : √(y : ℝ) = s := by
      rw [← he]
      push_cast
      exact Real.sqrt_mul_self (by positivity)
    refine ⟨s, rfl, hs0, by nlinarith, fun h => h5 (h0 h), ?_, ?_⟩ <;> intro k <;> rw [hroot] <;> push_cast <;> rfl
  · rw [if_neg he]
    have hne : (s : ℝ) < √(y : ℝ) := by
      refine lt_of_le_of_ne hs1 fun h => he ?_
      have h6 : (s : ℝ) * s = y := by rw [h]; exact Real.mul_self_sqrt hy'
      exact_mod_cast h6
    refine ⟨s + 1 / 2, rfl, by linarith, by nlinarith, fun h => ?_, ?_, ?_⟩
    · exfalso
      apply he
      rw [h5 (h0 h), h0 h]
      simp
    · intro k
      push_cast
      constructor
      · intro h
        have h7 : (s : ℤ) < k := by
          have : (s : ℝ) < k := by linarith
          exact_mod_cast this
        have h8 : ((s : ℤ) + 1 : ℝ) ≤ k := by exact_mod_cast h7
        push_cast at h8
        linarith
      · intro h
        have h7 : (s : ℤ) < k := by
          have : (s : ℝ) < k := by linarith
          exact_mod_cast this
        have h8 : ((s : ℤ) + 1 : ℝ) ≤ k := by exact_mod_cast h7
        push_cast at h8
        linarith
    · intro k
      push_cast
      constructor
      · intro h
        have h7 : k < (s : ℤ) + 1 := by
          have : (k : ℝ) < s + 1 := by linarith
          exact_mod_cast this
        have h8 : (k : ℝ) ≤ (s : ℤ) := by exact_mod_cast Int.lt_add_one_iff.1 h7
        push_cast at h8
        linarith
      · intro h
        have h7 : k < (s : ℤ) + 1 := by
          have : (k : ℝ) < s + 1 := by linarith
          exact_mod_cast this
        have h8 : (k : ℝ) ≤ (s : ℤ) := by exact_mod_cast Int.lt_add_one_iff.1 h7
        push_cast at h8
        linarith

/-- The root of a double is rounded once. -/
theorem sqrt_closest {x : ℚ} (hx : 0 ≤ x) (hd : IsDouble x) : ∃ r, (Dbl.num x).sqrt = .num r ∧ IsDouble r ∧ 0 ≤ r ∧ (x = 0 → r = 0) ∧
    ∀ z : ℚ, IsDouble z → |(r : ℝ) - √(x : ℝ)| ≤ |(z : ℝ) - √(x : ℝ)| := by
  have hb := double_le_largest hd
  rw [abs_of_nonneg hx] at hb
  obtain ⟨t, ht, ht0, hsq, hz0, h, h'⟩ := root_grid hx 1075
  have e : (Dbl.num x).sqrt = Dbl.round (t / 2 ^ 1075) := by
    rw [← ht]
    exact if_neg (not_lt.2 hx)
  clear ht
  have hs : 0 ≤ t / 2 ^ 1075 := by positivity
  have hlim : |t / 2 ^ 1075| ≤ 2 ^ 1023 := by
    rw [abs_of_nonneg hs, div_le_iff₀ (by positivity), ← pow_add]
    refine le_of_sq_le_sq ?_ (by positivity)
    rw [sq]
    refine hsq.trans ?_
    have : x ≤ 2 ^ 1024 := hb.trans (by norm_num)
    calc 4 * (x * 4 ^ 1075) + 1 ≤ 4 * (2 ^ 1024 * 4 ^ 1075) + 1 := by gcongr
      _ ≤ _ := by norm_num
  refine ⟨ieee.rnd (t / 2 ^ 1075), ?_, ieee.isDouble _, rnd_nonneg hs, fun h0 => ?_, ?_⟩
  · rw [e, round_num hlim]
  · rw [hz0 h0, zero_div, near_zero]
  · intro z hz
    refine closest_transfer (q := ((t / 2 ^ 1075 : ℚ) : ℝ)) 1074 rfl (ieee.isDouble _) hz ?_ ?_ ?_
    · intro k
      rw [← h k]
      push_cast
      rw [div_mul_cancel₀ _ (by positivity)]
    · intro k
      rw [← h' k]
      push_cast
      rw [div_mul_cancel₀ _ (by positivity)]
    · have := ieee.closest (t / 2 ^ 1075) z hz
      exact_mod_cast this

end Astro
