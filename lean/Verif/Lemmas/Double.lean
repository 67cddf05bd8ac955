import Verif.Spec.Double
import Verif.Lemmas.Calendar
import Mathlib.Algebra.Order.Round
import Mathlib.Data.Nat.Log

namespace Astro.Time

open Astro.Spec

/-- An integer of at most 53 bits times a power of two is a double. -/
theorem isDouble_mul (m e : ℤ) (hm : |m| ≤ 2 ^ 53) (h1 : -1074 ≤ e) (h2 : e ≤ 970) : IsDouble (m * 2 ^ e) := by
  rcases lt_or_eq_of_le hm with h | h
  · exact ⟨m, e, h, h1, by omega, rfl⟩
  · rcases abs_choice m with hc | hc
    · refine ⟨2 ^ 52, e + 1, by norm_num, by omega, by omega, ?_⟩
      rw [show m = 2 ^ 53 by omega, zpow_add_one₀ (by norm_num)]
      push_cast
      ring
    · refine ⟨-2 ^ 52, e + 1, by norm_num, by omega, by omega, ?_⟩
      rw [show m = -2 ^ 53 by omega, zpow_add_one₀ (by norm_num)]
      push_cast
      ring

theorem isDouble_neg {x : ℚ} (h : IsDouble x) : IsDouble (-x) := by
  obtain ⟨m, e, hm, h1, h2, rfl⟩ := h
  exact ⟨-m, e, by rwa [abs_neg], h1, h2, by push_cast; ring⟩

/-- Below `2^(e+53)` there is a double within `2^e / 2`. -/
theorem exists_near (x : ℚ) (e : ℤ) (h1 : -1074 ≤ e) (h2 : e ≤ 970) (h : |x| ≤ 2 ^ 53 * 2 ^ e) : ∃ y, IsDouble y ∧ |y - x| ≤ 2 ^ e / 2 := by
  have hp : (0 : ℚ) < 2 ^ e := zpow_pos (by norm_num) _
  have hr := abs_sub_round (x / 2 ^ e)
  refine ⟨round (x / 2 ^ e) * 2 ^ e, isDouble_mul _ e ?_ h1 h2, ?_⟩
  · have hb : |x / 2 ^ e| ≤ 2 ^ 53 := by rw [abs_div, abs_of_pos hp, div_le_iff₀ hp]; exact h
    have : |((round (x / 2 ^ e) : ℤ) : ℚ)| < 2 ^ 53 + 1 := by
      rw [abs_le] at hr hb
      rw [abs_lt]
      constructor <;> linarith [hr.1, hr.2, hb.1, hb.2]
    have : |round (x / 2 ^ e)| < 2 ^ 53 + 1 := by exact_mod_cast this
    omega
  · have e1 : (round (x / 2 ^ e) : ℚ) * 2 ^ e - x = -((x / 2 ^ e - round (x / 2 ^ e)) * 2 ^ e) := by field_simp; ring
    rw [e1, abs_neg, abs_mul, abs_of_pos hp]
    nlinarith

variable (N : Nearest)

theorem near_exact {x : ℚ} (h : IsDouble x) : N.rnd x = x := N.rounding.exact x h

theorem near_mono {x y : ℚ} (h : x ≤ y) : N.rnd x ≤ N.rnd y := N.rounding.mono x y h

theorem near_zero : N.rnd 0 = 0 := near_exact N ⟨0, 0, by norm_num, by omega, by omega, by simp⟩

/-- The error of one rounding. -/
theorem near_err (x : ℚ) (e : ℤ) (h1 : -1074 ≤ e) (h2 : e ≤ 970) (h : |x| ≤ 2 ^ 53 * 2 ^ e) : |N.rnd x - x| ≤ 2 ^ e / 2 := by
  obtain ⟨y, hy, hd⟩ := exists_near x e h1 h2 h
  exact le_trans (N.closest x y hy) hd

/-- If a double below `b` is closer to `x` than `b` is, the result is below `b`. -/
theorem near_lt {x z b : ℚ} (hz : IsDouble z) (hb : |z - x| < b - x) : N.rnd x < b := by
  have := N.closest x z hz
  have := abs_le.1 this
  linarith [this.2]

theorem near_gt {x z b : ℚ} (hz : IsDouble z) (hb : |z - x| < x - b) : b < N.rnd x := by
  have := N.closest x z hz
  have := abs_le.1 this
  linarith [this.1]

/-- A double of absolute value at least `2^(g+52)` is a multiple of `2^g`. -/
theorem double_multiple {x : ℚ} (h : IsDouble x) (g : ℤ) (hx : 2 ^ 52 * 2 ^ g ≤ |x|) : ∃ k : ℤ, x = k * 2 ^ g := by
  obtain ⟨m, e, hm, h1, h2, rfl⟩ := h
  have hp : (0 : ℚ) < 2 ^ e := zpow_pos (by norm_num) _
  rw [abs_mul, abs_of_pos hp] at hx
  have hm' : |(m : ℚ)| < 2 ^ 53 := by exact_mod_cast hm
  have hlt : (2 : ℚ) ^ (52 + g) < 2 ^ (53 + e) := by
    rw [zpow_add₀ (by norm_num), zpow_add₀ (by norm_num)]
    calc (2 : ℚ) ^ (52 : ℤ) * 2 ^ g = 2 ^ 52 * 2 ^ g := by norm_num
      _ ≤ |(m : ℚ)| * 2 ^ e := hx
      _ < 2 ^ 53 * 2 ^ e := mul_lt_mul_of_pos_right hm' hp
      _ = _ := by norm_num
  have hge : g ≤ e := by
    have := (zpow_lt_zpow_iff_right₀ (by norm_num : (1 : ℚ) < 2)).1 hlt
    omega
  obtain ⟨n, hn⟩ := Int.eq_ofNat_of_zero_le (sub_nonneg.2 hge)
  refine ⟨m * 2 ^ n, ?_⟩
  rw [show e = n + g by omega, zpow_add₀ (by norm_num)]
  push_cast
  rw [zpow_natCast]
  ring

theorem below_24 {x : ℚ} (hx : IsDouble x) {M : ℤ} {j : ℕ} (hj : j ≤ 40) (hM1 : 2 ^ j ≤ |M|) (h : x < 24 * M) :
    x ≤ 24 * M - 16 * 2 ^ ((j : ℤ) - 52) := by
  have ht : (0 : ℚ) < 2 ^ j := by positivity
  have hu : (16 : ℚ) * 2 ^ ((j : ℤ) - 52) = 2 ^ ((j : ℤ) - 48) := by
    rw [show (j : ℤ) - 48 = 4 + ((j : ℤ) - 52) by ring, zpow_add₀ (by norm_num)]
    norm_num
  have hu2 : (2 : ℚ) ^ 52 * 2 ^ ((j : ℤ) - 48) = 16 * 2 ^ j := by
    rw [zpow_sub₀ (by norm_num), zpow_natCast]
    norm_num
    ring
  have hM1' : (2 : ℚ) ^ j ≤ |(M : ℚ)| := by exact_mod_cast hM1
  rw [hu]
  by_cases hb : 16 * 2 ^ j ≤ |x|
  · obtain ⟨k, hk⟩ := double_multiple hx ((j : ℤ) - 48) (hu2 ▸ hb)
    have hp : (0 : ℚ) < 2 ^ ((j : ℤ) - 48) := zpow_pos (by norm_num) _
    have hM : (24 * M : ℚ) = ((24 * M * 2 ^ (48 - j) : ℤ) : ℚ) * 2 ^ ((j : ℤ) - 48) := by
      push_cast
      rw [mul_assoc, ← zpow_natCast, ← zpow_add₀ (by norm_num), show ((48 - j : ℕ) : ℤ) + ((j : ℤ) - 48) = 0 by omega]
      simp
    rw [hM, hk] at h ⊢
    have := lt_of_mul_lt_mul_right h hp.le
    have : k < 24 * M * 2 ^ (48 - j) := by exact_mod_cast this
    have : (k : ℚ) ≤ ((24 * M * 2 ^ (48 - j) : ℤ) : ℚ) - 1 := by
      have : k ≤ 24 * M * 2 ^ (48 - j) - 1 := by omega
      exact_mod_cast this
    nlinarith
  · rw [not_le] at hb
    have hs : (2 : ℚ) ^ 52 * 2 ^ ((j : ℤ) - 48) ≥ 4 * 2 ^ ((j : ℤ) - 48) := by
      have hp : (0 : ℚ) < 2 ^ ((j : ℤ) - 48) := zpow_pos (by norm_num) _
      nlinarith
    have := abs_lt.1 hb
    rcases abs_cases (M : ℚ) with a | a <;> linarith [this.1, this.2]

/-- Rounding does not disturb the integer quotient by 24. -/
theorem floor24 {x : ℚ} (hx : IsDouble x) (hb : |x| < 2 ^ 40) (hu : 0 ≤ x ∨ x ≤ -2 ^ (-1000 : ℤ)) : ⌊N.rnd (x / 24)⌋ = ⌊x / 24⌋ := by
  have hb' := abs_lt.1 hb
  have f1 := Int.floor_le (x / 24)
  have f2 := Int.lt_floor_add_one (x / 24)
  have hn1 : (-2 ^ 40 : ℤ) ≤ ⌊x / 24⌋ := Int.le_floor.2 (by push_cast; linarith [hb'.1])
  have hn2 : ⌊x / 24⌋ < (2 ^ 40 : ℤ) := Int.floor_lt.2 (by push_cast; linarith [hb'.2])
  generalize ⌊x / 24⌋ = n at f1 f2 hn1 hn2 ⊢
  rw [Int.floor_eq_iff]
  constructor
  · have := N.rounding.mono _ _ f1
    rwa [rnd_int N.rounding n (by rw [abs_lt]; constructor <;> omega)] at this
  · rcases lt_trichotomy (n + 1) 0 with hM | hM | hM
    case inr.inl =>
      have e : (n : ℚ) + 1 = 0 := by exact_mod_cast hM
      rw [e] at f2 ⊢
      have hx0 : x ≤ -2 ^ (-1000 : ℤ) := by
        rcases hu with h | h
        · linarith
        · exact h
      have hd : IsDouble (-2 ^ (-1005 : ℤ)) := ⟨-1, -1005, by norm_num, by omega, by omega, by norm_num⟩
      have hlt : x / 24 ≤ -2 ^ (-1005 : ℤ) := by
        rw [show (-1005 : ℤ) = -1000 + -5 by norm_num, zpow_add₀ (by norm_num)]
        have : (0 : ℚ) < 2 ^ (-1000 : ℤ) := zpow_pos (by norm_num) _
        have h5 : (2 : ℚ) ^ (-5 : ℤ) = 1 / 32 := by norm_num
        rw [h5]
        generalize (2 : ℚ) ^ (-1000 : ℤ) = y at *
        linarith
      have := N.rounding.mono _ _ hlt
      rw [N.rounding.exact _ hd] at this
      refine lt_of_le_of_lt this ?_
      have : (0 : ℚ) < 2 ^ (-1005 : ℤ) := zpow_pos (by norm_num) _
      linarith
    all_goals
      have hne : (n + 1).natAbs ≠ 0 := by omega
      have l1 := Nat.pow_log_le_self 2 hne
      have l2 := Nat.lt_pow_succ_log_self (b := 2) (by norm_num) (n + 1).natAbs
      have l3 : Nat.log 2 (n + 1).natAbs < 41 := Nat.log_lt_of_lt_pow hne (by omega)
      generalize Nat.log 2 (n + 1).natAbs = j at l1 l2 l3
      have hM1 : (2 : ℤ) ^ j ≤ |n + 1| := by rw [Int.abs_eq_natAbs]; exact_mod_cast l1
      have hM2 : |n + 1| < (2 : ℤ) ^ (j + 1) := by rw [Int.abs_eq_natAbs]; exact_mod_cast l2
      have hlt := below_24 hx (by omega) hM1 (by push_cast; linarith)
      push_cast at hlt
      have hp : (0 : ℚ) < 2 ^ ((j : ℤ) - 52) := zpow_pos (by norm_num) _
      have hz : IsDouble ((n + 1 : ℚ) - 2 ^ ((j : ℤ) - 52)) := by
        have := isDouble_mul ((n + 1) * 2 ^ (52 - j) - 1) ((j : ℤ) - 52) (by
          have e : (2 : ℤ) ^ (j + 1) * 2 ^ (52 - j) = 2 ^ 53 := by rw [← pow_add]; congr 1; omega
          have h1 : |n + 1| + 1 ≤ 2 ^ (j + 1) := by omega
          have hq : (1 : ℤ) ≤ 2 ^ (52 - j) := one_le_pow₀ (by norm_num)
          have h2 : (|n + 1| + 1) * 2 ^ (52 - j) ≤ 2 ^ 53 := by rw [← e]; exact mul_le_mul_of_nonneg_right h1 (by omega)
          calc |(n + 1) * 2 ^ (52 - j) - 1| ≤ |(n + 1) * 2 ^ (52 - j)| + |(1 : ℤ)| := abs_sub _ _
            _ = |n + 1| * 2 ^ (52 - j) + 1 := by rw [abs_mul, abs_of_nonneg (show (0 : ℤ) ≤ 2 ^ (52 - j) by omega)]; simp
            _ ≤ 2 ^ 53 := by linarith [add_mul (|n + 1|) 1 ((2 : ℤ) ^ (52 - j))]) (by omega) (by omega)
        convert this using 1
        push_cast
        rw [sub_mul, mul_assoc, ← zpow_natCast, ← zpow_add₀ (by norm_num), show ((52 - j : ℕ) : ℤ) + ((j : ℤ) - 52) = 0 by omega]
        simp
      refine near_lt N hz ?_
      rw [abs_lt]
      constructor <;> linarith

/-- What the reduction to 24 hours does in arithmetic that rounds to nearest. -/
theorem reduce24_near {x : ℚ} (hx : IsDouble x) (hb : |x| < 2 ^ 40) (hu : 0 ≤ x ∨ x ≤ -2 ^ (-1000 : ℤ)) :
    ∃ n : ℤ, 0 ≤ reduce24 N.rounding x ∧ reduce24 N.rounding x ≤ 24 ∧ |reduce24 N.rounding x - (x - 24 * n)| ≤ 1 / 2 ^ 49 ∧
      (0 ≤ x → reduce24 N.rounding x = x - 24 * n ∧ reduce24 N.rounding x < 24) := by
  have hb' := abs_lt.1 hb
  have f1 := Int.floor_le (x / 24)
  have f2 := Int.lt_floor_add_one (x / 24)
  have hn1 : (-2 ^ 40 : ℤ) ≤ ⌊x / 24⌋ := Int.le_floor.2 (by push_cast; linarith [hb'.1])
  have hn2 : ⌊x / 24⌋ < (2 ^ 40 : ℤ) := Int.floor_lt.2 (by push_cast; linarith [hb'.2])
  have e : reduce24 N.rounding x = N.rnd (x - 24 * ⌊x / 24⌋) := by
    have h24 := rnd_int N.rounding (24 * ⌊x / 24⌋) (by rw [abs_lt]; constructor <;> omega)
    push_cast at h24
    unfold reduce24 Rounding.sub Rounding.mul Rounding.div
    rw [show N.rounding.rnd (x / 24) = N.rnd (x / 24) from rfl, floor24 N hx hb hu, h24]
    rfl
  refine ⟨⌊x / 24⌋, ?_⟩
  rw [e]
  generalize ⌊x / 24⌋ = n at *
  have h0 : 0 ≤ x - 24 * n := by linarith
  have h24 : x - 24 * n < 24 := by linarith
  have b := rnd_between N.rounding (a := ((0 : ℤ) : ℚ)) (b := ((24 : ℤ) : ℚ)) (isDouble_int 0 (by norm_num)) (isDouble_int 24 (by norm_num))
    (x := x - 24 * n) (by push_cast; exact h0) (by push_cast; exact h24.le)
  refine ⟨by have := b.1; push_cast at this; exact this, by have := b.2; push_cast at this; exact this, ?_, fun hx0 => ?_⟩
  · have := near_err N (x - 24 * n) (-48) (by omega) (by omega) (by rw [abs_of_nonneg h0]; norm_num; linarith)
    refine le_trans this ?_
    norm_num
  · have hd : IsDouble (x - 24 * n) := by
      have hn0 : -1 < n := by
        have : (-1 : ℚ) < n := by linarith
        exact_mod_cast this
      rcases (by omega : n = 0 ∨ 1 ≤ n) with h | h
      · simpa [h] using hx
      · have h' : (1 : ℚ) ≤ n := by exact_mod_cast h
        obtain ⟨k, hk⟩ := double_multiple hx (-48) (by rw [abs_of_nonneg hx0]; norm_num; linarith)
        have hp : (2 : ℚ) ^ (-48 : ℤ) = 1 / 2 ^ 48 := by norm_num
        have hm : x - 24 * n = ((k - 24 * 2 ^ 48 * n : ℤ) : ℚ) * 2 ^ (-48 : ℤ) := by rw [hk, hp]; push_cast; ring
        rw [hm]
        refine isDouble_mul _ _ ?_ (by omega) (by omega)
        rw [hm, hp] at h0 h24
        have g0 : (0 : ℚ) ≤ ((k - 24 * 2 ^ 48 * n : ℤ) : ℚ) := by
          push_cast at h0 ⊢
          linarith
        have g1 : ((k - 24 * 2 ^ 48 * n : ℤ) : ℚ) < ((24 * 2 ^ 48 : ℤ) : ℚ) := by
          push_cast at h24 ⊢
          linarith
        have g0' : 0 ≤ k - 24 * 2 ^ 48 * n := by exact_mod_cast g0
        have g1' : k - 24 * 2 ^ 48 * n < 24 * 2 ^ 48 := by exact_mod_cast g1
        rw [abs_of_nonneg g0']
        omega
    have := N.rounding.exact _ hd
    rw [show N.rounding.rnd = N.rnd from rfl] at this
    rw [this]
    exact ⟨rfl, h24⟩

/-- The fractional part of a double is a double. -/
theorem frac_double {d : ℚ} (hd : IsDouble d) {n : ℤ} (h : toLong d = some n) : IsDouble (d - n) ∧ |d - n| < 1 ∧ (0 ≤ d → 0 ≤ d - n) ∧ (d ≤ 0 → d - n ≤ 0) := by
  have hs := toLong_spec h
  have hl : |d - n| < 1 := by
    rw [abs_lt]
    rcases le_total 0 d with h0 | h0
    · obtain ⟨_, b, c⟩ := hs.1 h0
      constructor <;> linarith
    · obtain ⟨_, b, c⟩ := hs.2 h0
      constructor <;> linarith
  have hle : |d - n| ≤ |d| := by
    rcases le_total 0 d with h0 | h0
    · obtain ⟨a, b, c⟩ := hs.1 h0
      have a' : (0 : ℚ) ≤ n := by exact_mod_cast a
      rw [abs_of_nonneg (by linarith), abs_of_nonneg h0]
      linarith
    · obtain ⟨a, b, c⟩ := hs.2 h0
      have a' : (n : ℚ) ≤ 0 := by exact_mod_cast a
      rw [abs_of_nonpos (by linarith), abs_of_nonpos h0]
      linarith
  refine ⟨?_, hl, fun h0 => by linarith [(hs.1 h0).2.1], fun h0 => by linarith [(hs.2 h0).2.1]⟩
  obtain ⟨m, e, hm, h1, h2, rfl⟩ := hd
  rcases le_or_gt 0 e with he | he
  · obtain ⟨k, rfl⟩ := Int.eq_ofNat_of_zero_le he
    have e1 : (m : ℚ) * 2 ^ (k : ℤ) - n = ((m * 2 ^ k - n : ℤ) : ℚ) := by push_cast; rw [zpow_natCast]
    rw [e1] at hl ⊢
    have : |m * 2 ^ k - n| < 1 := by exact_mod_cast hl
    exact isDouble_int _ (lt_trans this (by norm_num))
  · obtain ⟨k, hk⟩ := Int.eq_ofNat_of_zero_le (show 0 ≤ -e by omega)
    have hp : (0 : ℚ) < 2 ^ e := zpow_pos (by norm_num) _
    have e1 : (m : ℚ) * 2 ^ e - n = ((m - n * 2 ^ k : ℤ) : ℚ) * 2 ^ e := by
      push_cast
      rw [sub_mul, mul_assoc, ← zpow_natCast, ← zpow_add₀ (by norm_num), show (k : ℤ) + e = 0 by omega]
      simp
    rw [e1] at hle ⊢
    rw [abs_mul, abs_mul, abs_of_pos hp] at hle
    have := le_of_mul_le_mul_right hle hp
    have : |m - n * 2 ^ k| ≤ |m| := by exact_mod_cast this
    exact ⟨_, e, by omega, h1, h2, rfl⟩

/-- A double below 1 stays below 60 when multiplied by 60. -/
theorem mul60_lt {f : ℚ} (hf : IsDouble f) (h : f < 1) : N.rnd (f * 60) < 60 := by
  have hle : f ≤ 1 - 1 / 2 ^ 53 := by
    rcases le_or_gt (1 / 2) f with hh | hh
    · obtain ⟨k, hk⟩ := double_multiple hf (-53) (by rw [abs_of_nonneg (by linarith)]; norm_num; linarith)
      have hp : (2 : ℚ) ^ (-53 : ℤ) = 1 / 2 ^ 53 := by norm_num
      rw [hk, hp] at h ⊢
      have h' : (k : ℚ) < ((2 ^ 53 : ℤ) : ℚ) := by push_cast; linarith
      have h'' : k < 2 ^ 53 := by exact_mod_cast h'
      have : (k : ℚ) ≤ ((2 ^ 53 - 1 : ℤ) : ℚ) := by exact_mod_cast (by omega : k ≤ 2 ^ 53 - 1)
      push_cast at this
      linarith
    · norm_num
      linarith
  have hz : IsDouble (60 - 1 / 2 ^ 47) := by
    have := isDouble_mul (60 * 2 ^ 47 - 1) (-47) (by norm_num) (by omega) (by omega)
    convert this using 1
    norm_num
  refine near_lt N hz ?_
  rw [abs_lt]
  constructor <;> linarith

theorem mul60_gt {f : ℚ} (hf : IsDouble f) (h : -1 < f) : -60 < N.rnd (f * 60) := by
  have hle : -(1 - 1 / 2 ^ 53) ≤ f := by
    rcases le_or_gt f (-(1 / 2)) with hh | hh
    · obtain ⟨k, hk⟩ := double_multiple hf (-53) (by rw [abs_of_nonpos (by linarith)]; norm_num; linarith)
      have hp : (2 : ℚ) ^ (-53 : ℤ) = 1 / 2 ^ 53 := by norm_num
      rw [hk, hp] at h ⊢
      have h' : ((-2 ^ 53 : ℤ) : ℚ) < k := by push_cast; linarith
      have h'' : -2 ^ 53 < k := by exact_mod_cast h'
      have : ((-2 ^ 53 + 1 : ℤ) : ℚ) ≤ k := by exact_mod_cast (by omega : -2 ^ 53 + 1 ≤ k)
      push_cast at this
      linarith
    · norm_num at hh ⊢
      linarith
  have hz : IsDouble (-60 + 1 / 2 ^ 47) := by
    have := isDouble_mul (-60 * 2 ^ 47 + 1) (-47) (by norm_num) (by omega) (by omega)
    convert this using 1
    norm_num
  refine near_gt N hz ?_
  rw [abs_lt]
  constructor <;> linarith

theorem mul60 {f : ℚ} (hf : IsDouble f) (h : |f| < 1) :
    |N.rnd (f * 60)| < 60 ∧ |N.rnd (f * 60) - f * 60| ≤ 1 / 2 ^ 48 ∧ (0 ≤ f → 0 ≤ N.rnd (f * 60)) ∧ (f ≤ 0 → N.rnd (f * 60) ≤ 0) := by
  have h' := abs_lt.1 h
  have hz := near_zero N
  refine ⟨abs_lt.2 ⟨mul60_gt N hf h'.1, mul60_lt N hf h'.2⟩, ?_, fun h0 => ?_, fun h0 => ?_⟩
  · refine le_trans (near_err N _ (-47) (by omega) (by omega) ?_) (by norm_num)
    rw [abs_mul]
    norm_num
    linarith
  · have := N.rounding.mono 0 (f * 60) (by linarith)
    rwa [show N.rounding.rnd = N.rnd from rfl, hz] at this
  · have := N.rounding.mono (f * 60) 0 (by linarith)
    rwa [show N.rounding.rnd = N.rnd from rfl, hz] at this

/-- Error of a rounded result against an exact value. -/
theorem near_step {x y E δ B : ℚ} (e : ℤ) (h1 : -1074 ≤ e) (h2 : e ≤ 970) (hy : |y| ≤ B) (hE : |x - y| ≤ E) (hB : B + E ≤ 2 ^ 53 * 2 ^ e)
    (hδ : (2 : ℚ) ^ e / 2 + E ≤ δ) : |N.rnd x - y| ≤ δ := by
  have a := near_err N x e h1 h2 (by
    have : |x| ≤ |x - y| + |y| := by
      calc |x| = |(x - y) + y| := by ring_nf
        _ ≤ _ := abs_add_le _ _
    linarith)
  calc |N.rnd x - y| = |(N.rnd x - x) + (x - y)| := by ring_nf
    _ ≤ |N.rnd x - x| + |x - y| := abs_add_le _ _
    _ ≤ δ := by linarith

theorem mul_err {x y a b E F X A : ℚ} (hx : |x - a| ≤ E) (hy : |y - b| ≤ F) (hX : |y| ≤ X) (hA : |a| ≤ A) : |x * y - a * b| ≤ E * X + A * F := by
  have e : x * y - a * b = (x - a) * y + a * (y - b) := by ring
  rw [e]
  calc |(x - a) * y + a * (y - b)| ≤ |(x - a) * y| + |a * (y - b)| := abs_add_le _ _
    _ = |x - a| * |y| + |a| * |y - b| := by rw [abs_mul, abs_mul]
    _ ≤ E * X + A * F := add_le_add (mul_le_mul hx hX (abs_nonneg _) (le_trans (abs_nonneg _) hx))
        (mul_le_mul hA hy (abs_nonneg _) (le_trans (abs_nonneg _) hA))

theorem add_err {x y a b E F : ℚ} (hx : |x - a| ≤ E) (hy : |y - b| ≤ F) : |(x + y) - (a + b)| ≤ E + F := by
  have e : (x + y) - (a + b) = (x - a) + (y - b) := by ring
  rw [e]
  exact le_trans (abs_add_le _ _) (add_le_add hx hy)

theorem abs_of_err {x a E A : ℚ} (hx : |x - a| ≤ E) (hA : |a| ≤ A) : |x| ≤ A + E := by
  have : |x| = |(x - a) + a| := by ring_nf
  rw [this]
  exact le_trans (abs_add_le _ _) (by linarith)

/-- The polynomial part of GST, before any reduction, in double arithmetic: `c` Julian centuries. -/
theorem gst_poly (c : ℚ) (hc : |c| ≤ 81) :
    |N.rnd (N.rnd (N.rnd (6697374558 / 1000000000) + N.rnd (N.rnd (2400051336 / 1000000) * N.rnd c)) +
        N.rnd (N.rnd (N.rnd (25862 / 1000000000) * N.rnd c) * N.rnd c)) -
      (6.697374558 + 2400.051336 * c + 0.000025862 * c ^ 2)| ≤ 1 / 10 ^ 10 := by
  have hT : |N.rnd c - c| ≤ 1 / 2 ^ 47 := near_step N (-46) (by omega) (by omega) hc (E := 0) (by simp) (by norm_num) (by norm_num)
  have bT : |N.rnd c| ≤ 82 := le_trans (abs_of_err hT hc) (by norm_num)
  have c0 : |N.rnd (6697374558 / 1000000000) - 6.697374558| ≤ 1 / 2 ^ 51 :=
    near_step N (-50) (by omega) (by omega) (B := 7) (E := 0) (by norm_num) (by norm_num) (by norm_num) (by norm_num)
  have c1 : |N.rnd (2400051336 / 1000000) - 2400.051336| ≤ 1 / 2 ^ 42 :=
    near_step N (-41) (by omega) (by omega) (B := 2401) (E := 0) (by norm_num) (by norm_num) (by norm_num) (by norm_num)
  have c2 : |N.rnd (25862 / 1000000000) - 0.000025862| ≤ 1 / 2 ^ 53 :=
    near_step N (-52) (by omega) (by omega) (B := 1) (E := 0) (by norm_num) (by norm_num) (by norm_num) (by norm_num)
  have p1 : |N.rnd (N.rnd (2400051336 / 1000000) * N.rnd c) - 2400.051336 * c| ≤ 6 / 10 ^ 11 :=
    near_step N (-35) (by omega) (by omega) (B := 194482) (by rw [abs_mul]; norm_num; linarith)
      (mul_err c1 hT bT (A := 2401) (by norm_num)) (by norm_num) (by norm_num)
  have b1 : |2400.051336 * c| ≤ 194405 := by rw [abs_mul]; norm_num; linarith
  have s1 : |N.rnd (N.rnd (6697374558 / 1000000000) + N.rnd (N.rnd (2400051336 / 1000000) * N.rnd c)) - (6.697374558 + 2400.051336 * c)| ≤ 8 / 10 ^ 11 :=
    near_step N (-35) (by omega) (by omega) (B := 194412) (le_trans (abs_add_le _ _) (by norm_num at b1 ⊢; linarith)) (add_err c0 p1) (by norm_num) (by norm_num)
  have q1 : |N.rnd (N.rnd (25862 / 1000000000) * N.rnd c) - 0.000025862 * c| ≤ 1 / 2 ^ 45 :=
    near_step N (-52) (by omega) (by omega) (B := 1) (by rw [abs_mul]; norm_num; linarith) (mul_err c2 hT bT (A := 1) (by norm_num)) (by norm_num) (by norm_num)
  have bq : |0.000025862 * c| ≤ 0.0021 := by rw [abs_mul]; norm_num; linarith
  have q2 : |N.rnd (N.rnd (N.rnd (25862 / 1000000000) * N.rnd c) * N.rnd c) - 0.000025862 * c * c| ≤ 1 / 2 ^ 38 :=
    near_step N (-52) (by omega) (by omega) (B := 1) (by
        rw [abs_mul]
        calc |0.000025862 * c| * |c| ≤ 0.0021 * 81 := mul_le_mul bq hc (abs_nonneg _) (by norm_num)
          _ ≤ 1 := by norm_num)
      (mul_err q1 hT bT (A := 1) (le_trans bq (by norm_num))) (by norm_num) (by norm_num)
  have bq2 : |0.000025862 * c * c| ≤ 1 := by
    rw [abs_mul]
    calc |0.000025862 * c| * |c| ≤ 0.0021 * 81 := mul_le_mul bq hc (abs_nonneg _) (by norm_num)
      _ ≤ 1 := by norm_num
  have fin := near_step N (-35) (by omega) (by omega) (B := 194413) (δ := 1 / 10 ^ 10)
    (le_trans (abs_add_le _ _) (add_le_add (le_trans (abs_add_le _ _) (add_le_add (by norm_num : |(6.697374558 : ℚ)| ≤ 7) b1)) bq2) |>.trans (by norm_num))
    (add_err s1 q2) (by norm_num) (by norm_num)
  rwa [show 0.000025862 * c * c = 0.000025862 * c ^ 2 by ring] at fin

/-- Hours of universal time in double arithmetic. -/
theorem ut_near (t : PTime) (ht : TimeOfDay t) :
    |N.rnd (N.rnd (N.rnd (N.rnd (t.seconds / 60) + t.minutes) / 60) + t.hours) - universalTime t| ≤ 1 / 2 ^ 48 ∧
      0 ≤ N.rnd (N.rnd (N.rnd (N.rnd (t.seconds / 60) + t.minutes) / 60) + t.hours) := by
  obtain ⟨h1, h2, h3⟩ := ht
  have s1 : (t.seconds : ℚ) ≤ 59 := by exact_mod_cast Nat.le_of_lt_succ h3
  have m1 : (t.minutes : ℚ) ≤ 59 := by exact_mod_cast Nat.le_of_lt_succ h2
  have k1 : (t.hours : ℚ) ≤ 23 := by exact_mod_cast Nat.le_of_lt_succ h1
  have s0 : (0 : ℚ) ≤ t.seconds := Nat.cast_nonneg _
  have m0 : (0 : ℚ) ≤ t.minutes := Nat.cast_nonneg _
  have k0 : (0 : ℚ) ≤ t.hours := Nat.cast_nonneg _
  have nn : ∀ x : ℚ, 0 ≤ x → 0 ≤ N.rnd x := fun x h => by
    have := near_mono N h
    rwa [near_zero] at this
  have a1 : |N.rnd ((t.seconds : ℚ) / 60) - t.seconds / 60| ≤ 1 / 2 ^ 53 :=
    near_step N (-52) (by omega) (by omega) (B := 1) (E := 0) (by rw [abs_of_nonneg (by linarith)]; linarith) (by simp) (by norm_num) (by norm_num)
  have a2 : |N.rnd (N.rnd ((t.seconds : ℚ) / 60) + t.minutes) - (t.seconds / 60 + t.minutes)| ≤ 1 / 2 ^ 47 :=
    near_step N (-47) (by omega) (by omega) (B := 60) (E := 1 / 2 ^ 53) (by rw [abs_of_nonneg (by linarith)]; linarith)
      (by rw [add_sub_add_right_eq_sub]; exact a1) (by norm_num) (by norm_num)
  have a3 : |N.rnd (N.rnd (N.rnd ((t.seconds : ℚ) / 60) + t.minutes) / 60) - (t.seconds / 60 + t.minutes) / 60| ≤ 1 / 2 ^ 51 :=
    near_step N (-52) (by omega) (by omega) (B := 1) (E := 1 / 2 ^ 47 / 60) (by rw [abs_of_nonneg (by linarith)]; linarith)
      (by rw [← sub_div, abs_div]; norm_num at a2 ⊢; linarith) (by norm_num) (by norm_num)
  refine ⟨?_, nn _ (add_nonneg (nn _ (div_nonneg (nn _ (add_nonneg (nn _ (by linarith)) m0)) (by norm_num))) k0)⟩
  have e : universalTime t = (t.seconds / 60 + t.minutes) / 60 + t.hours := by unfold universalTime; ring
  rw [e]
  exact near_step N (-48) (by omega) (by omega) (B := 24) (E := 1 / 2 ^ 51) (by rw [abs_of_nonneg (by linarith)]; linarith)
    (by rw [add_sub_add_right_eq_sub]; exact a3) (by norm_num) (by norm_num)

theorem tiny_le : (2 : ℚ) ^ (-1000 : ℤ) ≤ 1 / 1024 := by
  have := zpow_le_zpow_right₀ (by norm_num : (1 : ℚ) ≤ 2) (by norm_num : (-1000 : ℤ) ≤ -10)
  refine le_trans this (by norm_num)

/-- Greenwich sidereal time in double arithmetic, from a Julian date that ends in .5. -/
theorem gst_near (t : PTime) (ht : TimeOfDay t) (n : ℤ) (hj : julianDate N.rounding t = n + 1 / 2) (h1 : 1721000 ≤ n) (h2 : n ≤ 5390000) :
    IsDouble (gstValue N.rounding t) ∧ 0 ≤ gstValue N.rounding t ∧ gstValue N.rounding t < 24 ∧
      NearHour (gstValue N.rounding t) (siderealFormula ((n + 1 / 2 - 2451545) / 36525) (universalTime t)) (1 / 10 ^ 9) := by
  have h1' : (1721000 : ℚ) ≤ n := by exact_mod_cast h1
  have h2' : (n : ℚ) ≤ 5390000 := by exact_mod_cast h2
  have hS : N.rounding.sub (n + 1 / 2) 2451545 = n + 1 / 2 - 2451545 := by
    have := N.rounding.exact _ (isDouble_half (2 * n + 1 - 2 * 2451545) (by rw [abs_lt]; constructor <;> omega))
    unfold Rounding.sub
    convert this using 2 <;> push_cast <;> ring
  have hc : |((n : ℚ) + 1 / 2 - 2451545) / 36525| ≤ 81 := by
    rw [abs_le]
    constructor <;> linarith
  have poly := gst_poly N _ hc
  have ut := ut_near N t ht
  obtain ⟨x, hx⟩ : ∃ x, x = N.rnd (N.rnd (N.rnd (6697374558 / 1000000000) + N.rnd (N.rnd (2400051336 / 1000000) * N.rnd (((n : ℚ) + 1 / 2 - 2451545) / 36525))) +
        N.rnd (N.rnd (N.rnd (25862 / 1000000000) * N.rnd (((n : ℚ) + 1 / 2 - 2451545) / 36525)) * N.rnd (((n : ℚ) + 1 / 2 - 2451545) / 36525))) := ⟨_, rfl⟩
  obtain ⟨u, hu⟩ : ∃ u, u = N.rnd (N.rnd (N.rnd (N.rnd (t.seconds / 60) + t.minutes) / 60) + t.hours) := ⟨_, rfl⟩
  have hv : gstValue N.rounding t = reduce24 N.rounding (N.rnd (reduce24 N.rounding x + N.rnd (u * N.rnd (1002737909 / 1000000000)))) := by
    unfold gstValue
    simp only
    rw [hj, hS, hx, hu]
    rfl
  rw [← hx] at poly
  rw [← hu] at ut
  have dx : IsDouble x := hx ▸ N.isDouble _
  rw [hv]
  clear hv hu hx
  generalize hcc : ((n : ℚ) + 1 / 2 - 2451545) / 36525 = c at *
  have hp := abs_le.1 poly
  have hc' := abs_le.1 hc
  have hc2 : c ^ 2 ≤ 6561 := by nlinarith [hc'.1, hc'.2]
  have hsq : 0 ≤ c ^ 2 := sq_nonneg c
  have sgn : 0 ≤ x ∨ x ≤ -2 ^ (-1000 : ℤ) := by
    rcases (by omega : 2451443 ≤ n ∨ n ≤ 2451442) with h | h
    · left
      have h' : (2451443 : ℚ) ≤ n := by exact_mod_cast h
      have : -101.5 / 36525 ≤ c := by rw [← hcc]; apply div_le_div_of_nonneg_right _ (by norm_num); linarith
      norm_num at hp this ⊢
      linarith [hp.1, hsq]
    · right
      have h' : (n : ℚ) ≤ 2451442 := by exact_mod_cast h
      have hle : c ≤ -102.5 / 36525 := by rw [← hcc]; apply div_le_div_of_nonneg_right _ (by norm_num); linarith
      have : c ^ 2 ≤ -81 * c := by nlinarith [hc'.1]
      have := tiny_le
      generalize (2 : ℚ) ^ (-1000 : ℤ) = w at this ⊢
      norm_num at hp hle this ⊢
      linarith [hp.2]
  have bx : |x| < 2 ^ 40 := by
    rw [abs_lt]
    norm_num at hp ⊢
    constructor <;> linarith [hp.1, hp.2, hc'.1, hc'.2]
  obtain ⟨k1, r0, r24, rerr, _⟩ := reduce24_near N dx bx sgn
  generalize reduce24 N.rounding x = y at *
  have c3 : |N.rnd (1002737909 / 1000000000) - 1.002737909| ≤ 1 / 2 ^ 53 :=
    near_step N (-52) (by omega) (by omega) (B := 2) (E := 0) (by norm_num) (by norm_num) (by norm_num) (by norm_num)
  have c30 : 0 ≤ N.rnd (1002737909 / 1000000000) := by
    have := (abs_le.1 c3).1
    norm_num at this ⊢
    linarith
  have hU : |universalTime t| ≤ 24 := by
    obtain ⟨t1, t2, t3⟩ := ht
    have s1 : (t.seconds : ℚ) ≤ 59 := by exact_mod_cast Nat.le_of_lt_succ t3
    have m1 : (t.minutes : ℚ) ≤ 59 := by exact_mod_cast Nat.le_of_lt_succ t2
    have k1 : (t.hours : ℚ) ≤ 23 := by exact_mod_cast Nat.le_of_lt_succ t1
    have s0 : (0 : ℚ) ≤ t.seconds := Nat.cast_nonneg _
    have m0 : (0 : ℚ) ≤ t.minutes := Nat.cast_nonneg _
    have k0 : (0 : ℚ) ≤ t.hours := Nat.cast_nonneg _
    unfold universalTime
    rw [abs_of_nonneg (by linarith)]
    linarith
  have hA : |N.rnd (u * N.rnd (1002737909 / 1000000000)) - universalTime t * 1.002737909| ≤ 1 / 2 ^ 45 :=
    near_step N (-48) (by omega) (by omega) (B := 25) (by rw [abs_mul]; norm_num; linarith)
      (mul_err ut.1 c3 (X := 2) (le_trans (abs_of_err c3 (A := 1.5) (by norm_num)) (by norm_num)) hU) (by norm_num) (by norm_num)
  have hA0 : 0 ≤ N.rnd (u * N.rnd (1002737909 / 1000000000)) := by
    have := near_mono N (mul_nonneg ut.2 c30)
    rwa [near_zero] at this
  generalize N.rnd (u * N.rnd (1002737909 / 1000000000)) = A at *
  have hAb := abs_of_err hA (A := 25) (by rw [abs_mul]; norm_num; linarith)
  have hAb' := (abs_le.1 hAb).2
  have hsum : |N.rnd (y + A) - (y + A)| ≤ 1 / 2 ^ 47 :=
    near_step N (-47) (by omega) (by omega) (B := 50) (E := 0) (by rw [abs_of_nonneg (by linarith)]; norm_num at hAb' ⊢; linarith) (by simp) (by norm_num) (by norm_num)
  have hz0 : 0 ≤ N.rnd (y + A) := by
    have := near_mono N (add_nonneg r0 hA0)
    rwa [near_zero] at this
  have hzb : |N.rnd (y + A)| < 2 ^ 40 := by
    rw [abs_of_nonneg hz0]
    have := (abs_le.1 hsum).2
    norm_num at this hAb' ⊢
    linarith
  obtain ⟨k2, _, _, _, hex⟩ := reduce24_near N (N.isDouble _) hzb (.inl hz0)
  obtain ⟨hex, hlt⟩ := hex hz0
  refine ⟨?_, ‹_›, hlt, -k1 - k2, ?_⟩
  · unfold reduce24 Rounding.sub
    exact N.isDouble _
  · rw [hex]
    unfold siderealFormula
    have e1 := abs_le.1 hsum
    have e2 := abs_le.1 hA
    have e3 := abs_le.1 rerr
    push_cast
    rw [abs_le]
    norm_num at hp e1 e2 e3 ⊢
    constructor <;> linarith [hp.1, hp.2, e1.1, e1.2, e2.1, e2.2, e3.1, e3.2]

end Astro.Time
