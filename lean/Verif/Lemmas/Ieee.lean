import Verif.Model.Stats
import Verif.Lemmas.FloatTrip
import Verif.Lemmas.Double

/-
IEEE double arithmetic is a rounding to nearest in the sense of Spec/Double.
-/

namespace Astro

open Spec Time FloatFmt

set_option exponentiation.threshold 3000

attribute [local irreducible] FloatFmt.nearest

theorem lowest_double : FloatFmt.double.lowest = -1074 := by norm_num [lowest, double]

theorem value_double (n : Nat) : FloatFmt.double.value n = FloatFmt.double.units n * 2 ^ (-1074 : ℤ) := by
  unfold FloatFmt.value
  rw [lowest_double]

theorem isDouble_abs {x : ℚ} : IsDouble |x| ↔ IsDouble x := by
  rcases abs_choice x with h | h <;> rw [h]
  exact ⟨fun h => by simpa using isDouble_neg h, isDouble_neg⟩

/-- The numbers of the time model are those with finite bits. -/
theorem isDouble_iff {x : ℚ} : IsDouble x ↔ ∃ n, n < FloatFmt.double.infinity ∧ |x| = FloatFmt.double.value n := by
  constructor
  · rintro ⟨m, e, hm, h1, h2, rfl⟩
    obtain ⟨K, rfl⟩ : ∃ K : Nat, e = K - 1074 := ⟨(e + 1074).toNat, by omega⟩
    have hi : m.natAbs < 2 ^ (FloatFmt.double.frac + 1) := by
      have : ((m.natAbs : ℕ) : ℤ) < 2 ^ 53 := by rwa [Int.natCast_natAbs]
      exact_mod_cast this
    obtain ⟨n, hn⟩ := representable .double hi K
    have hv : |(m : ℚ) * 2 ^ ((K : ℤ) - 1074)| = FloatFmt.double.value n := by
      rw [value_double, hn, abs_mul, abs_of_pos (two_zpow_pos _), sub_eq_add_neg, zpow_add₀ (by norm_num), zpow_natCast]
      push_cast
      rw [Nat.cast_natAbs, Int.cast_abs]
      ring
    refine ⟨n, ?_, hv⟩
    by_contra hc
    have h3 : FloatFmt.double.value FloatFmt.double.infinity ≤ FloatFmt.double.value n := by
      rcases (not_lt.1 hc).lt_or_eq with h | h
      · exact (value_strictMono _ h).le
      · rw [h]
    rw [value_infinity_double, ← hv, abs_mul, abs_of_pos (two_zpow_pos _)] at h3
    have h4 : |(m : ℚ)| < 2 ^ 53 := by exact_mod_cast hm
    have h5 : (2 : ℚ) ^ ((K : ℤ) - 1074) ≤ 2 ^ (971 : ℤ) := zpow_le_zpow_right₀ (by norm_num) h2
    have h6 : |(m : ℚ)| * 2 ^ ((K : ℤ) - 1074) < 2 ^ 53 * 2 ^ (971 : ℤ) := by
      refine lt_of_lt_of_le (mul_lt_mul_of_pos_right h4 (two_zpow_pos _)) ?_
      exact mul_le_mul_of_nonneg_left h5 (by norm_num)
    have h7 : (2 : ℚ) ^ 53 * 2 ^ (971 : ℤ) = 2 ^ 1024 := by
      rw [show (971 : ℤ) = ((971 : ℕ) : ℤ) by norm_num, zpow_natCast, ← pow_add]
    linarith
  · rintro ⟨n, hn, hx⟩
    rw [← isDouble_abs, hx, value_double]
    unfold FloatFmt.units
    have hp : (2 : ℕ) ^ FloatFmt.double.frac = 4503599627370496 := by norm_num [double]
    have hinf : FloatFmt.double.infinity = 2047 * 4503599627370496 := by norm_num [infinity, double]
    rw [hp]
    rw [hinf] at hn
    split
    · next h =>
      refine ⟨n, -1074, ?_, by omega, by omega, by push_cast; rfl⟩
      rw [abs_of_nonneg (by positivity)]
      have : n < 4503599627370496 := by omega
      norm_num
      omega
    · next h =>
      have hk : n / 4503599627370496 < 2047 := by omega
      have hr : n % 4503599627370496 < 4503599627370496 := Nat.mod_lt _ (by norm_num)
      generalize n / 4503599627370496 = k at *
      generalize n % 4503599627370496 = r at *
      refine ⟨4503599627370496 + r, (k : ℤ) - 1 - 1074, ?_, by omega, by omega, ?_⟩
      · rw [abs_of_nonneg (by positivity)]
        norm_num
        omega
      · rw [sub_eq_add_neg _ (1074 : ℤ), zpow_add₀ (by norm_num)]
        rw [show (k : ℤ) - 1 = ((k - 1 : ℕ) : ℤ) by omega, zpow_natCast]
        push_cast
        ring

theorem largest_double : FloatFmt.double.value (FloatFmt.double.infinity - 1) = (2 ^ 53 - 1) * 2 ^ 971 := by
  norm_num [FloatFmt.value, FloatFmt.units, infinity, lowest, double]

theorem limit_double_eq : limit .double = (2 ^ 54 - 1) * 2 ^ 970 := by
  norm_num [limit, double]

theorem double_le_largest {x : ℚ} (h : IsDouble x) : |x| ≤ (2 ^ 53 - 1) * 2 ^ 971 := by
  obtain ⟨n, hn, e⟩ := isDouble_iff.1 h
  rw [e, ← largest_double]
  rcases Nat.lt_or_ge n (FloatFmt.double.infinity - 1) with h | h
  · exact (value_strictMono _ h).le
  · rw [show n = FloatFmt.double.infinity - 1 by omega]

theorem inf_pos : 0 < FloatFmt.double.infinity := by norm_num [infinity, double]

theorem cpp_facts : 1 ≤ FloatFmt.double.frac ∧ 2 ≤ FloatFmt.double.expo := by decide

theorem far {a b L M : ℚ} (h1 : b ≤ M) (h2 : M ≤ L) (h3 : L ≤ a) : |M - a| ≤ |b - a| := by
  rw [abs_of_nonpos (by linarith), abs_of_nonpos (by linarith)]
  linarith

/-- Bits of the largest number. -/
def biggest : Nat := FloatFmt.double.infinity - 1

/-- Round to nearest, ties to even; numbers too large go to the largest one. -/
def ieeeRnd (q : ℚ) : ℚ :=
  if q < 0 then -FloatFmt.double.value ((FloatFmt.double.nearest |q|).getD biggest) else FloatFmt.double.value ((FloatFmt.double.nearest |q|).getD biggest)

theorem signed_double (q : ℚ) {n : Nat} (hn : n < FloatFmt.double.infinity) :
    IsDouble (if q < 0 then -FloatFmt.double.value n else FloatFmt.double.value n) := by
  refine isDouble_iff.2 ⟨n, hn, ?_⟩
  split
  · rw [abs_neg, abs_of_nonneg (value_nonneg _ _)]
  · rw [abs_of_nonneg (value_nonneg _ _)]

theorem largest_lt : biggest < FloatFmt.double.infinity := by
  unfold biggest
  have h := inf_pos
  generalize FloatFmt.double.infinity = n at *
  omega

theorem ieeeRnd_some {q : ℚ} {n : Nat} (h : FloatFmt.double.nearest |q| = some n) :
    ieeeRnd q = if q < 0 then -FloatFmt.double.value n else FloatFmt.double.value n := by
  unfold ieeeRnd
  simp only [h, Option.getD_some]

theorem ieeeRnd_none {q : ℚ} (h : FloatFmt.double.nearest |q| = none) :
    ieeeRnd q = if q < 0 then -FloatFmt.double.value biggest else FloatFmt.double.value biggest := by
  unfold ieeeRnd
  simp only [h, Option.getD_none]

theorem nearest_lt {q : ℚ} {n : Nat} (h0 : 0 ≤ q) (h : FloatFmt.double.nearest q = some n) : n < FloatFmt.double.infinity := by
  obtain ⟨-, y, hy, -⟩ := (nearest_iff cpp_facts.1 cpp_facts.2 h0).1 h
  exact (magnitude_iff.1 hy).1

theorem ieeeRnd_isDouble (q : ℚ) : IsDouble (ieeeRnd q) := by
  cases h : FloatFmt.double.nearest |q| with
  | some n =>
    rw [ieeeRnd_some h]
    exact signed_double q (nearest_lt (abs_nonneg q) h)
  | none =>
    rw [ieeeRnd_none h]
    exact signed_double q largest_lt

theorem signed_dist (q : ℚ) (v : ℚ) : |(if q < 0 then -v else v) - q| = abs (v - |q|) := by
  split
  · next h =>
    rw [abs_of_neg h, ← abs_neg]
    congr 1
    ring
  · next h => rw [abs_of_nonneg (not_lt.1 h)]

theorem ieeeRnd_closest (q y : ℚ) (hy : IsDouble y) : |ieeeRnd q - q| ≤ |y - q| := by
  obtain ⟨m, hm, e⟩ := isDouble_iff.1 hy
  have hyq : abs (|y| - |q|) ≤ |y - q| := abs_abs_sub_abs_le_abs_sub y q
  refine le_trans ?_ hyq
  cases h : FloatFmt.double.nearest |q| with
  | some n =>
    rw [ieeeRnd_some h, signed_dist, e]
    exact nearest_le cpp_facts.1 (abs_nonneg q) h m
  | none =>
    rw [ieeeRnd_none h, signed_dist, biggest, largest_double]
    have hlim : limit .double ≤ |q| := by
      by_contra hc
      obtain ⟨n, hn, -⟩ := nearest_some cpp_facts.1 cpp_facts.2 (abs_nonneg q) (not_le.1 hc)
      rw [hn] at h
      cases h
    rw [limit_double_eq] at hlim
    exact far (double_le_largest hy) (by norm_num) hlim

def ieee : Nearest where
  rnd := ieeeRnd
  isDouble := ieeeRnd_isDouble
  closest := ieeeRnd_closest

theorem ieee_rnd : ieee.rnd = ieeeRnd := rfl

theorem round_some {q : ℚ} {n : Nat} (h : FloatFmt.double.nearest |q| = some n) :
    Dbl.round q = .num (if q < 0 then -FloatFmt.double.value n else FloatFmt.double.value n) := by
  rw [Dbl.round, h, Dbl.ofBits]
  simp only [decide_eq_true_eq]

theorem round_none {q : ℚ} (h : FloatFmt.double.nearest |q| = none) : Dbl.round q = .inf (decide (q < 0)) := by
  rw [Dbl.round, h, Dbl.ofBits]

theorem round_eq {q : ℚ} (h : |q| < limit .double) : Dbl.round q = .num (ieee.rnd q) := by
  obtain ⟨n, hn, -⟩ := nearest_some cpp_facts.1 cpp_facts.2 (abs_nonneg q) h
  rw [ieee_rnd, ieeeRnd_some hn, round_some hn]

/-- Far below the largest number there is no overflow. -/
theorem round_num {q : ℚ} (h : |q| ≤ 2 ^ 1023) : Dbl.round q = .num (ieee.rnd q) := by
  apply round_eq
  rw [limit_double_eq]
  exact h.trans_lt (by norm_num)

theorem round_exact {q : ℚ} (h : IsDouble q) : Dbl.round q = .num q := by
  have h1 := double_le_largest h
  rw [round_eq, near_exact ieee h]
  rw [limit_double_eq]
  exact h1.trans_lt (by norm_num)

theorem isDouble_int {i : ℤ} (h : |i| ≤ 2 ^ 53) : IsDouble (i : ℚ) := by
  have := isDouble_mul i 0 h (by norm_num) (by norm_num)
  simpa using this

theorem ofNat_num {n : Nat} (h : n ≤ 2 ^ 53) : Dbl.ofNat n = .num n := by
  unfold Dbl.ofNat
  have := isDouble_int (i := n) (by rw [abs_of_nonneg (by positivity)]; exact_mod_cast h)
  push_cast at this
  exact round_exact this

end Astro
