import Verif.Spec.Calendar
import Mathlib.Tactic.Linarith
import Mathlib.Tactic.Push
import Mathlib.Tactic.IntervalCases

namespace Astro.Time

open Astro.Spec

/-! Small numbers are doubles -/

theorem isDouble_int (n : ℤ) (h : |n| < 2 ^ 53) : IsDouble n := ⟨n, 0, h, by omega, by omega, by simp⟩

theorem isDouble_half (n : ℤ) (h : |n| < 2 ^ 53) : IsDouble (n / 2) := ⟨n, -1, h, by omega, by omega, by rw [zpow_neg_one, div_eq_mul_inv]⟩

theorem isDouble_dyadic (n : ℤ) (h : |n| < 2 ^ 53) : IsDouble (n / 1048576) := by
  refine ⟨n, -20, h, by omega, by omega, ?_⟩
  rw [show (2 : ℚ) ^ (-20 : ℤ) = (1048576 : ℚ)⁻¹ by norm_num, div_eq_mul_inv]

theorem rnd_int (R : Rounding) (n : ℤ) (h : |n| < 2 ^ 53) : R.rnd n = n := R.exact _ (isDouble_int n h)

theorem rnd_nat (R : Rounding) (n : ℕ) (h : n < 2 ^ 53) : R.rnd n = n := by
  have := rnd_int R n (by rw [abs_of_nonneg (by omega)]; omega)
  simpa using this

/-- A number between two doubles stays between them. -/
theorem rnd_between (R : Rounding) {a x b : ℚ} (ha : IsDouble a) (hb : IsDouble b) (h1 : a ≤ x) (h2 : x ≤ b) : a ≤ R.rnd x ∧ R.rnd x ≤ b := by
  constructor
  · have := R.mono a x h1
    rwa [R.exact a ha] at this
  · have := R.mono x b h2
    rwa [R.exact b hb] at this

/-- Dividing by a small number and rounding down is integer division, whatever the rounding. -/
theorem floor_div (R : Rounding) (n k : ℕ) (hn : n < 2 ^ 30) (hk : 0 < k) (hk2 : k ≤ 1000) : ⌊R.div n k⌋ = ((n / k : ℕ) : ℤ) := by
  have hk' : (0 : ℚ) < k := by exact_mod_cast hk
  have hq : n / k ≤ n := Nat.div_le_self _ _
  have hm := Nat.div_add_mod n k
  have hl := Nat.mod_lt n hk
  generalize n / k = q at hq hm
  generalize n % k = r at hm hl
  have e : (n : ℚ) = k * q + r := by exact_mod_cast hm.symm
  have hr : (r : ℚ) + 1 ≤ k := by exact_mod_cast hl
  have hk1 : (k : ℚ) ≤ 1000 := by exact_mod_cast hk2
  have h := rnd_between R (a := ((q : ℤ) : ℚ)) (x := (n : ℚ) / k) (b := (((q : ℤ) * 1048576 + 1048575 : ℤ) : ℚ) / 1048576)
    (isDouble_int _ (by rw [abs_of_nonneg (by omega)]; omega))
    (isDouble_dyadic _ (by rw [abs_of_nonneg (by omega)]; omega))
    (by
      rw [le_div_iff₀ hk', e]
      push_cast
      have : (0 : ℚ) ≤ r := by positivity
      linarith)
    (by
      rw [div_le_div_iff₀ hk' (by norm_num), e]
      push_cast
      nlinarith)
  rw [Int.floor_eq_iff]
  unfold Rounding.div
  constructor
  · simpa using h.1
  · refine lt_of_le_of_lt h.2 ?_
    push_cast
    rw [div_lt_iff₀ (by norm_num)]
    linarith

theorem rnd_36525 (R : Rounding) : R.rnd (36525 / 100) = 36525 / 100 := by
  have := R.exact _ (isDouble_dyadic 382992384 (by decide))
  rwa [show (((382992384 : ℤ) : ℚ) / 1048576) = 36525 / 100 by norm_num] at this

theorem floor_year (R : Rounding) (n : ℕ) (hn : n < 2 ^ 20) : ⌊R.mul (R.rnd (36525 / 100)) n⌋ = ((1461 * n / 4 : ℕ) : ℤ) := by
  unfold Rounding.mul
  rw [rnd_36525]
  have h := R.exact _ (isDouble_dyadic (((1461 * n : ℕ) : ℤ) * 262144) (by rw [abs_of_nonneg (by omega)]; omega))
  have e : (36525 / 100 : ℚ) * n = ((((1461 * n : ℕ) : ℤ) * 262144 : ℤ) : ℚ) / 1048576 := by push_cast; ring
  rw [e, h]
  have := Rat.floor_intCast_div_natCast (((1461 * n : ℕ) : ℤ) * 262144) 1048576
  push_cast at this ⊢
  rw [this]
  omega

theorem floor_month (R : Rounding) (n : ℕ) (h4 : 4 ≤ n) (h15 : n ≤ 15) : ⌊R.mul (R.rnd (306001 / 10000)) n⌋ = ((306001 * n / 10000 : ℕ) : ℤ) := by
  have c := rnd_between R (a := ((32086530 : ℤ) : ℚ) / 1048576) (x := 306001 / 10000) (b := ((32086531 : ℤ) : ℚ) / 1048576)
    (isDouble_dyadic _ (by decide)) (isDouble_dyadic _ (by decide)) (by norm_num) (by norm_num)
  have hn : (0 : ℚ) ≤ n := by positivity
  have p := rnd_between R (a := ((32086530 * n : ℤ) : ℚ) / 1048576) (x := R.rnd (306001 / 10000) * n) (b := ((32086531 * n : ℤ) : ℚ) / 1048576)
    (isDouble_dyadic _ (by rw [abs_of_nonneg (by omega)]; omega)) (isDouble_dyadic _ (by rw [abs_of_nonneg (by omega)]; omega))
    (by have := mul_le_mul_of_nonneg_right c.1 hn; push_cast at this ⊢; linarith)
    (by have := mul_le_mul_of_nonneg_right c.2 hn; push_cast at this ⊢; linarith)
  rw [Int.floor_eq_iff]
  unfold Rounding.mul
  refine ⟨le_trans ?_ p.1, lt_of_le_of_lt p.2 ?_⟩
  · interval_cases n <;> norm_num
  · interval_cases n <;> norm_num

/-! The Julian date as an integer expression -/

/-- The Julian date in integers: `yp`, `mp` are the shifted year and month. -/
def jdInt (late : Bool) (yp mp d : ℕ) : ℤ :=
  (if late then 2 - (yp / 100 : ℕ) + (yp / 100 / 4 : ℕ) else 0 : ℤ) + (1461 * yp / 4 : ℕ) + (306001 * (mp + 1) / 10000 : ℕ) + d

theorem julianDate_eq (R : Rounding) (t : PTime) (h1 : 1 ≤ t.date.year) (h2 : t.date.year < 2 ^ 20) (hm1 : 1 ≤ t.date.month) (hm2 : t.date.month ≤ 12) (hd : t.date.day ≤ 31) :
    julianDate R t = jdInt (Date.before ⟨1582, 10, 1⟩ t.date) (if t.date.month ≤ 2 then t.date.year - 1 else t.date.year)
      (if t.date.month ≤ 2 then t.date.month + 12 else t.date.month) t.date.day + 3441989 / 2 := by
  obtain ⟨⟨y, m, d⟩, hh, mm, ss, fr⟩ := t
  simp only at *
  have hcond : ((m : ℚ) = 1 ∨ (m : ℚ) = 2) ↔ m ≤ 2 := by
    constructor
    · rintro (h | h)
      · have : m = 1 := by exact_mod_cast h
        omega
      · have : m = 2 := by exact_mod_cast h
        omega
    · intro h
      rcases (by omega : m = 1 ∨ m = 2) with h | h
      · left; exact_mod_cast h
      · right; exact_mod_cast h
  have hy : (if (m : ℚ) = 1 ∨ (m : ℚ) = 2 then R.sub (y : ℚ) 1 else (y : ℚ)) = ((if m ≤ 2 then y - 1 else y : ℕ) : ℚ) := by
    simp only [hcond]
    split
    · unfold Rounding.sub
      have : (y : ℚ) - 1 = ((y - 1 : ℕ) : ℚ) := by push_cast [Nat.cast_sub h1]; ring
      rw [this, rnd_nat R _ (by omega)]
    · rfl
  have hmp : (if (m : ℚ) = 1 ∨ (m : ℚ) = 2 then R.add (m : ℚ) 12 else (m : ℚ)) = ((if m ≤ 2 then m + 12 else m : ℕ) : ℚ) := by
    simp only [hcond]
    split
    · unfold Rounding.add
      have : (m : ℚ) + 12 = ((m + 12 : ℕ) : ℚ) := by push_cast; ring
      rw [this, rnd_nat R _ (by omega)]
    · rfl
  have byp : (if m ≤ 2 then y - 1 else y) < 2 ^ 20 := by split <;> omega
  have bmp : 3 ≤ (if m ≤ 2 then m + 12 else m) ∧ (if m ≤ 2 then m + 12 else m) ≤ 14 := by split <;> omega
  simp only [julianDate]
  rw [hy, hmp]
  generalize Date.before ⟨1582, 10, 1⟩ ⟨y, m, d⟩ = late
  generalize (if m ≤ 2 then y - 1 else y) = yp at *
  generalize (if m ≤ 2 then m + 12 else m) = mp at *
  have hA : ⌊R.div (yp : ℚ) 100⌋ = ((yp / 100 : ℕ) : ℤ) := floor_div R yp 100 (by omega) (by omega) (by omega)
  have hA4 : ⌊R.div ((yp / 100 : ℕ) : ℚ) 4⌋ = ((yp / 100 / 4 : ℕ) : ℤ) := floor_div R (yp / 100) 4 (by omega) (by omega) (by omega)
  have hneg : ¬ ((yp : ℚ) < 0) := by push Not; positivity
  have hD1 : R.add (mp : ℚ) 1 = ((mp + 1 : ℕ) : ℚ) := by
    unfold Rounding.add
    rw [show (mp : ℚ) + 1 = ((mp + 1 : ℕ) : ℚ) by push_cast; ring, rnd_nat R _ (by omega)]
  have hB : (if late = true then R.add (R.sub 2 ((⌊R.div (yp : ℚ) 100⌋ : ℤ) : ℚ)) ((⌊R.div ((⌊R.div (yp : ℚ) 100⌋ : ℤ) : ℚ) 4⌋ : ℤ) : ℚ) else 0)
      = ((if late then 2 - (yp / 100 : ℕ) + (yp / 100 / 4 : ℕ) else 0 : ℤ) : ℚ) := by
    split
    · rw [hA]
      have : (((yp / 100 : ℕ) : ℤ) : ℚ) = ((yp / 100 : ℕ) : ℚ) := by norm_cast
      rw [this, hA4]
      unfold Rounding.add Rounding.sub
      have e1 : (2 : ℚ) - ((yp / 100 : ℕ) : ℚ) = ((2 - (yp / 100 : ℕ) : ℤ) : ℚ) := by norm_cast
      rw [e1, rnd_int R _ (by rw [abs_lt]; omega)]
      have e2 : ((2 - (yp / 100 : ℕ) : ℤ) : ℚ) + (((yp / 100 / 4 : ℕ) : ℤ) : ℚ) = ((2 - (yp / 100 : ℕ) + (yp / 100 / 4 : ℕ) : ℤ) : ℚ) := by norm_cast
      rw [e2, rnd_int R _ (by rw [abs_lt]; omega)]
    · simp
  rw [hB, if_neg hneg, floor_year R yp (by omega), hD1, floor_month R (mp + 1) (by omega) (by omega)]
  unfold jdInt Rounding.add
  have bB : |(if late then 2 - (yp / 100 : ℕ) + (yp / 100 / 4 : ℕ) else 0 : ℤ)| < 2 ^ 30 := by
    split <;> rw [abs_lt] <;> omega
  generalize (if late then 2 - (yp / 100 : ℕ) + (yp / 100 / 4 : ℕ) else 0 : ℤ) = b at *
  rw [abs_lt] at bB
  have hK : R.rnd (17209945 / 10) = 3441989 / 2 := by
    have := R.exact _ (isDouble_half 3441989 (by decide))
    rw [show (17209945 / 10 : ℚ) = ((3441989 : ℤ) : ℚ) / 2 by norm_num, this]
    norm_num
  rw [hK]
  have hDb : 306001 * (mp + 1) / 10000 < 1000 := by omega
  have hCb : 1461 * yp / 4 < 2 ^ 30 := by omega
  generalize 306001 * (mp + 1) / 10000 = D at *
  generalize 1461 * yp / 4 = C at *
  rw [show (b : ℚ) + ((C : ℤ) : ℚ) = ((b + C : ℤ) : ℚ) by push_cast; ring, rnd_int R _ (by rw [abs_lt]; omega),
    show ((b + C : ℤ) : ℚ) + ((D : ℤ) : ℚ) = ((b + C + D : ℤ) : ℚ) by push_cast; ring, rnd_int R _ (by rw [abs_lt]; omega),
    show ((b + C + D : ℤ) : ℚ) + (d : ℚ) = ((b + C + D + d : ℤ) : ℚ) by push_cast; ring, rnd_int R _ (by rw [abs_lt]; omega),
    show ((b + C + D + d : ℤ) : ℚ) + 3441989 / 2 = ((2 * (b + C + D + d) + 3441989 : ℤ) : ℚ) / 2 by push_cast; ring,
    R.exact _ (isDouble_half _ (by rw [abs_lt]; omega))]

/-! The day numbers in closed form -/

theorem yearsBefore_gregorian (y : ℕ) : (yearsBefore gregorianLeap (y + 1) : ℤ) = 365 * y + y / 4 - y / 100 + y / 400 + 366 := by
  induction y with
  | zero => rfl
  | succ y ih =>
    rw [yearsBefore]
    push_cast
    rw [ih]
    unfold gregorianLeap
    split <;> simp_all <;> omega

theorem yearsBefore_julian (y : ℕ) : (yearsBefore julianLeap (y + 1) : ℤ) = 365 * y + y / 4 + 366 := by
  induction y with
  | zero => rfl
  | succ y ih =>
    rw [yearsBefore]
    push_cast
    rw [ih]
    unfold julianLeap
    split <;> simp_all <;> omega

theorem monthsBefore_eq (leap : ℕ → Bool) (y m : ℕ) (hm1 : 1 ≤ m) (hm2 : m ≤ 12) :
    ((306001 * ((if m ≤ 2 then m + 12 else m) + 1) / 10000 : ℕ) : ℤ) =
      monthsBefore leap y m + (if m ≤ 2 then 428 else 63 - (if leap y then 1 else 0)) := by
  interval_cases m <;> simp [monthsBefore, monthDays] <;> split <;> rfl

theorem quarter (n : ℕ) : 1461 * n / 4 = 365 * n + n / 4 := by
  rw [show 1461 * n = n + 4 * (365 * n) by ring, Nat.add_mul_div_left _ _ (by norm_num)]
  ring

theorem jdInt_gregorian (y m d : ℕ) (hy : 1 ≤ y) (hm1 : 1 ≤ m) (hm2 : m ≤ 12) :
    jdInt true (if m ≤ 2 then y - 1 else y) (if m ≤ 2 then m + 12 else m) d = dayNumber gregorianLeap ⟨y, m, d⟩ + 64 := by
  obtain ⟨y, rfl⟩ : ∃ z, y = z + 1 := ⟨y - 1, by omega⟩
  have e := yearsBefore_gregorian y
  have e1 := yearsBefore_gregorian (y + 1)
  rw [yearsBefore] at e1
  unfold dayNumber jdInt
  rw [monthsBefore_eq gregorianLeap (y + 1) m hm1 hm2, quarter, Nat.div_div_eq_div_mul]
  simp only [Nat.add_sub_cancel, if_true]
  by_cases h : m ≤ 2
  · simp only [if_pos h]
    push_cast at *
    linarith
  · simp only [if_neg h]
    push_cast at *
    by_cases hl : gregorianLeap (y + 1) = true <;> simp only [hl, if_true, if_false, Bool.false_eq_true] at * <;> linarith

theorem jdInt_julian (y m d : ℕ) (hy : 1 ≤ y) (hm1 : 1 ≤ m) (hm2 : m ≤ 12) :
    jdInt false (if m ≤ 2 then y - 1 else y) (if m ≤ 2 then m + 12 else m) d = dayNumber julianLeap ⟨y, m, d⟩ + 62 := by
  obtain ⟨y, rfl⟩ : ∃ z, y = z + 1 := ⟨y - 1, by omega⟩
  have e := yearsBefore_julian y
  have e1 := yearsBefore_julian (y + 1)
  rw [yearsBefore] at e1
  unfold dayNumber jdInt
  rw [monthsBefore_eq julianLeap (y + 1) m hm1 hm2, quarter]
  simp only [Nat.add_sub_cancel, Bool.false_eq_true, if_false]
  by_cases h : m ≤ 2
  · simp only [if_pos h]
    push_cast at *
    linarith
  · simp only [if_neg h]
    push_cast at *
    split <;> simp_all <;> linarith

end Astro.Time
