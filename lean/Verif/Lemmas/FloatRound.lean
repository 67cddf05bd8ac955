import Mathlib.Tactic.Linarith
import Mathlib.Tactic.Ring
import Mathlib.Tactic.FieldSimp
import Mathlib.Tactic.Positivity
import Verif.Lemmas.Decimal
import Verif.Spec.Float

/-
Helper lemmas: rounding to the nearest floating point number.
-/

namespace Astro

open Spec FloatFmt

theorem two_zpow_pos (e : ℤ) : (0 : ℚ) < 2 ^ e := zpow_pos (by norm_num) e

theorem magnitude_iff {f : FloatFmt} {n : Nat} {x : ℚ} : Magnitude f n x ↔ n < f.infinity ∧ x = f.value n := by
  have hp : 0 < 2 ^ f.frac := Nat.two_pow_pos _
  have hp' : (0 : ℚ) < 2 ^ f.frac := by positivity
  have key : ∀ e m, m < 2 ^ f.frac → n = e * 2 ^ f.frac + m →
      ((e = 0 ∧ x = m / 2 ^ f.frac * 2 ^ (2 - 2 ^ (f.expo - 1) : ℤ) ∨
      0 < e ∧ x = (1 + m / 2 ^ f.frac) * 2 ^ ((e : ℤ) + 1 - 2 ^ (f.expo - 1))) ↔ x = f.value n) := by
    intro e m hm hn
    have hd : n / 2 ^ f.frac = e := by rw [hn, Nat.mul_comm, Nat.mul_add_div hp, Nat.div_eq_of_lt hm]; rfl
    have hmod : n % 2 ^ f.frac = m := by rw [hn, Nat.mul_comm, Nat.mul_add_mod, Nat.mod_eq_of_lt hm]
    have el : (2 : ℚ) ^ f.lowest = 2 ^ (2 - 2 ^ (f.expo - 1) : ℤ) / 2 ^ f.frac := by
      rw [lowest, zpow_sub₀ (by norm_num), zpow_natCast]
    unfold value units
    rw [hd, hmod, el]
    by_cases he : e = 0
    · rw [if_pos he]
      have : (n : ℚ) = m := by rw [hn, he]; simp
      rw [this]
      constructor
      · rintro (⟨-, h⟩ | ⟨h, -⟩)
        · rw [h]; ring
        · omega
      · intro h
        left
        exact ⟨he, by rw [h]; ring⟩
    · rw [if_neg he]
      have ez : (2 : ℚ) ^ ((e : ℤ) + 1 - 2 ^ (f.expo - 1)) = 2 ^ (e - 1) * 2 ^ (2 - 2 ^ (f.expo - 1) : ℤ) := by
        rw [← zpow_natCast, ← zpow_add₀ (by norm_num)]
        congr 1
        rw [Nat.cast_sub (by omega)]
        push_cast
        ring
      have : (1 + (m : ℚ) / 2 ^ f.frac) * 2 ^ ((e : ℤ) + 1 - 2 ^ (f.expo - 1)) =
          (((2 ^ f.frac + m) * 2 ^ (e - 1) : ℕ) : ℚ) * (2 ^ (2 - 2 ^ (f.expo - 1) : ℤ) / 2 ^ f.frac) := by
        rw [ez]
        push_cast
        field_simp
      rw [this]
      constructor
      · rintro (⟨h, -⟩ | ⟨-, h⟩)
        · exact absurd h he
        · exact h
      · intro h
        exact Or.inr ⟨by omega, h⟩
  constructor
  · rintro ⟨e, m, hm, he, hn, h⟩
    refine ⟨?_, (key e m hm hn).1 h⟩
    unfold infinity
    calc n < e * 2 ^ f.frac + 2 ^ f.frac := by omega
      _ = (e + 1) * 2 ^ f.frac := by ring
      _ ≤ _ := Nat.mul_le_mul_right _ (by omega)
  · rintro ⟨h1, h2⟩
    have hn : n = n / 2 ^ f.frac * 2 ^ f.frac + n % 2 ^ f.frac := (Nat.div_add_mod' n _).symm
    exact ⟨_, _, Nat.mod_lt _ hp, (Nat.div_lt_iff_lt_mul hp).2 h1, hn, (key _ _ (Nat.mod_lt _ hp) hn).2 h2⟩

/-- The numbers grow with their bits. -/
theorem units_lt_succ (f : FloatFmt) (n : Nat) : f.units n < f.units (n + 1) := by
  have hp : 0 < 2 ^ f.frac := Nat.two_pow_pos _
  unfold units
  have hm := Nat.mod_lt n hp
  by_cases hc : n % 2 ^ f.frac + 1 < 2 ^ f.frac
  · have e1 : (n + 1) / 2 ^ f.frac = n / 2 ^ f.frac := by
      conv_lhs => rw [← Nat.div_add_mod n (2 ^ f.frac), Nat.add_assoc, Nat.mul_add_div hp, Nat.div_eq_of_lt hc, Nat.add_zero]
    have e2 : (n + 1) % 2 ^ f.frac = n % 2 ^ f.frac + 1 := by
      conv_lhs => rw [← Nat.div_add_mod n (2 ^ f.frac), Nat.add_assoc, Nat.mul_add_mod, Nat.mod_eq_of_lt hc]
    rw [e1, e2]
    split
    · omega
    · exact Nat.mul_lt_mul_of_pos_right (by omega) (Nat.two_pow_pos _)
  · have hc' : n % 2 ^ f.frac + 1 = 2 ^ f.frac := by omega
    have e0 : n + 1 = 2 ^ f.frac * (n / 2 ^ f.frac + 1) := by
      conv_lhs => rw [← Nat.div_add_mod n (2 ^ f.frac)]
      rw [Nat.mul_add, Nat.add_assoc, hc', Nat.mul_one]
    have e1 : (n + 1) / 2 ^ f.frac = n / 2 ^ f.frac + 1 := by rw [e0, Nat.mul_div_cancel_left _ hp]
    have e2 : (n + 1) % 2 ^ f.frac = 0 := by rw [e0, Nat.mul_mod_right]
    rw [e1, e2, if_neg (Nat.succ_ne_zero (n / 2 ^ f.frac))]
    split
    · next h =>
      rw [h]
      have : n = n % 2 ^ f.frac := by
        conv_lhs => rw [← Nat.div_add_mod n (2 ^ f.frac), h, Nat.mul_zero, Nat.zero_add]
      simp
      omega
    · next h =>
      obtain ⟨j, hj⟩ : ∃ j, n / 2 ^ f.frac = j + 1 := Nat.exists_eq_succ_of_ne_zero h
      rw [hj]
      simp only [Nat.add_sub_cancel, Nat.add_zero]
      calc (2 ^ f.frac + n % 2 ^ f.frac) * 2 ^ j < (2 ^ f.frac + 2 ^ f.frac) * 2 ^ j := Nat.mul_lt_mul_of_pos_right (by omega) (Nat.two_pow_pos _)
        _ = 2 ^ f.frac * 2 ^ (j + 1) := by ring

theorem units_strictMono (f : FloatFmt) {m n : Nat} (h : m < n) : f.units m < f.units n := by
  induction n with
  | zero => omega
  | succ n ih =>
    rcases Nat.lt_succ_iff_lt_or_eq.1 h with h | rfl
    · exact (ih h).trans (units_lt_succ f n)
    · exact units_lt_succ f m

theorem value_strictMono (f : FloatFmt) {m n : Nat} (h : m < n) : f.value m < f.value n := by
  unfold value
  have := units_strictMono f h
  exact mul_lt_mul_of_pos_right (by exact_mod_cast this) (two_zpow_pos _)

theorem value_inj (f : FloatFmt) {m n : Nat} (h : f.value m = f.value n) : m = n := by
  rcases Nat.lt_trichotomy m n with h' | h' | h'
  · exact absurd h (value_strictMono f h').ne
  · exact h'
  · exact absurd h (value_strictMono f h').ne'

theorem value_nonneg (f : FloatFmt) (n : Nat) : 0 ≤ f.value n := mul_nonneg (by positivity) (two_zpow_pos _).le

/-- There is only one closest number. -/
theorem closest_unique {f : FloatFmt} {q : ℚ} {m n : Nat} (hm : Closest f q m) (hn : Closest f q n) : m = n := by
  wlog hlt : m < n generalizing m n with H
  · rcases Nat.lt_or_ge n m with h | h
    · exact (H hn hm h).symm
    · omega
  exfalso
  obtain ⟨x, hx, h1⟩ := hm
  obtain ⟨y, hy, h2⟩ := hn
  have a1 := h1 n y hy
  have a2 := h2 m x hx
  have he : |x - q| = |y - q| := le_antisymm a1.1 a2.1
  have p1 : 2 ∣ m := by rcases a1.2 he with h | h; omega; exact h
  have p2 : 2 ∣ n := by rcases a2.2 he.symm with h | h; omega; exact h
  obtain ⟨i1, rfl⟩ := magnitude_iff.1 hx
  obtain ⟨i2, rfl⟩ := magnitude_iff.1 hy
  have l1 := value_strictMono f (Nat.lt_succ_self m)
  have l2 : f.value (m + 1) < f.value n := value_strictMono f (by omega)
  have a3 := (h1 (m + 1) _ (magnitude_iff.2 ⟨by omega, rfl⟩)).1
  simp only [Nat.succ_eq_add_one] at l1
  rcases abs_cases (f.value m - q) with ⟨b, _⟩ | ⟨b, _⟩ <;> rcases abs_cases (f.value n - q) with ⟨c, _⟩ | ⟨c, _⟩ <;>
    rcases abs_cases (f.value (m + 1) - q) with ⟨d, _⟩ | ⟨d, _⟩ <;> linarith

/-- Multiples of `2^k`, and small numbers in between. -/
theorem units_grid (f : FloatFmt) (n k : Nat) : (2 ^ k ∣ f.units n) ∨ (f.units n < 2 ^ (f.frac + k) ∧ 0 < k) := by
  have hp : 0 < 2 ^ f.frac := Nat.two_pow_pos _
  unfold units
  split
  · next h =>
    rcases Nat.eq_zero_or_pos k with rfl | hk
    · left; simp
    · right
      have : n < 2 ^ f.frac := by
        rcases (Nat.div_eq_zero_iff).1 h with h | h
        · omega
        · exact h
      exact ⟨this.trans_le (Nat.pow_le_pow_right (by norm_num) (by omega)), hk⟩
  · next h =>
    rcases Nat.lt_or_ge (n / 2 ^ f.frac - 1) k with hk | hk
    · right
      refine ⟨?_, by omega⟩
      have hm := Nat.mod_lt n hp
      calc (2 ^ f.frac + n % 2 ^ f.frac) * 2 ^ (n / 2 ^ f.frac - 1) < (2 ^ f.frac + 2 ^ f.frac) * 2 ^ (n / 2 ^ f.frac - 1) :=
            Nat.mul_lt_mul_of_pos_right (by omega) (Nat.two_pow_pos _)
        _ = 2 ^ (f.frac + 1 + (n / 2 ^ f.frac - 1)) := by rw [Nat.pow_add, Nat.pow_succ]; ring
        _ ≤ _ := Nat.pow_le_pow_right (by norm_num) (by omega)
    · left
      exact Dvd.dvd.mul_left (pow_dvd_pow 2 hk) _

/-- Bits of `m * 2^k`. -/
theorem units_of (f : FloatFmt) {m k : Nat} (h1 : k = 0 ∨ 2 ^ f.frac ≤ m) (h2 : m ≤ 2 ^ (f.frac + 1)) : f.units (m + k * 2 ^ f.frac) = m * 2 ^ k := by
  have hp : 0 < 2 ^ f.frac := Nat.two_pow_pos _
  rw [Nat.pow_succ] at h2
  unfold units
  by_cases hs : m < 2 ^ f.frac
  · obtain rfl : k = 0 := by omega
    rw [Nat.zero_mul, Nat.add_zero, if_pos (Nat.div_eq_of_lt hs)]
    simp
  · by_cases ht : m < 2 ^ f.frac * 2
    · have e : m + k * 2 ^ f.frac = 2 ^ f.frac * (k + 1) + (m - 2 ^ f.frac) := by
        have : 2 ^ f.frac * (k + 1) = k * 2 ^ f.frac + 2 ^ f.frac := by ring
        omega
      have e1 : (m + k * 2 ^ f.frac) / 2 ^ f.frac = k + 1 := by
        rw [e, Nat.mul_add_div hp, Nat.div_eq_of_lt (by omega)]
      have e2 : (m + k * 2 ^ f.frac) % 2 ^ f.frac = m - 2 ^ f.frac := by
        rw [e, Nat.mul_add_mod, Nat.mod_eq_of_lt (by omega)]
      rw [e1, e2, if_neg (by omega), Nat.add_sub_cancel, Nat.add_sub_cancel' (by omega)]
    · have hm : m = 2 ^ f.frac * 2 := by omega
      have e : m + k * 2 ^ f.frac = 2 ^ f.frac * (k + 2) := by rw [hm]; ring
      rw [e, Nat.mul_div_cancel_left _ hp, Nat.mul_mod_right, if_neg (by omega), hm]
      simp only [Nat.add_zero, show k + 2 - 1 = k + 1 from rfl]
      rw [Nat.pow_succ]
      ring

/-- Where the scale of the rounding comes from. -/
theorem scale_bounds {p : Nat} {y : ℚ} (hy : 0 ≤ y) :
    let k := Nat.log 2 ⌊y⌋₊ - p
    y / 2 ^ k < 2 ^ (p + 1) ∧ (k = 0 ∨ (2 : ℚ) ^ p ≤ y / 2 ^ k) := by
  intro k
  have hk : (0 : ℚ) < 2 ^ k := by positivity
  have h1 : ⌊y⌋₊ < 2 ^ (Nat.log 2 ⌊y⌋₊ + 1) := Nat.lt_pow_succ_log_self (by norm_num) _
  constructor
  · rw [div_lt_iff₀ hk, ← pow_add]
    have h2 : ⌊y⌋₊ < 2 ^ (p + 1 + k) := h1.trans_le (Nat.pow_le_pow_right (by norm_num) (by omega))
    have h3 := (Nat.floor_lt hy).1 h2
    push_cast at h3
    exact h3
  · rcases Nat.eq_zero_or_pos k with h | h
    · exact Or.inl h
    · right
      rw [le_div_iff₀ hk, ← pow_add]
      have h0 : ⌊y⌋₊ ≠ 0 := by
        intro h0
        have : k = 0 := by simp [k, h0]
        omega
      have h2 : 2 ^ Nat.log 2 ⌊y⌋₊ ≤ ⌊y⌋₊ := Nat.pow_log_le_self 2 h0
      have e : p + k = Nat.log 2 ⌊y⌋₊ := by omega
      rw [e]
      have h3 := (Nat.le_floor_iff hy).1 h2
      push_cast at h3
      exact h3

theorem roundEven_cast {x : ℚ} (h : 0 ≤ x) : (((roundEven x).toNat : ℕ) : ℚ) = (roundEven x : ℚ) := by
  exact_mod_cast Int.toNat_of_nonneg (roundEven_nonneg h)

theorem roundEven_le {x : ℚ} {n : ℤ} (h : x ≤ n) : roundEven x ≤ n := by
  have h1 := roundEven_near x
  rw [abs_le] at h1
  by_contra hc
  rw [not_le] at hc
  have h2 : (n : ℚ) + 1 ≤ roundEven x := by exact_mod_cast hc
  linarith

theorem le_roundEven {x : ℚ} {n : ℤ} (h : (n : ℚ) ≤ x) : n ≤ roundEven x := by
  have h1 := roundEven_near x
  rw [abs_le] at h1
  by_contra hc
  rw [not_le] at hc
  have h2 : (roundEven x : ℚ) + 1 ≤ n := by exact_mod_cast hc
  linarith

/-- A tie goes to the even number. -/
theorem roundEven_tie {x : ℚ} (h : |(roundEven x : ℚ) - x| = 1 / 2) : 2 ∣ roundEven x := by
  have h1 := Int.floor_le x
  have h2 := Int.lt_floor_add_one x
  unfold roundEven at h ⊢
  split_ifs at h ⊢ with a b c
  · rw [abs_of_nonpos (by linarith)] at h
    linarith
  · push_cast at h
    rw [abs_of_nonneg (by linarith)] at h
    linarith
  · exact c
  · omega

/-- No integer is closer than the rounded one. -/
theorem roundEven_closest (x : ℚ) (j : ℤ) : |(roundEven x : ℚ) - x| ≤ |(j : ℚ) - x| := by
  have h1 := roundEven_near x
  rcases eq_or_ne j (roundEven x) with e | e
  · rw [e]
  · have h2 : (1 : ℚ) ≤ |(j : ℚ) - roundEven x| := by
      have : (1 : ℤ) ≤ |j - roundEven x| := Int.one_le_abs (sub_ne_zero.2 e)
      exact_mod_cast this
    have h3 := abs_sub_le (j : ℚ) x (roundEven x)
    rw [abs_sub_comm x] at h3
    linarith

/-- The bits computed by `nearest` before the test for overflow, and what is known about them. -/
theorem nearest_bits {f : FloatFmt} (hf : 1 ≤ f.frac) {q : ℚ} (hq : 0 ≤ q) :
    let y := q / 2 ^ f.lowest
    let k := Nat.log 2 ⌊y⌋₊ - f.frac
    let n := (roundEven (y / 2 ^ k)).toNat + k * 2 ^ f.frac
    ∀ m, |f.value n - q| ≤ |f.value m - q| ∧ (|f.value n - q| = |f.value m - q| → m = n ∨ 2 ∣ n) := by
  intro y k n m
  have hU : (0 : ℚ) < 2 ^ f.lowest := two_zpow_pos _
  have hy : 0 ≤ y := div_nonneg hq hU.le
  have hk : (0 : ℚ) < 2 ^ k := by positivity
  obtain ⟨s1, s2⟩ := scale_bounds (p := f.frac) hy
  change y / 2 ^ k < _ at s1
  change k = 0 ∨ _ ≤ y / 2 ^ k at s2
  generalize hz : y / 2 ^ k = z at s1 s2
  have hz0 : 0 ≤ z := by rw [← hz]; positivity
  have hyz : y = z * 2 ^ k := by rw [← hz]; field_simp
  have hn : n = (roundEven z).toNat + k * 2 ^ f.frac := by simp only [n, hz]
  generalize hM : (roundEven z).toNat = M at hn
  have hMz : (M : ℚ) = (roundEven z : ℚ) := by rw [← hM]; exact roundEven_cast hz0
  have hM1 : M ≤ 2 ^ (f.frac + 1) := by
    have : roundEven z ≤ ((2 ^ (f.frac + 1) : ℕ) : ℤ) := roundEven_le (by push_cast; linarith)
    generalize 2 ^ (f.frac + 1) = P at this ⊢
    omega
  have hM2 : k = 0 ∨ 2 ^ f.frac ≤ M := by
    rcases s2 with h | h
    · exact Or.inl h
    · right
      have : ((2 ^ f.frac : ℕ) : ℤ) ≤ roundEven z := le_roundEven (by push_cast; linarith)
      generalize 2 ^ f.frac = P at this ⊢
      omega
  have hu : f.units n = M * 2 ^ k := by rw [hn]; exact units_of f hM2 hM1
  have scale : ∀ a : Nat, |(a : ℚ) * 2 ^ f.lowest - q| = |(a : ℚ) - y| * 2 ^ f.lowest := by
    intro a
    have : (a : ℚ) * 2 ^ f.lowest - q = ((a : ℚ) - y) * 2 ^ f.lowest := by
      simp only [y]; field_simp
    rw [this, abs_mul, abs_of_pos hU]
  have hx : ∀ b : ℚ, |b * 2 ^ k - y| = |b - z| * 2 ^ k := by
    intro b
    rw [hyz, ← sub_mul, abs_mul, abs_of_pos hk]
  unfold value
  rw [scale, scale, hu]
  push_cast
  rw [hx]
  have hcl := roundEven_closest z
  have hnear := roundEven_near z
  rw [← hMz] at hcl hnear
  rcases units_grid f m k with ⟨j, hj⟩ | ⟨hlt, hk0⟩
  · rw [hj]
    push_cast
    rw [mul_comm (2 ^ k : ℚ) (j : ℚ), hx]
    have hc := hcl j
    constructor
    · have := mul_le_mul_of_nonneg_right (mul_le_mul_of_nonneg_right hc hk.le) hU.le
      push_cast at this
      exact this
    · intro he
      have he' : |(M : ℚ) - z| = |(j : ℚ) - z| := mul_right_cancel₀ hk.ne' (mul_right_cancel₀ hU.ne' he)
      by_cases hjm : j = M
      · left
        by_contra hne
        have e1 : f.units m = f.units n := by rw [hj, hu, hjm, Nat.mul_comm]
        rcases Nat.lt_or_gt_of_ne hne with h | h
        · have := units_strictMono f h; omega
        · have := units_strictMono f h; omega
      · right
        have ht : |(M : ℚ) - z| = 1 / 2 := by
          apply le_antisymm hnear
          have h2 : (1 : ℚ) ≤ |(j : ℚ) - M| := by
            have : (1 : ℤ) ≤ |(j : ℤ) - M| := Int.one_le_abs (sub_ne_zero.2 (by exact_mod_cast hjm))
            exact_mod_cast this
          have h3 := abs_sub_le (j : ℚ) z M
          rw [abs_sub_comm z] at h3
          linarith
        have hev : 2 ∣ roundEven z := roundEven_tie (by rw [← hMz]; exact ht)
        have hMe : 2 ∣ M := by omega
        rw [hn]
        exact Nat.dvd_add hMe (Dvd.dvd.mul_left (dvd_pow_self 2 (by omega)) _)
  · have h2 : (2 : ℚ) ^ f.frac ≤ z := by
      rcases s2 with h | h
      · omega
      · exact h
    have hlt' : (f.units m : ℚ) < 2 ^ f.frac * 2 ^ k := by
      rw [← pow_add]
      exact_mod_cast hlt
    have h4 := hcl (2 ^ f.frac)
    push_cast at h4
    have h5 : |(2 : ℚ) ^ f.frac - z| * 2 ^ k < |(f.units m : ℚ) - y| := by
      rw [← hx]
      have h6 : (2 : ℚ) ^ f.frac * 2 ^ k ≤ y := by
        rw [hyz]
        exact mul_le_mul_of_nonneg_right h2 hk.le
      rw [abs_of_nonpos (by linarith), abs_of_nonpos (by linarith)]
      linarith
    have h6 : |(M : ℚ) - z| * 2 ^ k < |(f.units m : ℚ) - y| := (mul_le_mul_of_nonneg_right h4 hk.le).trans_lt h5
    have h7 := mul_lt_mul_of_pos_right h6 hU
    exact ⟨h7.le, fun he => absurd he h7.ne⟩

/-- The test for overflow. -/
theorem nearest_overflow {f : FloatFmt} (hf' : 2 ≤ f.expo) {q : ℚ} (hq : 0 ≤ q) :
    let y := q / 2 ^ f.lowest
    let k := Nat.log 2 ⌊y⌋₊ - f.frac
    let n := (roundEven (y / 2 ^ k)).toNat + k * 2 ^ f.frac
    n < f.infinity ↔ q < limit f := by
  intro y k n
  have hU : (0 : ℚ) < 2 ^ f.lowest := two_zpow_pos _
  have hy : 0 ≤ y := div_nonneg hq hU.le
  have hk : (0 : ℚ) < 2 ^ k := by positivity
  obtain ⟨s1, s2⟩ := scale_bounds (p := f.frac) hy
  change y / 2 ^ k < _ at s1
  change k = 0 ∨ _ ≤ y / 2 ^ k at s2
  generalize hz : y / 2 ^ k = z at s1 s2
  have hz0 : 0 ≤ z := by rw [← hz]; positivity
  have hyz : y = z * 2 ^ k := by rw [← hz]; field_simp
  have hn : n = (roundEven z).toNat + k * 2 ^ f.frac := by simp only [n, hz]
  generalize hM : (roundEven z).toNat = M at hn
  have hr0 := roundEven_nonneg hz0
  have hMz : (M : ℤ) = roundEven z := by omega
  obtain ⟨E, hE⟩ : ∃ E, f.expo = E + 1 := ⟨f.expo - 1, by omega⟩
  have hE2 : 2 ≤ 2 ^ E := by
    calc 2 = 2 ^ 1 := rfl
      _ ≤ 2 ^ E := Nat.pow_le_pow_right (by norm_num) (by omega)
  obtain ⟨K, hK⟩ : ∃ K, 2 * 2 ^ E = K + 3 := ⟨2 * 2 ^ E - 3, by omega⟩
  have hinf : f.infinity = (K + 2) * 2 ^ f.frac := by
    unfold infinity
    rw [hE, Nat.pow_succ, Nat.mul_comm (2 ^ E) 2, hK]
    rfl
  have hlim : q < limit f ↔ y < (2 ^ (f.frac + 1) - 1 / 2) * 2 ^ K := by
    have e : limit f = ((2 ^ (f.frac + 1) - 1 / 2) * 2 ^ K) * 2 ^ f.lowest := by
      unfold limit lowest
      rw [hE, Nat.add_sub_cancel, mul_assoc, ← zpow_natCast (2 : ℚ) K, ← zpow_add₀ (by norm_num)]
      have e1 : (K : ℤ) + (2 - 2 ^ E - f.frac) = 2 ^ E - 1 - f.frac := by
        have : (2 : ℤ) * 2 ^ E = K + 3 := by exact_mod_cast hK
        linarith
      rw [e1, zpow_sub₀ (by norm_num : (2 : ℚ) ≠ 0) (2 ^ E - 1 : ℤ), zpow_natCast]
      have : (2 : ℚ) ^ f.frac ≠ 0 := by positivity
      rw [pow_succ]
      field_simp
    rw [e]
    simp only [y]
    rw [div_lt_iff₀ hU]
  rw [hlim, hinf, hn, hyz]
  have hpq : (0 : ℚ) < 2 ^ f.frac := by positivity
  have hpn : 0 < 2 ^ f.frac := Nat.two_pow_pos _
  have hp1 : (1 : ℚ) ≤ 2 ^ f.frac := one_le_pow₀ (by norm_num)
  rw [pow_succ] at s1 ⊢
  rcases Nat.lt_trichotomy k K with h | h | h
  · have hM1 : M ≤ 2 ^ f.frac * 2 := by
      have : roundEven z ≤ ((2 ^ f.frac * 2 : ℕ) : ℤ) := roundEven_le (by push_cast; linarith)
      omega
    have e1 : M + k * 2 ^ f.frac < (K + 2) * 2 ^ f.frac := by
      have : (k + 1) * 2 ^ f.frac ≤ K * 2 ^ f.frac := Nat.mul_le_mul_right _ h
      rw [Nat.add_mul] at this ⊢
      omega
    refine iff_of_true e1 ?_
    calc z * 2 ^ k < 2 ^ f.frac * 2 * 2 ^ k := mul_lt_mul_of_pos_right s1 hk
      _ = 2 ^ f.frac * 2 ^ (k + 1) := by ring
      _ ≤ 2 ^ f.frac * 2 ^ K := mul_le_mul_of_nonneg_left (pow_le_pow_right₀ (by norm_num) h) hpq.le
      _ ≤ _ := mul_le_mul_of_nonneg_right (by linarith) (by positivity)
  · rw [h] at hk ⊢
    rw [mul_lt_mul_iff_left₀ hk]
    constructor
    · intro hlt
      by_contra hc
      rw [not_lt] at hc
      have : roundEven z = ((2 ^ f.frac * 2 : ℕ) : ℤ) := by
        rw [roundEven_eq_even (by omega)]
        push_cast
        rw [abs_le]
        constructor <;> linarith
      rw [Nat.add_mul] at hlt
      omega
    · intro hlt
      have : roundEven z < ((2 ^ f.frac * 2 : ℕ) : ℤ) := by
        by_contra hc
        rw [not_lt] at hc
        have h1 := (abs_le.1 (roundEven_near z)).2
        have h2 : ((2 ^ f.frac * 2 : ℕ) : ℚ) ≤ roundEven z := by exact_mod_cast hc
        push_cast at h2
        linarith
      rw [Nat.add_mul]
      omega
  · have h2 : (2 : ℚ) ^ f.frac ≤ z := by
      rcases s2 with h' | h'
      · omega
      · exact h'
    have hM2 : 2 ^ f.frac ≤ M := by
      have : ((2 ^ f.frac : ℕ) : ℤ) ≤ roundEven z := le_roundEven (by push_cast; linarith)
      generalize 2 ^ f.frac = P at this ⊢
      omega
    refine iff_of_false ?_ ?_
    · rw [not_lt]
      have : (K + 1) * 2 ^ f.frac ≤ k * 2 ^ f.frac := Nat.mul_le_mul_right _ h
      rw [Nat.add_mul] at this ⊢
      omega
    · rw [not_lt]
      calc ((2 : ℚ) ^ f.frac * 2 - 1 / 2) * 2 ^ K ≤ 2 ^ f.frac * 2 * 2 ^ K := mul_le_mul_of_nonneg_right (by linarith) (by positivity)
        _ = 2 ^ f.frac * 2 ^ (K + 1) := by ring
        _ ≤ 2 ^ f.frac * 2 ^ k := mul_le_mul_of_nonneg_left (pow_le_pow_right₀ (by norm_num) h) hpq.le
        _ ≤ _ := mul_le_mul_of_nonneg_right h2 hk.le

/-- Rounding gives the closest number, below the limit. -/
theorem nearest_iff {f : FloatFmt} (hf : 1 ≤ f.frac) (hf' : 2 ≤ f.expo) {q : ℚ} (hq : 0 ≤ q) {n : Nat} :
    f.nearest q = some n ↔ q < limit f ∧ Closest f q n := by
  have h1 := nearest_bits hf hq
  have h2 := nearest_overflow hf' hq
  have e : f.nearest q = if (roundEven (q / 2 ^ f.lowest / 2 ^ (Nat.log 2 ⌊q / 2 ^ f.lowest⌋₊ - f.frac))).toNat +
      (Nat.log 2 ⌊q / 2 ^ f.lowest⌋₊ - f.frac) * 2 ^ f.frac < f.infinity then
      some ((roundEven (q / 2 ^ f.lowest / 2 ^ (Nat.log 2 ⌊q / 2 ^ f.lowest⌋₊ - f.frac))).toNat +
      (Nat.log 2 ⌊q / 2 ^ f.lowest⌋₊ - f.frac) * 2 ^ f.frac) else none := rfl
  dsimp only at h1 h2
  rw [e]
  generalize (roundEven (q / 2 ^ f.lowest / 2 ^ (Nat.log 2 ⌊q / 2 ^ f.lowest⌋₊ - f.frac))).toNat +
      (Nat.log 2 ⌊q / 2 ^ f.lowest⌋₊ - f.frac) * 2 ^ f.frac = N at h1 h2
  split
  · next h =>
    have hc : Closest f q N := by
      refine ⟨f.value N, magnitude_iff.2 ⟨h, rfl⟩, ?_⟩
      intro m y hy
      rw [(magnitude_iff.1 hy).2]
      exact h1 m
    rw [Option.some.injEq]
    constructor
    · rintro rfl
      exact ⟨h2.1 h, hc⟩
    · rintro ⟨-, h3⟩
      exact closest_unique hc h3
  · next h =>
    constructor
    · intro h'; cases h'
    · rintro ⟨h3, -⟩
      exact absurd (h2.2 h3) h

theorem nearest_some {f : FloatFmt} (hf : 1 ≤ f.frac) (hf' : 2 ≤ f.expo) {q : ℚ} (hq : 0 ≤ q) (h : q < limit f) :
    ∃ n, f.nearest q = some n ∧ Closest f q n := by
  have h2 := (nearest_overflow hf' hq).2 h
  refine ⟨_, if_pos h2, ?_⟩
  exact ((nearest_iff hf hf' hq).1 (if_pos h2)).2

end Astro
