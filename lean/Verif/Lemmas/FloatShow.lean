import Mathlib.Tactic.NormNum
import Verif.Lemmas.FloatScan

/-
Helper lemmas: printing floating point numbers with six digits.
-/

namespace Astro

open Spec FloatFmt

theorem ten_zpow_pos (e : ℤ) : (0 : ℚ) < 10 ^ e := zpow_pos (by norm_num) e

theorem ten_zpow_succ (e : ℤ) : (10 : ℚ) ^ (e + 1) = 10 ^ e * 10 := zpow_add_one₀ (by norm_num) e

/-- The number `showG` prints. -/
def sixValue (v : ℚ) : ℚ := (sixDigits v).1 * 10 ^ ((sixDigits v).2 - 5)

theorem log_bounds {v : ℚ} (hv : 0 < v) : (10 : ℚ) ^ (Int.log 10 v) ≤ v ∧ v < 10 ^ (Int.log 10 v + 1) :=
  ⟨by exact_mod_cast Int.zpow_log_le_self (b := 10) (by norm_num) hv, by exact_mod_cast Int.lt_zpow_succ_log_self (b := 10) (by norm_num) v⟩

theorem log_unique {v : ℚ} {x : ℤ} (h1 : (10 : ℚ) ^ x ≤ v) (h2 : v < 10 ^ (x + 1)) : Int.log 10 v = x := by
  have hv : 0 < v := (ten_zpow_pos x).trans_le h1
  have a := (Int.zpow_le_iff_le_log (b := 10) (by norm_num) hv).1 (by exact_mod_cast h1)
  have b := (Int.lt_zpow_iff_log_lt (b := 10) (by norm_num) hv).1 (by exact_mod_cast h2)
  omega

/-- Mantissa in units of the sixth digit. -/
theorem mantissa_bounds {v : ℚ} (hv : 0 < v) : 100000 ≤ v / 10 ^ (Int.log 10 v - 5) ∧ v / 10 ^ (Int.log 10 v - 5) < 1000000 := by
  obtain ⟨h1, h2⟩ := log_bounds hv
  have e1 : (10 : ℚ) ^ (Int.log 10 v) = 100000 * 10 ^ (Int.log 10 v - 5) := by
    rw [show (100000 : ℚ) = 10 ^ (5 : ℤ) by norm_num, ← zpow_add₀ (by norm_num)]
    congr 1; ring
  have e2 : (10 : ℚ) ^ (Int.log 10 v + 1) = 1000000 * 10 ^ (Int.log 10 v - 5) := by
    rw [show (1000000 : ℚ) = 10 ^ (6 : ℤ) by norm_num, ← zpow_add₀ (by norm_num)]
    congr 1; ring
  rw [le_div_iff₀ (ten_zpow_pos _), div_lt_iff₀ (ten_zpow_pos _), ← e1, ← e2]
  exact ⟨h1, h2⟩

theorem sixValue_eq {v : ℚ} (hv : 0 < v) :
    sixValue v = (roundEven (v / 10 ^ (Int.log 10 v - 5))).toNat * 10 ^ (Int.log 10 v - 5) := by
  unfold sixValue sixDigits
  simp only
  split
  · next h =>
    rw [h]
    simp only
    rw [show Int.log 10 v + 1 - 5 = Int.log 10 v - 5 + 1 by ring, ten_zpow_succ]
    push_cast
    ring
  · rfl

theorem sixDigits_bounds {v : ℚ} (hv : 0 < v) : 100000 ≤ (sixDigits v).1 ∧ (sixDigits v).1 < 1000000 := by
  obtain ⟨h1, h2⟩ := mantissa_bounds hv
  have a := le_roundEven (n := 100000) (x := v / 10 ^ (Int.log 10 v - 5)) (by exact_mod_cast h1)
  have b := roundEven_le (n := 1000000) (x := v / 10 ^ (Int.log 10 v - 5)) (by exact_mod_cast h2.le)
  unfold sixDigits
  simp only
  split
  · exact ⟨le_refl _, by norm_num⟩
  · simp only
    omega

theorem sixDigits_exp {v : ℚ} : (sixDigits v).2 = Int.log 10 v ∨ (sixDigits v).2 = Int.log 10 v + 1 := by
  unfold sixDigits
  simp only
  split
  · exact Or.inr rfl
  · exact Or.inl rfl

theorem sixValue_sixDigits {v : ℚ} (hv : 0 < v) : SixDigits (sixValue v) := ⟨_, _, (sixDigits_bounds hv).2, rfl⟩

/-- Six digits are as close as possible. -/
theorem sixValue_closest {v : ℚ} (hv : 0 < v) : ClosestSix v (sixValue v) := by
  have hb := sixDigits_bounds hv
  refine ⟨(sixDigits v).1, (sixDigits v).2 - 5, rfl, Or.inr ⟨hb.1, hb.2⟩, ?_⟩
  rintro w' ⟨d', t', hd', rfl⟩
  obtain ⟨h1, h2⟩ := mantissa_bounds hv
  set X := Int.log 10 v with hX
  set U : ℚ := 10 ^ (X - 5) with hUdef
  have hU : 0 < U := ten_zpow_pos _
  set y := v / U with hy
  have hvy : v = y * U := by rw [hy]; field_simp
  have hy0 : 0 ≤ y := by linarith
  have key : ∀ z : ℚ, |z * U - v| = |z - y| * U := by
    intro z
    rw [hvy, ← sub_mul, abs_mul, abs_of_pos hU]
  have es : sixValue v = (roundEven y : ℚ) * U := by
    rw [sixValue_eq hv]
    rw [roundEven_cast hy0]
  rw [es, key]
  have tie : |(roundEven y : ℚ) - y| = 1 / 2 → 2 ∣ (sixDigits v).1 := by
    intro h
    have h2' := roundEven_tie h
    unfold sixDigits
    simp only
    split
    · norm_num
    · have h3 := le_roundEven (n := 0) (x := y) (by exact_mod_cast hy0)
      simp only
      show 2 ∣ (roundEven y).toNat
      omega
  by_cases ht : X - 5 ≤ t'
  · -- a multiple of the last place
    obtain ⟨k, hk⟩ := Int.eq_ofNat_of_zero_le (sub_nonneg.2 ht)
    have e : ((d' : ℚ) * 10 ^ t') = ((d' * 10 ^ k : ℕ) : ℤ) * U := by
      rw [show t' = (X - 5) + k by omega, zpow_add₀ (by norm_num), zpow_natCast]
      push_cast
      ring
    rw [e, key]
    generalize ((d' * 10 ^ k : ℕ) : ℤ) = j
    have hc := roundEven_closest y j
    refine ⟨mul_le_mul_of_nonneg_right hc hU.le, fun h => ?_⟩
    have h' := mul_right_cancel₀ hU.ne' h
    by_cases hj : j = roundEven y
    · left; rw [hj]
    · right
      apply tie
      have h1 : (1 : ℚ) ≤ |(j : ℚ) - roundEven y| := by
        have : (1 : ℤ) ≤ |j - roundEven y| := Int.one_le_abs (sub_ne_zero.2 hj)
        exact_mod_cast this
      have h2 := abs_sub_le (j : ℚ) y (roundEven y)
      rw [abs_sub_comm y, ← h'] at h2
      have h3 := roundEven_near y
      linarith
  · -- below the smallest number with this many places
    have hlt : (d' : ℚ) * 10 ^ t' < 100000 * U := by
      have a : (10 : ℚ) ^ t' ≤ 10 ^ (X - 5 - 1) := zpow_le_zpow_right₀ (by norm_num) (by omega)
      have b : (10 : ℚ) ^ (X - 5) = 10 ^ (X - 5 - 1) * 10 := by rw [← ten_zpow_succ]; congr 1; ring
      have c : (d' : ℚ) < 1000000 := by exact_mod_cast hd'
      have hp := ten_zpow_pos t'
      calc (d' : ℚ) * 10 ^ t' < 1000000 * 10 ^ t' := mul_lt_mul_of_pos_right c hp
        _ ≤ 1000000 * 10 ^ (X - 5 - 1) := mul_le_mul_of_nonneg_left a (by norm_num)
        _ = 100000 * U := by rw [hUdef, b]; ring
    have hc := roundEven_closest y 100000
    have e1 : |(100000 : ℚ) - y| = y - 100000 := by rw [abs_sub_comm, abs_of_nonneg (by linarith)]
    have e2 : |(d' : ℚ) * 10 ^ t' - v| = v - d' * 10 ^ t' := by
      rw [abs_sub_comm, abs_of_nonneg]
      have : 100000 * U ≤ v := by rw [hvy]; exact mul_le_mul_of_nonneg_right h1 hU.le
      linarith
    have lt : |(roundEven y : ℚ) - y| * U < |(d' : ℚ) * 10 ^ t' - v| := by
      rw [e2]
      calc |(roundEven y : ℚ) - y| * U ≤ (y - 100000) * U := by
            apply mul_le_mul_of_nonneg_right _ hU.le
            rw [← e1]; exact_mod_cast hc
        _ = v - 100000 * U := by rw [hvy]; ring
        _ < _ := by linarith
    exact ⟨lt.le, fun h => absurd h lt.ne⟩

theorem roundEven_zero : roundEven 0 = 0 := by simp [roundEven]

theorem sixValue_zero : sixValue 0 = 0 := by
  unfold sixValue sixDigits
  simp [roundEven_zero]

/-- The rounding error. -/
theorem sixValue_error {v : ℚ} (hv : 0 ≤ v) : |sixValue v - v| ≤ v / 200000 := by
  rcases hv.eq_or_lt with rfl | hv
  · rw [sixValue_zero]; simp
  obtain ⟨h1, h2⟩ := mantissa_bounds hv
  have hU := ten_zpow_pos (Int.log 10 v - 5)
  rw [sixValue_eq hv]
  generalize (10 : ℚ) ^ (Int.log 10 v - 5) = U at *
  have hy0 : 0 ≤ v / U := by linarith
  rw [roundEven_cast hy0]
  have hn := roundEven_near (v / U)
  have e : (roundEven (v / U) : ℚ) * U - v = (roundEven (v / U) - v / U) * U := by field_simp
  rw [e, abs_mul, abs_of_pos hU]
  have h3 : 100000 * U ≤ v := by rwa [le_div_iff₀ hU] at h1
  calc |(roundEven (v / U) : ℚ) - v / U| * U ≤ 1 / 2 * U := mul_le_mul_of_nonneg_right hn hU.le
    _ ≤ _ := by linarith

/-- Two different numbers of six digits differ in the sixth digit. -/
theorem six_spacing {w w' : ℚ} (hw : SixDigits w) (hw' : SixDigits w') (h : w ≠ w') : w / 1000000 ≤ |w' - w| := by
  obtain ⟨d, t, hd, rfl⟩ := hw
  obtain ⟨d', t', hd', rfl⟩ := hw'
  have hd1 : (d : ℚ) ≤ 999999 := by exact_mod_cast Nat.le_of_lt_succ hd
  have hd1' : (d' : ℚ) ≤ 999999 := by exact_mod_cast Nat.le_of_lt_succ hd'
  wlog hn : 100000 ≤ d ∨ d = 0 generalizing d t with H
  · -- scale up to six digits
    have hd0 : 0 < d := by omega
    obtain ⟨k, hk1, hk2⟩ : ∃ k, 100000 ≤ d * 10 ^ k ∧ d * 10 ^ k < 1000000 := by
      by_cases a : 10000 ≤ d
      · exact ⟨1, by omega, by omega⟩
      by_cases a : 1000 ≤ d
      · exact ⟨2, by omega, by omega⟩
      by_cases a : 100 ≤ d
      · exact ⟨3, by omega, by omega⟩
      by_cases a : 10 ≤ d
      · exact ⟨4, by omega, by omega⟩
      · exact ⟨5, by omega, by omega⟩
    have e : ((d * 10 ^ k : ℕ) : ℚ) * 10 ^ (t - k) = d * 10 ^ t := by
      rw [zpow_sub₀ (by norm_num), zpow_natCast]
      push_cast
      field_simp
    have := H (d * 10 ^ k) (t - k) hk2 (by rw [e]; exact h) (by exact_mod_cast Nat.le_of_lt_succ hk2) (Or.inl hk1)
    rwa [e] at this
  rcases hn with hn | rfl
  swap
  · rw [Nat.cast_zero, zero_mul, zero_div]
    exact abs_nonneg _
  have hT := ten_zpow_pos t
  have hn' : (100000 : ℚ) ≤ d := by exact_mod_cast hn
  by_cases ht : t ≤ t'
  · obtain ⟨k, hk⟩ := Int.eq_ofNat_of_zero_le (sub_nonneg.2 ht)
    have e : ((d' : ℚ) * 10 ^ t') = ((d' * 10 ^ k : ℕ) : ℤ) * 10 ^ t := by
      rw [show t' = t + k by omega, zpow_add₀ (by norm_num), zpow_natCast]
      push_cast
      ring
    rw [e] at h ⊢
    generalize ((d' * 10 ^ k : ℕ) : ℤ) = j at *
    have hj : j ≠ d := by
      rintro rfl
      exact h (by norm_num)
    have h1 : (1 : ℚ) ≤ |(j : ℚ) - d| := by
      have : (1 : ℤ) ≤ |j - d| := Int.one_le_abs (sub_ne_zero.2 hj)
      exact_mod_cast this
    rw [← sub_mul, abs_mul, abs_of_pos hT]
    have : (d : ℚ) * 10 ^ t ≤ 999999 * 10 ^ t := mul_le_mul_of_nonneg_right hd1 hT.le
    have h2 : 1 * (10 : ℚ) ^ t ≤ |(j : ℚ) - d| * 10 ^ t := mul_le_mul_of_nonneg_right h1 hT.le
    linarith
  · have a : (10 : ℚ) ^ t' ≤ 10 ^ (t - 1) := zpow_le_zpow_right₀ (by norm_num) (by omega)
    have b : (10 : ℚ) ^ t = 10 ^ (t - 1) * 10 := by rw [← ten_zpow_succ]; congr 1; ring
    have c : (d' : ℚ) * 10 ^ t' ≤ 999999 * 10 ^ (t - 1) :=
      mul_le_mul hd1' a (ten_zpow_pos _).le (by norm_num)
    rw [abs_sub_comm]
    refine le_trans ?_ (le_abs_self _)
    have hT' := ten_zpow_pos (t - 1)
    rw [b] at hT ⊢
    generalize (10 : ℚ) ^ (t - 1) = V at *
    generalize (d' : ℚ) * 10 ^ t' = w' at *
    have : 100000 * (V * 10) ≤ d * (V * 10) := mul_le_mul_of_nonneg_right hn' hT.le
    nlinarith

/-- A number close enough to six digits is rounded to them. -/
theorem sixValue_of_near {v w : ℚ} (hv : 0 < v) (hw : SixDigits w) (h : |v - w| < w / 2000000) : sixValue v = w := by
  by_contra hne
  obtain ⟨d, t, -, -, hc⟩ := sixValue_closest hv
  have h1 := (hc w hw).1
  have h2 := six_spacing hw (sixValue_sixDigits hv) (Ne.symm hne)
  have h3 := abs_sub_le (sixValue v) v w
  rw [abs_sub_comm w v] at h1
  linarith

theorem sixValue_exact {w : ℚ} (h0 : 0 ≤ w) (hw : SixDigits w) : sixValue w = w := by
  rcases h0.eq_or_lt with rfl | h
  · exact sixValue_zero
  · exact sixValue_of_near h hw (by rw [sub_self, abs_zero]; linarith)

/-! ### the text -/

theorem positional_tail (s : Str) (k : Nat) : positional (s ++ List.replicate k 48) = positional s * 10 ^ k := by
  have h : positional (List.replicate k 48) = 0 := by
    have := positional_zeros k []
    rwa [List.append_nil] at this
  rw [positional_append, List.length_replicate, h, Nat.add_zero]

/-- What `fraction` drops. -/
theorem fraction_spec (s : Str) : ∃ t k, s = t ++ List.replicate k 48 ∧ (∀ c, t.getLast? = some c → c ≠ 48) ∧
    fraction s = if t = [] then [] else 46 :: t := by
  refine ⟨(s.reverse.dropWhile (· == 48)).reverse, (s.reverse.takeWhile (· == 48)).length, ?_, ?_, ?_⟩
  · have h : s.reverse.takeWhile (· == 48) = List.replicate (s.reverse.takeWhile (· == 48)).length 48 :=
      List.eq_replicate_iff.2 ⟨rfl, fun c hc => by simpa using List.all_eq_true.1 (List.all_takeWhile (l := s.reverse) (p := (· == 48))) c hc⟩
    have h2 : s.reverse = s.reverse.takeWhile (· == 48) ++ s.reverse.dropWhile (· == 48) := List.takeWhile_append_dropWhile.symm
    calc s = s.reverse.reverse := (List.reverse_reverse s).symm
      _ = (s.reverse.takeWhile (· == 48) ++ s.reverse.dropWhile (· == 48)).reverse := by rw [← h2]
      _ = _ := by
        rw [List.reverse_append]
        congr 1
        conv_lhs => rw [h]
        rw [List.reverse_replicate]
  · intro c hc
    rw [List.getLast?_reverse] at hc
    have := List.head?_dropWhile_not (· == (48 : Byte)) s.reverse
    rw [hc] at this
    simpa using this
  · unfold fraction
    split
    · next h => rw [if_pos h]
    · next h => rw [if_neg (fun e => h e)]

theorem fraction_length (s : Str) : (fraction s).length ≤ s.length + 1 := by
  obtain ⟨t, k, h, -, h'⟩ := fraction_spec s
  rw [h', h]
  split
  · simp
  · simp

/-- Digits with a point and without trailing zeros. -/
theorem mantissa_numeral {a r x : Str} {e : ℤ} (ha : a ≠ []) (hd : ∀ c ∈ a ++ r, 48 ≤ c.toNat ∧ c.toNat ≤ 57) (hx : Exponent x e) :
    Numeral (a ++ fraction r ++ x) (positional (a ++ r) * 10 ^ (e - r.length)) := by
  obtain ⟨t, k, h, -, h'⟩ := fraction_spec r
  refine ⟨a, fraction r, t, x, e, rfl, ⟨by simp [ha], ?_⟩, ?_, hx, ?_⟩
  · intro c hc
    apply hd
    rw [h, ← List.append_assoc]
    exact List.mem_append_left _ hc
  · rw [h']
    split
    · next ht => exact Or.inl ⟨rfl, ht⟩
    · exact Or.inr rfl
  · rw [h, ← List.append_assoc, positional_tail, List.length_append, List.length_replicate]
    push_cast
    rw [show e - ((t.length : ℤ) + k) = (e - t.length) - k by ring, zpow_sub₀ (by norm_num), zpow_natCast]
    field_simp

theorem showNat_six {d : Nat} (h1 : 100000 ≤ d) (h2 : d < 1000000) : (showNat d).length = 6 := by
  have a := (showNat_length_le 6 d (by norm_num)).2 h2
  have b : ¬ (showNat d).length ≤ 5 := fun h => by
    have := (showNat_length_le 5 d (by norm_num)).1 h
    omega
  omega

theorem zeroPad_digits (w n : Nat) : AllDigits (zeroPad w n) ∧ positional (zeroPad w n) = n := by
  obtain ⟨⟨h1, h2⟩, h3, -⟩ := showNat_isNat n
  refine ⟨⟨?_, ?_⟩, ?_⟩
  · rw [zeroPad]
    simp [h1]
  · intro c hc
    rw [zeroPad] at hc
    rcases List.mem_append.1 hc with hc | hc
    · rw [(List.mem_replicate.1 hc).2]
      decide
    · exact h2 c hc
  · rw [zeroPad, positional_zeros, h3]

theorem zeroPad_length {n : Nat} (h : n < 1000) : (zeroPad 2 n).length ≤ 3 := by
  have a := (showNat_length_le 3 n (by norm_num)).2 h
  rw [zeroPad, List.length_append, List.length_replicate]
  omega

theorem exponent_text (x : ℤ) : Exponent (b!"e" ++ (if x < 0 then b!"-" else b!"+") ++ zeroPad 2 x.natAbs) x := by
  obtain ⟨h1, h2⟩ := zeroPad_digits 2 x.natAbs
  refine Or.inr ⟨101, if x < 0 then b!"-" else b!"+", zeroPad 2 x.natAbs, decide (x < 0), rfl, Or.inl rfl, ?_, h1, ?_⟩
  · by_cases h : x < 0
    · rw [if_pos h, decide_eq_true h]
      exact Or.inr (Or.inr ⟨rfl, rfl⟩)
    · rw [if_neg h, decide_eq_false h]
      exact Or.inr (Or.inl ⟨rfl, rfl⟩)
  · rw [h2]
    by_cases h : x < 0
    · rw [decide_eq_true h, if_pos rfl]
      omega
    · rw [decide_eq_false h]
      simp only [Bool.false_eq_true, if_false]
      omega

/-- The three layouts of `%g`. -/
theorem showG_cases {v : ℚ} (hv : 0 < v) : ∃ s x, showNat (sixDigits v).1 = s ∧ (sixDigits v).2 = x ∧ s.length = 6 ∧
    ((x < -4 ∨ 6 ≤ x) ∧ showG v = s.take 1 ++ fraction (s.drop 1) ++ (b!"e" ++ (if x < 0 then b!"-" else b!"+") ++ zeroPad 2 x.natAbs) ∨
      (-4 ≤ x ∧ x < 0) ∧ showG v = b!"0" ++ fraction (List.replicate (x.natAbs - 1) 48 ++ s) ∨
      (0 ≤ x ∧ x < 6) ∧ showG v = s.take (x.toNat + 1) ++ fraction (s.drop (x.toNat + 1))) := by
  have hb := sixDigits_bounds hv
  refine ⟨_, _, rfl, rfl, showNat_six hb.1 hb.2, ?_⟩
  unfold showG
  rw [if_neg hv.ne']
  simp only
  by_cases h1 : (sixDigits v).2 < -4 ∨ 6 ≤ (sixDigits v).2
  · left
    rw [if_pos h1]
    refine ⟨h1, ?_⟩
    simp only [List.append_assoc]
  · rw [if_neg h1]
    right
    by_cases h2 : (sixDigits v).2 < 0
    · left
      rw [if_pos h2]
      exact ⟨by omega, rfl⟩
    · right
      rw [if_neg h2]
      exact ⟨by omega, rfl⟩

/-- The text is a numeral for the six digits. -/
theorem showG_numeral {v : ℚ} (hv : 0 ≤ v) : Numeral (showG v) (sixValue v) := by
  rcases hv.eq_or_lt with rfl | hv
  · rw [sixValue_zero]
    refine ⟨b!"0", [], [], [], 0, ?_, ⟨by decide, by decide⟩, Or.inl ⟨rfl, rfl⟩, Or.inl ⟨rfl, rfl⟩, ?_⟩
    · rw [showG, if_pos rfl]; rfl
    · have : positional b!"0" = 0 := by decide
      rw [List.append_nil, this]; simp
  obtain ⟨s, x, hs, hx, hl, h⟩ := showG_cases hv
  obtain ⟨⟨hn1, hn2⟩, hn3, -⟩ := showNat_isNat (sixDigits v).1
  rw [hs] at hn1 hn2 hn3
  unfold sixValue
  rw [hx, ← hn3]
  rcases h with ⟨hc, h⟩ | ⟨hc, h⟩ | ⟨hc, h⟩ <;> rw [h]
  · have := mantissa_numeral (a := s.take 1) (r := s.drop 1) (e := x) (by intro e; have := congrArg List.length e; simp [hl] at this)
      (by rw [List.take_append_drop]; exact hn2) (exponent_text x)
    rw [List.take_append_drop, List.length_drop, hl] at this
    exact_mod_cast this
  · have := mantissa_numeral (a := b!"0") (r := List.replicate (x.natAbs - 1) 48 ++ s) (x := []) (e := 0) (by decide) (by
      intro c hc
      rcases List.mem_append.1 hc with hc | hc
      · rw [List.mem_singleton.1 hc]; decide
      rcases List.mem_append.1 hc with hc | hc
      · rw [(List.mem_replicate.1 hc).2]; decide
      · exact hn2 c hc) (Or.inl ⟨rfl, rfl⟩)
    rw [List.append_nil] at this
    have e1 : positional (b!"0" ++ (List.replicate (x.natAbs - 1) 48 ++ s)) = positional s := by
      have : b!"0" ++ (List.replicate (x.natAbs - 1) 48 ++ s) = List.replicate (x.natAbs - 1 + 1) 48 ++ s := by
        rw [List.replicate_succ]; rfl
      rw [this, positional_zeros]
    have e2 : (0 : ℤ) - ((List.replicate (x.natAbs - 1) (48 : Byte) ++ s).length : ℕ) = x - 5 := by
      rw [List.length_append, List.length_replicate, hl]
      omega
    rw [e1, e2] at this
    exact this
  · have := mantissa_numeral (a := s.take (x.toNat + 1)) (r := s.drop (x.toNat + 1)) (x := []) (e := 0)
      (by intro e; have := congrArg List.length e; simp [hl] at this)
      (by rw [List.take_append_drop]; exact hn2) (Or.inl ⟨rfl, rfl⟩)
    rw [List.take_append_drop, List.append_nil] at this
    have e2 : (0 : ℤ) - ((s.drop (x.toNat + 1)).length : ℕ) = x - 5 := by
      rw [List.length_drop, hl]
      omega
    rw [e2] at this
    exact this

theorem showG_length {v : ℚ} (hv : 0 ≤ v) (hx : (sixDigits v).2.natAbs < 1000) : (showG v).length ≤ 12 := by
  rcases hv.eq_or_lt with rfl | hv
  · rw [showG, if_pos rfl]; decide
  obtain ⟨s, x, hs, hx', hl, h⟩ := showG_cases hv
  rw [hx'] at hx
  rcases h with ⟨hc, h⟩ | ⟨hc, h⟩ | ⟨hc, h⟩ <;> rw [h]
  · have a := fraction_length (s.drop 1)
    have b := zeroPad_length hx
    have c : (if x < 0 then b!"-" else b!"+").length = 1 := by split <;> rfl
    have d : b!"e".length = 1 := rfl
    rw [List.length_drop, hl] at a
    rw [List.length_append, List.length_append, List.length_append, List.length_append, List.length_take, hl, c, d]
    omega
  · have a := fraction_length (List.replicate (x.natAbs - 1) 48 ++ s)
    have d : b!"0".length = 1 := rfl
    rw [List.length_append, List.length_replicate, hl] at a
    rw [List.length_append, d]
    omega
  · have a := fraction_length (s.drop (x.toNat + 1))
    rw [List.length_drop, hl] at a
    rw [List.length_append, List.length_take, hl]
    omega

end Astro
