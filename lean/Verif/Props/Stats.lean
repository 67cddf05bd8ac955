import Verif.Lemmas.StatsInt

/-
C100 to C103: the statistics of an image in double arithmetic.
-/

set_option exponentiation.threshold 3000

namespace Astro

open Spec Time FloatFmt

attribute [local irreducible] FloatFmt.nearest FloatFmt.value Dbl.round Nat.sqrt

variable {b : Bitpix}

/-! ### C103: the largest and the smallest pixel -/

/-- **C103.** max() of an image whose first pixel is not a NaN is the first of its largest pixels; NaNs are passed over.  Without pixels it is
undefined, and a NaN in the first place wins. -/
theorem C103_max (img : Image b) :
    (img.data = [] → img.max = .error .ub) ∧
    (∀ x t, img.data = x :: t → PixelNaN b x → img.max = .ok x) ∧
    ∀ x t, img.data = x :: t → ¬ PixelNaN b x → ∀ m, img.max = .ok m ↔ FirstLargest (PixelLess b) (PixelNaN b) img.data m := by
  refine ⟨fun h => by simp [Image.max, h], fun x t h hn => ?_, fun x t h hn m => ?_⟩
  · rw [pixelNaN_iff] at hn
    simp only [Image.max, h]
    exact congrArg Except.ok ((up b).fold_bad x (fun h => h hn) t)
  · have hf := (up b).fold_first x (fun h => hn (pixelNaN_iff.2 h)) t
    have e : FirstLargest (PixelLess b) (PixelNaN b) img.data m ↔ (up b).First (x :: t) m := by
      unfold FirstLargest Order.First
      simp only [h, pixelNaN_iff, pixelLess_iff]
      simp only [up, not_not]
    rw [e]
    simp only [Image.max, h]
    constructor
    · intro he
      rw [← Except.ok.inj he]
      exact hf
    · intro hm
      rw [(up b).first_unique hm hf]
      rfl

/-- **C103.** The same for min(). -/
theorem C103_min (img : Image b) :
    (img.data = [] → img.min = .error .ub) ∧
    (∀ x t, img.data = x :: t → PixelNaN b x → img.min = .ok x) ∧
    ∀ x t, img.data = x :: t → ¬ PixelNaN b x → ∀ m, img.min = .ok m ↔ FirstLargest (fun p q => PixelLess b q p) (PixelNaN b) img.data m := by
  refine ⟨fun h => by simp [Image.min, h], fun x t h hn => ?_, fun x t h hn m => ?_⟩
  · rw [pixelNaN_iff] at hn
    simp only [Image.min, h]
    exact congrArg Except.ok ((down b).fold_bad x (fun h => h hn) t)
  · have hf := (down b).fold_first x (fun h => hn (pixelNaN_iff.2 h)) t
    have e : FirstLargest (fun p q => PixelLess b q p) (PixelNaN b) img.data m ↔ (down b).First (x :: t) m := by
      unfold FirstLargest Order.First
      simp only [h, pixelNaN_iff, pixelLess_iff]
      simp only [down, not_not]
    rw [e]
    simp only [Image.min, h]
    constructor
    · intro he
      rw [← Except.ok.inj he]
      exact hf
    · intro hm
      rw [(down b).first_unique hm hf]
      rfl

/-- 1.5, NaN, -2, 1.5 as `float`s: the largest is the first 1.5 (the NaN has no say), but with the NaN in front it is the NaN. -/
example : (Image.max (b := .F32) ⟨[0x3FC00000, 0x7FC00000, 0xC0000000, 0x3FC00000], none, none⟩ = .ok 0x3FC00000) ∧
    (Image.max (b := .F32) ⟨[0x7FC00000, 0x3FC00000, 0xC0000000], none, none⟩ = .ok 0x7FC00000) := by
  constructor <;> decide +kernel

/-! ### C102: NaN and infinity -/

/-- **C102.** One NaN among the pixels makes the mean, and with it the standard deviation, NaN. -/
theorem C102_nan (img : Image b) (h : ∃ p ∈ img.data, PixelNaN b p) : img.mean = .nan ∧ img.stdDev = .nan := by
  obtain ⟨p, hp, hn⟩ := h
  rw [pixelNaN_iff] at hn
  have hne : img.data ≠ [] := List.ne_nil_of_mem hp
  have hm : img.mean = .nan := by
    rw [image_mean_eq img hne, fold_mem_nan, nan_div]
    exact List.mem_map.2 ⟨p, hp, hn⟩
  refine ⟨hm, ?_⟩
  have hv : img.variance = .nan := by
    rw [image_variance_eq img hne, fold_mem_nan, nan_div]
    refine List.mem_map.2 ⟨p, hp, ?_⟩
    rw [hn]
    rfl
  unfold Image.stdDev
  rw [if_neg (by simpa using hne), hv]
  rfl

/-- 1.5 and NaN. -/
example : Image.mean (b := .F32) ⟨[0x3FC00000, 0x7FC00000], none, none⟩ = .nan :=
  (C102_nan _ ⟨0x7FC00000, by decide, by rw [pixelNaN_iff]; decide +kernel⟩).1

/-- **C102.** An infinite pixel makes the mean that infinity or NaN, and the standard deviation NaN. -/
theorem C102_infinite (img : Image b) (hsz : img.data.length < 2 ^ 64) (neg : Bool) (h : ∃ p ∈ img.data, PixelInfinite b neg p) :
    (img.mean = .inf neg ∨ img.mean = .nan) ∧ ((∃ p ∈ img.data, PixelInfinite b (!neg) p) → img.mean = .nan) ∧ img.stdDev = .nan := by
  obtain ⟨p, hp, hn⟩ := h
  rw [pixelInfinite_iff] at hn
  have hne : img.data ≠ [] := List.ne_nil_of_mem hp
  have hpos : 0 < img.data.length := List.length_pos_iff.2 hne
  obtain ⟨y, hy, hy1⟩ := ofNat_pos hpos hsz
  have hdiv : ∀ neg, (Dbl.inf neg).div (.num y) = .inf neg := by
    intro neg
    have : ¬ y < 0 := by linarith
    show Dbl.inf (neg != decide (y < 0)) = _
    simp [this]
  have mean_of : ∀ neg, .inf neg ∈ img.data.map b.number → img.mean = .inf neg ∨ img.mean = .nan := by
    intro neg h
    rw [image_mean_eq img hne]
    rcases fold_mem_inf h (.num 0) with h | h <;> rw [h]
    · rw [hy, hdiv]
      exact .inl rfl
    · exact .inr rfl
  have hm := mean_of neg (List.mem_map.2 ⟨p, hp, hn⟩)
  refine ⟨hm, ?_, ?_⟩
  · rintro ⟨q, hq, hi⟩
    rw [pixelInfinite_iff] at hi
    rcases hm with h1 | h1
    · rcases mean_of (!neg) (List.mem_map.2 ⟨q, hq, hi⟩) with h2 | h2
      · rw [h1] at h2
        cases neg <;> simp at h2
      · exact h2
    · exact h1
  · have hv : img.variance = .nan := by
      rw [image_variance_eq img hne, fold_mem_nan, nan_div]
      refine List.mem_map.2 ⟨p, hp, ?_⟩
      rw [hn]
      rcases hm with h1 | h1 <;> rw [h1]
      · cases neg <;> rfl
      · rfl
    unfold Image.stdDev
    rw [if_neg (by simpa using hne), hv]
    rfl

/-- 1.5 and both infinities. -/
example : Image.mean (b := .F32) ⟨[0x3FC00000, 0x7F800000, 0xFF800000], none, none⟩ = .nan :=
  (C102_infinite _ (by decide) false ⟨0x7F800000, by decide, by rw [pixelInfinite_iff]; decide +kernel⟩).2.1
    ⟨0xFF800000, by decide, by rw [pixelInfinite_iff]; decide +kernel⟩

/-- **C102.** When all pixels are numbers the mean is not NaN, and neither is the standard deviation of two or more: what the root is taken of is
never negative. -/
theorem C102_finite (img : Image b) (l : List ℚ) (h : Values img l) (hne : l ≠ []) (hsz : l.length < 2 ^ 64) :
    img.mean ≠ .nan ∧ (2 ≤ l.length → (∃ r, img.stdDev = .num r ∧ 0 ≤ r) ∨ img.stdDev = .inf false) := by
  have hpos : 0 < l.length := List.length_pos_iff.2 hne
  obtain ⟨y, hy, hy1⟩ := ofNat_pos hpos hsz
  have hm : img.mean ≠ .nan := by
    rw [values_mean h hne, hy]
    exact div_ne_nan (fold_finite l _ (fun h => by cases h)) hy1
  refine ⟨hm, fun h2 => ?_⟩
  obtain ⟨z, hz, hz1⟩ := ofNat_pos (n := l.length - 1) (by omega) (by omega)
  have hv : img.variance.NonNeg := by
    rw [values_variance h hne, hz]
    refine div_nonneg' (fold_nonneg _ _ (le_refl (0 : ℚ)) ?_) hz1
    intro d hd
    obtain ⟨x, -, rfl⟩ := List.mem_map.1 hd
    apply square_nonneg
    cases hmm : img.mean with
    | num m => rw [sub_num]; exact round_ne_nan _
    | inf neg => exact fun h => by cases h
    | nan => exact absurd hmm hm
  have hd : ∀ x, img.variance = .num x → IsDouble x := by
    intro x hx
    rw [values_variance h hne, hz] at hx
    cases hf : (l.map fun x => (Dbl.sub (.num x) img.mean).mul (Dbl.sub (.num x) img.mean)).foldl Dbl.add (.num 0) with
    | num s =>
      rw [hf, div_num (by linarith)] at hx
      rcases round_cases (s / z) with ⟨w, hw, rfl⟩ | hw
      · rw [hw] at hx
        rw [← Dbl.num.inj hx]
        exact ieee.isDouble _
      · rw [hw] at hx
        cases hx
    | inf neg => rw [hf] at hx; cases hx
    | nan => rw [hf] at hx; cases hx
  have hs : img.stdDev = img.variance.sqrt := by
    unfold Image.stdDev
    rw [if_neg (by rw [values_length h]; omega)]
  rw [hs]
  cases hvv : img.variance with
  | num x =>
    rw [hvv] at hv
    obtain ⟨r, hr, -, hr0, -⟩ := sqrt_closest hv (hd x hvv)
    exact .inl ⟨r, hr, hr0⟩
  | inf neg =>
    rw [hvv] at hv
    obtain rfl : neg = false := hv
    exact .inr rfl
  | nan => rw [hvv] at hv; exact absurd hv id

/-- **C102.** The standard deviation of a single pixel that is a number is NaN (0 divided by 0); the mean is the pixel. -/
theorem C102_one (img : Image b) (x : ℚ) (h : Values img [x]) : img.mean = .num x ∧ img.stdDev = .nan := by
  have hd := values_double h x (by simp)
  have h0 : IsDouble 0 := by simpa using isDouble_int (i := 0) (by norm_num)
  have hm : img.mean = .num x := by
    rw [values_mean h (by simp), List.foldl_cons, List.foldl_nil, add_num, zero_add, round_exact hd, ofNat_num (by norm_num), List.length_singleton,
      Nat.cast_one, div_num (by norm_num), div_one, round_exact hd]
  refine ⟨hm, ?_⟩
  have hv : img.variance = .nan := by
    rw [values_variance h (by simp), hm]
    simp only [List.map_cons, List.map_nil, List.foldl_cons, List.foldl_nil, List.length_singleton, sub_num, sub_self, round_exact h0, mul_num,
      mul_zero, add_num, add_zero]
    rw [ofNat_num (by norm_num)]
    simp [Dbl.div]
  unfold Image.stdDev
  rw [if_neg (by rw [values_length h]; simp), hv]
  rfl

/-- A single pixel of value 7: no standard deviation. -/
example : Image.mean (b := .B16) ⟨[7], none, none⟩ = .num 7 ∧ Image.stdDev (b := .B16) ⟨[7], none, none⟩ = .nan := by
  refine C102_one _ 7 ?_
  unfold Values
  simp only [List.forall₂_cons, pixelValue_iff]
  exact ⟨by decide +kernel, .nil⟩

/-- **C102.** The mean and the standard deviation of an image without pixels are 0. -/
theorem C102_empty (img : Image b) (h : img.data = []) : img.mean = .num 0 ∧ img.stdDev = .num 0 := by
  simp [Image.mean, Image.stdDev, h]

/-- **C102.** An infinite pixel may also give NaN without the opposite one, when the sum of the others overflows; and pixels that are numbers may have
an infinite mean (twice the largest number) or an infinite standard deviation (2^600 and -2^600), or one of zero (2^-600 and -2^-600). -/
theorem C102_overflow :
    Image.mean (b := .F64) ⟨[0x7FE1CCF385EBC8A0, 0x7FE1CCF385EBC8A0, 0xFFF0000000000000], none, none⟩ = .nan ∧
    Image.mean (b := .F64) ⟨[0x7FEFFFFFFFFFFFFF, 0x7FEFFFFFFFFFFFFF], none, none⟩ = .inf false ∧
    Image.stdDev (b := .F64) ⟨[0x6570000000000000, 0xE570000000000000], none, none⟩ = .inf false ∧
    Image.stdDev (b := .F64) ⟨[0x1A70000000000000, 0x9A70000000000000], none, none⟩ = .num 0 := by
  refine ⟨?_, ?_, ?_, ?_⟩ <;> decide +kernel

/-- Those pixels are what the theorem says. -/
example : PixelValue .F64 0x6570000000000000 (2 ^ 600) ∧ PixelValue .F64 0x9A70000000000000 (-2 ^ (-600 : ℤ)) ∧ PixelInfinite .F64 true 0xFFF0000000000000 ∧
    PixelValue .F64 0x7FEFFFFFFFFFFFFF ((2 ^ 53 - 1) * 2 ^ 971) ∧ (∃ x, PixelValue .F64 0x7FE1CCF385EBC8A0 x ∧ 99 * 10 ^ 306 < x ∧ x < 101 * 10 ^ 306) := by
  simp only [pixelValue_iff, pixelInfinite_iff]
  exact ⟨by decide +kernel, by decide +kernel, by decide +kernel, by decide +kernel, 0x11CCF385EBC8A0 * 2 ^ 971, by decide +kernel, by norm_num, by norm_num⟩

/-! ### C101: the error of mean and standard deviation -/

/-- **C101.** The mean of numbers is off by a few units in the last place of the mean of their absolute values. -/
theorem C101_mean (img : Image b) (l : List ℚ) (h : Values img l) (hne : l ≠ []) (hn : l.length ≤ 2 ^ 50) (hA : (l.map abs).sum ≤ 2 ^ 1022) :
    ∃ m, img.mean = .num m ∧ |m - average l| ≤ (l.length + 1) * 2 ^ (-52 : ℤ) * average (l.map abs) + 2 ^ (-1075 : ℤ) := by
  obtain ⟨m, h1, -, h2⟩ := mean_err l (values_double h) hne hn hA
  refine ⟨m, (values_mean h hne).trans h1, ?_⟩
  unfold average
  rw [List.length_map]
  exact h2

/-- **C101.** The standard deviation is the double closest to the root of a number that differs from the sample variance by its rounding errors
and twice the square of the error of the mean. -/
theorem C101_deviation (img : Image b) (l : List ℚ) (h : Values img l) (hn2 : 2 ≤ l.length) (hn : l.length ≤ 2 ^ 50)
    (hb : b = .F64 → ∀ x ∈ l, |x| ≤ 2 ^ 480) :
    ∃ m v r : ℚ, img.mean = .num m ∧ img.stdDev = .num r ∧ 0 ≤ v ∧ 0 ≤ r ∧ IsDouble r ∧
      (∀ z : ℚ, IsDouble z → |(r : ℝ) - √(v : ℝ)| ≤ |(z : ℝ) - √(v : ℝ)|) ∧
      |v - sampleVariance l| ≤ (l.length + 4) * 2 ^ (-52 : ℤ) * (sampleVariance l + 2 * (m - average l) ^ 2) + 2 * (m - average l) ^ 2 + 2 ^ (-1072 : ℤ) := by
  have hne : l ≠ [] := by rintro rfl; simp at hn2
  have hbd : ∀ x ∈ l, |x| ≤ 2 ^ 480 := by
    intro x hx
    by_cases hf : b = .F64
    · exact hb hf x hx
    · have : Dbl.num x ∈ img.data.map b.number := by rw [values_number h]; exact List.mem_map_of_mem hx
      obtain ⟨p, -, e⟩ := List.mem_map.1 this
      exact number_bound hf e
  have hN : (l.length : ℚ) ≤ 2 ^ 50 := by exact_mod_cast hn
  have hN2 : (2 : ℚ) ≤ l.length := by exact_mod_cast hn2
  have hA1 := sum_le_count l abs (2 ^ 480) hbd
  have hA : (l.map abs).sum ≤ 2 ^ 1022 := hA1.trans (by
    calc (l.length : ℚ) * 2 ^ 480 ≤ 2 ^ 50 * 2 ^ 480 := by gcongr
      _ ≤ 2 ^ 1022 := by norm_num)
  obtain ⟨m, h1, hmd, h2⟩ := mean_err l (values_double h) hne hn hA
  have hm := (values_mean h hne).trans h1
  have hpos : (0 : ℚ) < l.length := by linarith
  have hmb : |m| ≤ 2 ^ 481 := by
    have a1 : (l.map abs).sum / l.length ≤ 2 ^ 480 := by
      rw [div_le_iff₀ hpos]
      linarith
    have a2 : |l.sum / l.length| ≤ 2 ^ 480 := by
      rw [abs_div, abs_of_pos hpos]
      exact (div_le_div_of_nonneg_right (abs_sum_leq l) hpos.le).trans a1
    have a3 : m = (m - l.sum / l.length) + l.sum / l.length := by ring
    have a4 : (l.length + 1) * 2 ^ (-52 : ℤ) * ((l.map abs).sum / l.length) ≤ (2 ^ 50 + 1) * 2 ^ (-52 : ℤ) * 2 ^ 480 := by
      have := sum_abs_nonneg l
      gcongr
    have a5 : speck ≤ 1 := zpow_le_one_of_nonpos₀ (by norm_num) (by norm_num)
    rw [a3]
    refine (abs_add_le _ _).trans ((add_le_add (h2.trans (add_le_add a4 a5)) a2).trans ?_)
    norm_num
  obtain ⟨v, hv, hvd, hv0, hve⟩ := variance_err l (values_double h) hn2 hn hmd (fun x hx => by
    refine (abs_sub _ _).trans ?_
    have := hbd x hx
    calc |x| + |m| ≤ 2 ^ 480 + 2 ^ 481 := add_le_add this hmb
      _ ≤ 2 ^ 482 := by norm_num)
  have hvv : img.variance = .num v := by
    rw [values_variance h hne, hm]
    exact hv
  obtain ⟨r, hr, hrd, hr0, -, hrc⟩ := sqrt_closest hv0 hvd
  refine ⟨m, v, r, hm, ?_, hv0, hr0, hrd, hrc, ?_⟩
  · unfold Image.stdDev
    rw [if_neg (by rw [values_length h]; omega), hvv, hr]
  · have hsp : 5 * speck ≤ 2 ^ (-1072 : ℤ) := by
      have : (2 : ℚ) ^ (-1072 : ℤ) = 2 ^ 3 * speck := zpow_split_nat (by norm_num)
      rw [this]
      have := speck_pos
      linarith
    rw [spread_shift l hne m, add_div] at hve
    have hV : (l.map fun x => (x - l.sum / l.length) ^ 2).sum / (l.length - 1) = sampleVariance l := rfl
    have hav : l.sum / l.length = average l := rfl
    rw [hV, hav] at hve
    have hV0 : 0 ≤ sampleVariance l := by
      refine div_nonneg (List.sum_nonneg ?_) (by linarith)
      simp only [List.mem_map]
      rintro y ⟨z, -, rfl⟩
      positivity
    have hsq : (l.length : ℚ) * (m - average l) ^ 2 / (l.length - 1) ≤ 2 * (m - average l) ^ 2 := by
      rw [div_le_iff₀ (by linarith)]
      nlinarith [sq_nonneg (m - average l)]
    have hsq0 : 0 ≤ (l.length : ℚ) * (m - average l) ^ 2 / (l.length - 1) := div_nonneg (by positivity) (by linarith)
    generalize (l.length : ℚ) * (m - average l) ^ 2 / (l.length - 1) = g at *
    have hfac : (0 : ℚ) ≤ (l.length + 4) * 2 ^ (-52 : ℤ) := mul_nonneg (by linarith) (two_zpow_pos _).le
    have hmul := mul_le_mul_of_nonneg_left (show sampleVariance l + g ≤ sampleVariance l + 2 * (m - average l) ^ 2 by linarith) hfac
    have e1 : v - sampleVariance l = (v - (sampleVariance l + g)) + g := by ring
    rw [e1]
    refine (abs_add_le _ _).trans ?_
    rw [abs_of_nonneg hsq0]
    linarith

/-- **C101.** Ten pixels of 0.1: the mean is not 0.1 but below every pixel, and the standard deviation is not zero. -/
theorem C101_tenths : ∃ img : Image .F64, ∃ x m : ℚ, img.data.length = 10 ∧ (∀ p ∈ img.data, PixelValue .F64 p x) ∧ Rounded (1 / 10) x ∧
    img.mean = .num m ∧ m < x ∧ img.stdDev ≠ .num 0 := by
  refine ⟨⟨List.replicate 10 0x3FB999999999999A, none, none⟩, 3602879701896397 / 36028797018963968, 7205759403792793 / 72057594037927936, rfl, ?_, ?_,
    by decide +kernel, by norm_num, by decide +kernel⟩
  · intro p hp
    obtain ⟨-, rfl⟩ := List.mem_replicate.1 hp
    rw [pixelValue_iff]
    decide +kernel
  · have h1 : Dbl.round (1 / 10) = .num (3602879701896397 / 36028797018963968) := by decide +kernel
    have h2 : |(1 / 10 : ℚ)| < limit .double := by
      rw [limit_double_eq]
      norm_num
    rw [round_eq h2] at h1
    rw [← Dbl.num.inj h1]
    exact rnd_rounded h2

/-- **C101.** The mean of floating point numbers depends on their order: 10^16, 1, -10^16 and 10^16, -10^16, 1. -/
theorem C101_order : ∃ img img' : Image .F64, ∃ l, Values img l ∧ img.data.Perm img'.data ∧ img.mean = .num 0 ∧ img'.mean ≠ .num 0 ∧ average l = 1 / 3 := by
  refine ⟨⟨[0x4341C37937E08000, 0x3FF0000000000000, 0xC341C37937E08000], none, none⟩, ⟨[0x4341C37937E08000, 0xC341C37937E08000, 0x3FF0000000000000], none, none⟩,
    [10 ^ 16, 1, -10 ^ 16], ?_, ?_, by decide +kernel, by decide +kernel, by norm_num [average]⟩
  · unfold Values
    simp only [List.forall₂_cons, pixelValue_iff]
    exact ⟨by decide +kernel, by decide +kernel, by decide +kernel, .nil⟩
  · exact (List.Perm.swap _ _ _).cons _

/-- The standard deviation of 1 and 3 is the double closest to the root of 2. -/
example : Image.stdDev (b := .B16) ⟨[1, 3], none, none⟩ = .num (6369051672525773 / 2 ^ 52) ∧
    Values (b := .B16) ⟨[1, 3], none, none⟩ [1, 3] ∧ sampleVariance [1, 3] = 2 := by
  refine ⟨by decide +kernel, ?_, by norm_num [sampleVariance, average]⟩
  unfold Values
  simp only [List.forall₂_cons, pixelValue_iff]
  exact ⟨by decide +kernel, by decide +kernel, .nil⟩

/-! ### C100: images of integers -/

/-- **C100.** While the number of pixels times the largest possible pixel is at most 2^53 (2^46, 2^38 and 2^22 pixels of 8, 16 and 32 bits), the
mean of an image of integers is the exact mean, rounded once; it is between the smallest and the largest pixel. -/
theorem C100_mean (img : Image b) (l : List ℤ) (h : Integers img l) (hne : l ≠ []) (hsz : l.length * 2 ^ (8 * b.size - 1) ≤ 2 ^ 53) :
    ∃ m, img.mean = .num m ∧ Rounded (l.sum / l.length) m ∧
      ∀ lo ∈ l, ∀ hi ∈ l, (∀ x ∈ l, lo ≤ x ∧ x ≤ hi) → (lo : ℚ) ≤ m ∧ m ≤ hi := by
  obtain ⟨m, h1, h2, -, h4⟩ := int_mean h hne hsz
  exact ⟨m, h1, h2, h4⟩

/-- **C100.** So the mean does not depend on the order of the pixels. -/
theorem C100_order (img img' : Image b) (l : List ℤ) (h : Integers img l) (hsz : l.length * 2 ^ (8 * b.size - 1) ≤ 2 ^ 53)
    (hp : img.data.Perm img'.data) : img.mean = img'.mean := by
  have h' : Integers img' (img'.data.map fun p => p.toInt) := ⟨h.1, rfl⟩
  have hl : l.Perm (img'.data.map fun p => p.toInt) := h.2 ▸ hp.map _
  by_cases hne : l = []
  · have e1 : img.data = [] := by
      have := h.2
      rw [hne] at this
      simpa using this.symm
    have e2 : img'.data = [] := by
      rw [e1] at hp
      exact hp.symm.eq_nil
    simp [Image.mean, e1, e2]
  · have hne' : (img'.data.map fun p => p.toInt) ≠ [] := by
      intro e
      rw [e] at hl
      exact hne hl.eq_nil
    obtain ⟨m, h1, h2, -⟩ := int_mean h hne hsz
    obtain ⟨m', h1', h2', -⟩ := int_mean h' hne' (hl.length_eq ▸ hsz)
    rw [h1, h1']
    rw [← hl.length_eq, ← hl.sum_eq] at h2'
    rw [rounded_unique h2 h2']

/-- The same three pixels in another order. -/
example : Image.mean (b := .B8) ⟨[1, 2, 5], none, none⟩ = Image.mean (b := .B8) ⟨[5, 1, 2], none, none⟩ :=
  C100_order _ _ [1, 2, 5] ⟨.inl rfl, by decide +kernel⟩ (by decide) (by decide)

/-- **C100.** The standard deviation of two or more integers is zero exactly when they are all the same. -/
theorem C100_constant (img : Image b) (l : List ℤ) (h : Integers img l) (hn : 2 ≤ l.length) (hsz : l.length * 2 ^ (8 * b.size - 1) ≤ 2 ^ 53) :
    (img.stdDev = .num 0 ↔ ∀ x ∈ l, ∀ y ∈ l, x = y) ∧ ∀ x, (∀ y ∈ l, y = x) → img.mean = .num x := by
  have hne : l ≠ [] := by rintro rfl; simp at hn
  obtain ⟨m, h1, h2, h3, h4⟩ := int_mean h hne hsz
  obtain ⟨v, hv, hvd, hv0, hvz⟩ := int_variance h hn hsz
  have hs : img.stdDev = img.variance.sqrt := by
    unfold Image.stdDev
    rw [if_neg (by rw [values_length (ints_values h), List.length_map]; omega)]
  refine ⟨by rw [hs, hv, sqrt_zero_iff hv0 hvd, hvz], fun x hx => ?_⟩
  obtain ⟨y, hy⟩ := List.exists_mem_of_ne_nil l hne
  obtain rfl := hx y hy
  obtain ⟨h5, h6⟩ := h4 y hy y hy fun z hz => by rw [hx z hz]; exact ⟨le_refl _, le_refl _⟩
  rw [h1, le_antisymm h6 h5]

/-- Two equal pixels have the standard deviation 0, two different ones do not. -/
example : Image.stdDev (b := .B8) ⟨[4, 4], none, none⟩ = .num 0 ∧ Image.stdDev (b := .B8) ⟨[4, 5], none, none⟩ ≠ .num 0 :=
  ⟨(C100_constant _ [4, 4] ⟨.inl rfl, by decide +kernel⟩ (by decide) (by decide)).1.2 (by decide),
    fun h => absurd ((C100_constant _ [4, 5] ⟨.inl rfl, by decide +kernel⟩ (by decide) (by decide)).1.1 h) (by decide)⟩

/-- **C100.** The bound matters: with 2^23 pixels of 32 bits, half of them -2^31 and half -1, the mean is wrong by 1/2 when the large ones come first
and right when they come last. -/
theorem C100_beyond : ∃ img img' : Image .B32, ∃ l, Integers img l ∧ l.length = 2 ^ 23 ∧ img.data.Perm img'.data ∧ img.mean = .num (-2 ^ 30) ∧
    img'.mean = .num (-2 ^ 30 - 1 / 2) ∧ (l.sum : ℚ) / l.length = -2 ^ 30 - 1 / 2 := by
  have hn1 : Bitpix.B32.number (0x80000000 : BitVec (8 * Bitpix.B32.size)) = .num ((-2 ^ 31 : ℤ) : ℚ) := by decide +kernel
  have hn1' : Bitpix.B32.number (0x80000000 : BitVec (8 * Bitpix.B32.size)) = .num (-2 ^ 31) := by decide +kernel
  have hn2 : Bitpix.B32.number (0xFFFFFFFF : BitVec (8 * Bitpix.B32.size)) = .num ((-1 : ℤ) : ℚ) := by decide +kernel
  have hof : Dbl.ofNat (2 ^ 22 + 2 ^ 22) = .num (2 ^ 23) := by
    rw [ofNat_num (by norm_num)]
    norm_num
  have hint : ∀ i : ℤ, |i| ≤ 2 ^ 53 → Dbl.round (i : ℚ) = .num i := fun i hi => round_exact (isDouble_int hi)
  refine ⟨⟨List.replicate (2 ^ 22) 0x80000000 ++ List.replicate (2 ^ 22) 0xFFFFFFFF, none, none⟩,
    ⟨List.replicate (2 ^ 22) 0xFFFFFFFF ++ List.replicate (2 ^ 22) 0x80000000, none, none⟩,
    List.replicate (2 ^ 22) (-2 ^ 31) ++ List.replicate (2 ^ 22) (-1), ⟨.inr (.inr rfl), ?_⟩, ?_, List.perm_append_comm, ?_, ?_, ?_⟩
  · rw [List.map_append, List.map_replicate, List.map_replicate]
    congr 1
  · rw [List.length_append, List.length_replicate, List.length_replicate]
    norm_num
  · unfold Image.mean
    rw [List.length_append, List.length_replicate, List.length_replicate, if_neg (by norm_num), List.foldl_append, fold_same _ _ _ hn1 _ (by norm_num),
      fold_fixed, hof, div_num (by norm_num)]
    · norm_num
      have := hint (-1073741824) (by norm_num)
      push_cast at this
      exact this
    · rw [hn2]
      decide +kernel
  · unfold Image.mean
    rw [List.length_append, List.length_replicate, List.length_replicate, if_neg (by norm_num), List.foldl_append, fold_same _ _ _ hn2 _ (by norm_num)]
    have e : (((-1 : ℤ) * (2 ^ 22 : ℕ) : ℤ) : ℚ) = -2 ^ 22 := by norm_num
    rw [e, fold_steps _ _ hn1' _ (le_refl _), hof, div_num (by norm_num)]
    have hd : IsDouble (-2 ^ 30 - 1 / 2) := ⟨-2147483649, -1, by norm_num, by norm_num, by norm_num, by norm_num⟩
    rw [← round_exact hd]
    congr 1
    norm_num
  · rw [List.length_append, List.length_replicate, List.length_replicate, List.sum_append, List.sum_replicate, List.sum_replicate]
    norm_num

/-- 8 bit pixels 1, 2 and 2: the mean is the double closest to 5/3. -/
example : Image.mean (b := .B8) ⟨[1, 2, 2], none, none⟩ = .num (7505999378950827 / 2 ^ 52) ∧ Integers (b := .B8) ⟨[1, 2, 2], none, none⟩ [1, 2, 2] ∧
    3 * 2 ^ (8 * Bitpix.B8.size - 1) ≤ 2 ^ 53 :=
  ⟨by decide +kernel, ⟨.inl rfl, by decide +kernel⟩, by decide⟩

end Astro
