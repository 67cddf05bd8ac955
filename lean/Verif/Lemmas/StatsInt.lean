import Verif.Lemmas.Variance
import Verif.Lemmas.Sqrt

/-
Means of integers.
-/

set_option exponentiation.threshold 3000

namespace Astro

open Spec Time FloatFmt

attribute [local irreducible] FloatFmt.nearest FloatFmt.value Dbl.round Nat.sqrt

variable {b : Bitpix}

theorem ints_values {img : Image b} {l : List ℤ} (h : Integers img l) : Values img (l.map fun i : ℤ => (i : ℚ)) := by
  obtain ⟨hb, rfl⟩ := h
  unfold Values
  rw [List.map_map, List.forall₂_map_right_iff]
  refine List.forall₂_same.2 fun p _ => ?_
  rcases hb with rfl | rfl | rfl <;> rfl

theorem ints_bound {img : Image b} {l : List ℤ} (h : Integers img l) : ∀ x ∈ l, |x| ≤ 2 ^ (8 * b.size - 1) := by
  obtain ⟨-, rfl⟩ := h
  intro x hx
  obtain ⟨p, -, rfl⟩ := List.mem_map.1 hx
  have h1 := BitVec.toInt_lt (x := p)
  have h2 := BitVec.le_toInt (x := p)
  rw [abs_le]
  constructor <;> linarith

theorem ints_sum {l : List ℤ} {B : ℤ} (h : ∀ x ∈ l, |x| ≤ B) : (l.map abs).sum ≤ l.length * B := by
  induction l with
  | nil => simp
  | cons x t ih =>
    simp only [List.map_cons, List.sum_cons, List.length_cons]
    have h1 := ih fun y hy => h y (by simp [hy])
    have h2 := h x (by simp)
    push_cast
    linarith

theorem sum_between {l : List ℤ} {lo hi : ℤ} (h : ∀ x ∈ l, lo ≤ x ∧ x ≤ hi) : l.length * lo ≤ l.sum ∧ l.sum ≤ l.length * hi := by
  induction l with
  | nil => simp
  | cons x t ih =>
    simp only [List.sum_cons, List.length_cons]
    have h1 := ih fun y hy => h y (by simp [hy])
    have h2 := h x (by simp)
    push_cast
    constructor <;> linarith

/-- The mean of not too many integers. -/
theorem int_mean {img : Image b} {l : List ℤ} (h : Integers img l) (hne : l ≠ []) (hsz : l.length * 2 ^ (8 * b.size - 1) ≤ 2 ^ 53) :
    ∃ m, img.mean = .num m ∧ Rounded (l.sum / l.length) m ∧ m = ieee.rnd (l.sum / l.length) ∧
      ∀ lo ∈ l, ∀ hi ∈ l, (∀ x ∈ l, lo ≤ x ∧ x ≤ hi) → (lo : ℚ) ≤ m ∧ m ≤ hi := by
  have hpos : 0 < l.length := List.length_pos_iff.2 hne
  have hB : 0 < 2 ^ (8 * b.size - 1) := Nat.two_pow_pos _
  have hlen : l.length ≤ 2 ^ 53 := (Nat.le_mul_of_pos_right _ hB).trans hsz
  have hsum : (l.map abs).sum ≤ 2 ^ 53 := by
    refine (ints_sum (ints_bound h)).trans ?_
    exact_mod_cast hsz
  have hs := abs_sum_le l
  have hq : (1 : ℚ) ≤ l.length := by exact_mod_cast hpos
  have hsq : |(l.sum : ℚ)| ≤ 2 ^ 53 := by exact_mod_cast hs.trans hsum
  have hlim : |(l.sum : ℚ) / l.length| ≤ 2 ^ 53 := by
    rw [abs_div, abs_of_pos (a := (l.length : ℚ)) (by linarith)]
    exact (div_le_self (abs_nonneg _) hq).trans hsq
  have hm : img.mean = .num (ieee.rnd (l.sum / l.length)) := by
    have h0 : l.foldl (fun s (x : ℤ) => Dbl.add s (.num x)) (.num 0) = .num l.sum := by
      have := sum_int l 0 (by simpa using hsum)
      simpa using this
    rw [values_mean (ints_values h) (by simpa using hne), List.foldl_map, h0, List.length_map, ofNat_num hlen, div_num (by linarith)]
    exact round_num (hlim.trans (by norm_num))
  refine ⟨_, hm, rnd_rounded (by rw [limit_double_eq]; exact hlim.trans_lt (by norm_num)), rfl, ?_⟩
  intro lo hlo hi hhi hx
  obtain ⟨h1, h2⟩ := sum_between hx
  have h53 : ∀ x ∈ l, |x| ≤ 2 ^ 53 := by
    intro x hx
    refine (ints_bound h x hx).trans ?_
    have : 2 ^ (8 * b.size - 1) ≤ 2 ^ 53 := (Nat.le_mul_of_pos_left _ hpos).trans hsz
    exact_mod_cast this
  have h1' : (l.length * lo : ℚ) ≤ l.sum := by exact_mod_cast h1
  have h2' : (l.sum : ℚ) ≤ l.length * hi := by exact_mod_cast h2
  constructor
  · rw [← near_exact ieee (isDouble_int (h53 lo hlo))]
    apply near_mono
    rw [le_div_iff₀ (by linarith)]
    linarith
  · rw [← near_exact ieee (isDouble_int (h53 hi hhi))]
    apply near_mono
    rw [div_le_iff₀ (by linarith)]
    linarith

theorem sqrt_zero_iff {x : ℚ} (hx : 0 ≤ x) (hd : IsDouble x) : (Dbl.num x).sqrt = .num 0 ↔ x = 0 := by
  obtain ⟨r, hr, -, -, h0, hc⟩ := sqrt_closest hx hd
  rw [hr]
  constructor
  · intro e
    have hr0 : r = 0 := Dbl.num.inj e
    subst hr0
    by_contra hne
    have hpos : 0 < x := lt_of_le_of_ne hx (Ne.symm hne)
    have hlow : (2 : ℚ) ^ (-1074 : ℤ) ≤ x := by
      obtain ⟨m, k, hm, h1, h2, rfl⟩ := hd
      have hp := two_zpow_pos k
      have hm1 : (1 : ℚ) ≤ m := by
        have : (0 : ℚ) < m := by
          by_contra hc
          have : (m : ℚ) * 2 ^ k ≤ 0 := mul_nonpos_of_nonpos_of_nonneg (not_lt.1 hc) hp.le
          linarith
        have : (0 : ℤ) < m := by exact_mod_cast this
        exact_mod_cast this
      calc (2 : ℚ) ^ (-1074 : ℤ) ≤ 2 ^ k := zpow_le_zpow_right₀ (by norm_num) h1
        _ ≤ m * 2 ^ k := le_mul_of_one_le_left hp.le hm1
    have hz : IsDouble (2 ^ (-537 : ℤ)) := ⟨1, -537, by norm_num, by norm_num, by norm_num, by norm_num⟩
    have h3 := hc _ hz
    have h4 : ((2 : ℝ) ^ (-537 : ℤ)) ≤ √(x : ℝ) := by
      apply Real.le_sqrt_of_sq_le
      have e : ((2 : ℝ) ^ (-537 : ℤ)) ^ 2 = ((2 ^ (-1074 : ℤ) : ℚ) : ℝ) := by
        push_cast
        rw [sq, ← zpow_add₀ (by norm_num)]
        norm_num
      rw [e]
      exact_mod_cast hlow
    have h5 : (0 : ℝ) < 2 ^ (-537 : ℤ) := zpow_pos (by norm_num) _
    push_cast at h3
    generalize (2 : ℝ) ^ (-537 : ℤ) = t at *
    rw [abs_of_nonpos (by linarith), abs_of_nonpos (by linarith)] at h3
    linarith
  · intro e
    rw [h0 e]

/-- The rounded mean is not extremely close to an integer that it is not. -/
theorem int_far {S : ℤ} {n : ℕ} (hn : 0 < n) (hn' : n ≤ 2 ^ 46) {x : ℤ} (hx : (x : ℚ) ≠ ieee.rnd (S / n)) :
    (2 : ℚ) ^ (-98 : ℤ) ≤ |x - ieee.rnd (S / n)| := by
  have hnq : (0 : ℚ) < n := by exact_mod_cast hn
  obtain ⟨k, hk⟩ : ∃ k : ℤ, ieee.rnd (S / n) = k * 2 ^ (-98 : ℤ) := by
    by_cases hS : S = 0
    · exact ⟨0, by rw [hS]; simp [near_zero]⟩
    · apply double_multiple (ieee.isDouble _)
      have hd : IsDouble (2 ^ (-46 : ℤ)) := ⟨1, -46, by norm_num, by norm_num, by norm_num, by norm_num⟩
      have h1 : (2 : ℚ) ^ (-46 : ℤ) ≤ |(S : ℚ) / n| := by
        rw [abs_div, abs_of_pos hnq, le_div_iff₀ hnq]
        have h2 : (1 : ℚ) ≤ |(S : ℚ)| := by exact_mod_cast Int.one_le_abs hS
        have h3 : (n : ℚ) ≤ 2 ^ 46 := by exact_mod_cast hn'
        calc (2 : ℚ) ^ (-46 : ℤ) * n ≤ 2 ^ (-46 : ℤ) * 2 ^ 46 := mul_le_mul_of_nonneg_left h3 (two_zpow_pos _).le
          _ = 1 := by norm_num
          _ ≤ _ := h2
      have h4 : (2 : ℚ) ^ 52 * 2 ^ (-98 : ℤ) = 2 ^ (-46 : ℤ) := by norm_num
      rw [h4]
      rcases le_total 0 ((S : ℚ) / n) with h | h
      · rw [abs_of_nonneg h] at h1
        have := near_mono ieee h1
        rw [near_exact ieee hd] at this
        exact this.trans (le_abs_self _)
      · rw [abs_of_nonpos h] at h1
        have := near_mono ieee (show (S : ℚ) / n ≤ -2 ^ (-46 : ℤ) by linarith)
        rw [near_exact ieee (isDouble_neg hd)] at this
        exact le_trans (by linarith) (neg_le_abs _)
  rw [hk] at hx ⊢
  have e : (x : ℚ) - k * 2 ^ (-98 : ℤ) = ((x * 2 ^ 98 - k : ℤ) : ℚ) * 2 ^ (-98 : ℤ) := by
    push_cast
    rw [sub_mul, mul_assoc]
    norm_num
  rw [e, abs_mul, abs_of_pos (two_zpow_pos _)]
  refine le_mul_of_one_le_left (two_zpow_pos _).le ?_
  have hne : x * 2 ^ 98 - k ≠ 0 := by
    intro h0
    rw [h0] at e
    exact hx (by linarith [e.trans (by simp : ((0 : ℤ) : ℚ) * 2 ^ (-98 : ℤ) = 0)])
  exact_mod_cast Int.one_le_abs hne

theorem fold_zero (l : List Dbl) (h : ∀ d ∈ l, d = .num 0) : l.foldl Dbl.add (.num 0) = .num 0 := by
  have h0 : IsDouble 0 := by simpa using isDouble_int (i := 0) (by norm_num)
  induction l with
  | nil => rfl
  | cons x t ih =>
    rw [List.foldl_cons, h x (by simp), add_num, add_zero, round_exact h0]
    exact ih fun d hd => h d (by simp [hd])

/-- Variance of integers. -/
theorem int_variance {img : Image b} {l : List ℤ} (h : Integers img l) (hn : 2 ≤ l.length) (hsz : l.length * 2 ^ (8 * b.size - 1) ≤ 2 ^ 53) :
    ∃ v, img.variance = .num v ∧ IsDouble v ∧ 0 ≤ v ∧ (v = 0 ↔ ∀ x ∈ l, ∀ y ∈ l, x = y) := by
  have h0 : IsDouble 0 := by simpa using isDouble_int (i := 0) (by norm_num)
  have hne : l ≠ [] := by rintro rfl; simp at hn
  have hN : l.length ≤ 2 ^ 46 := by
    have h1 : 2 ^ 7 ≤ 2 ^ (8 * b.size - 1) := by
      rcases h.1 with rfl | rfl | rfl <;> decide
    have h2 : l.length * 2 ^ 7 ≤ 2 ^ 53 := (Nat.mul_le_mul_left _ h1).trans hsz
    omega
  obtain ⟨m, hm, -, hmr, hbt⟩ := int_mean h hne hsz
  have hv := ints_values h
  have hb31 : ∀ x ∈ l, |x| ≤ 2 ^ 31 := by
    intro x hx
    refine (ints_bound h x hx).trans ?_
    rcases h.1 with rfl | rfl | rfl <;> norm_num [Bitpix.size]
  have hpos : (0 : ℚ) < l.length := by exact_mod_cast List.length_pos_iff.2 hne
  have hmd : IsDouble m := hmr ▸ ieee.isDouble _
  have hmb : |m| ≤ 2 ^ 31 := by
    have h1 : |(l.sum : ℚ) / l.length| ≤ 2 ^ 31 := by
      rw [abs_div, abs_of_pos hpos, div_le_iff₀ hpos]
      have := (abs_sum_le l).trans (ints_sum hb31)
      have : |(l.sum : ℚ)| ≤ l.length * 2 ^ 31 := by exact_mod_cast this
      linarith
    have hd : IsDouble (2 ^ 31) := by
      have := isDouble_int (i := 2 ^ 31) (by norm_num)
      push_cast at this
      exact this
    rw [abs_le] at h1 ⊢
    rw [hmr]
    constructor
    · rw [← near_exact ieee (isDouble_neg hd)]
      exact near_mono ieee h1.1
    · rw [← near_exact ieee hd]
      exact near_mono ieee h1.2
  obtain ⟨v, hv1, hvd, hv0, hve⟩ := variance_err (l.map fun i : ℤ => (i : ℚ)) (values_double hv) (by simpa using hn)
    (by rw [List.length_map]; exact hN.trans (by norm_num)) hmd (by
      simp only [List.mem_map]
      rintro y ⟨x, hx, rfl⟩
      have h1 : |(x : ℚ)| ≤ 2 ^ 31 := by exact_mod_cast hb31 x hx
      refine (abs_sub _ _).trans ((add_le_add h1 hmb).trans ?_)
      norm_num)
  have hvar : img.variance = .num v := by
    rw [values_variance hv (by simpa using hne), hm]
    exact hv1
  refine ⟨v, hvar, hvd, hv0, ?_⟩
  constructor
  · intro hz
    by_contra hc
    -- some pixel differs from the mean
    obtain ⟨x, hx, hxm⟩ : ∃ x ∈ l, (x : ℚ) ≠ m := by
      by_contra hcc
      apply hc
      intro x hx y hy
      have h1 : (x : ℚ) = m := by
        by_contra hh
        exact hcc ⟨x, hx, hh⟩
      have h2 : (y : ℚ) = m := by
        by_contra hh
        exact hcc ⟨y, hy, hh⟩
      exact_mod_cast h1.trans h2.symm
    rw [hmr] at hxm
    have hfar := int_far (List.length_pos_iff.2 hne) hN hxm
    rw [← hmr] at hfar
    have hsq : (2 : ℚ) ^ (-196 : ℤ) ≤ (x - m) ^ 2 := by
      rw [← sq_abs]
      calc (2 : ℚ) ^ (-196 : ℤ) = (2 ^ (-98 : ℤ)) ^ 2 := by norm_num
        _ ≤ _ := pow_le_pow_left₀ (two_zpow_pos _).le hfar 2
    have hE : (2 : ℚ) ^ (-196 : ℤ) ≤ ((l.map fun i : ℤ => (i : ℚ)).map fun x => (x - m) ^ 2).sum := by
      refine hsq.trans (List.single_le_sum ?_ _ ?_)
      · intro y hy
        obtain ⟨z, -, rfl⟩ := List.mem_map.1 hy
        positivity
      · exact List.mem_map.2 ⟨x, List.mem_map.2 ⟨x, hx, rfl⟩, rfl⟩
    rw [List.length_map] at hve
    generalize ((l.map fun i : ℤ => (i : ℚ)).map fun x => (x - m) ^ 2).sum = E at *
    have hn2 : (2 : ℚ) ≤ l.length := by exact_mod_cast hn
    have hn46 : (l.length : ℚ) ≤ 2 ^ 46 := by exact_mod_cast hN
    have hq : (2 : ℚ) ^ (-242 : ℤ) ≤ E / (l.length - 1) := by
      rw [le_div_iff₀ (by linarith)]
      calc (2 : ℚ) ^ (-242 : ℤ) * (l.length - 1) ≤ 2 ^ (-242 : ℤ) * 2 ^ 46 :=
            mul_le_mul_of_nonneg_left (by linarith) (two_zpow_pos _).le
        _ = 2 ^ (-196 : ℤ) := by norm_num
        _ ≤ E := hE
    have hfac : ((l.length : ℚ) + 4) * 2 ^ (-52 : ℤ) ≤ 1 / 2 := by
      calc ((l.length : ℚ) + 4) * 2 ^ (-52 : ℤ) ≤ (2 ^ 46 + 4) * 2 ^ (-52 : ℤ) := mul_le_mul_of_nonneg_right (by linarith) (two_zpow_pos _).le
        _ ≤ 1 / 2 := by norm_num
    have hsp : 5 * speck < 2 ^ (-242 : ℤ) * (1 / 2) := by
      have : speck ≤ 2 ^ (-250 : ℤ) := zpow_le_zpow_right₀ (by norm_num) (by norm_num)
      refine lt_of_le_of_lt (mul_le_mul_of_nonneg_left this (by norm_num)) ?_
      norm_num
    have h242 : (0 : ℚ) < 2 ^ (-242 : ℤ) := two_zpow_pos _
    rw [hz] at hve
    generalize E / (l.length - 1) = g at *
    generalize ((l.length : ℚ) + 4) * 2 ^ (-52 : ℤ) = a at *
    have h1 := (abs_le.1 hve).1
    generalize (2 : ℚ) ^ (-242 : ℤ) = w at *
    have h2 : a * g ≤ 1 / 2 * g := mul_le_mul_of_nonneg_right hfac (by linarith)
    linarith
  · intro hall
    obtain ⟨x, hx⟩ := List.exists_mem_of_ne_nil l hne
    have hmx : m = x := by
      obtain ⟨h1, h2⟩ := hbt x hx x hx fun y hy => by rw [hall y hy x hx]; exact ⟨le_refl _, le_refl _⟩
      linarith
    have h3 : img.variance = .num 0 := by
      have hs : ((l.map fun i : ℤ => (i : ℚ)).map fun x => (Dbl.sub (.num x) (.num m)).mul (Dbl.sub (.num x) (.num m))).foldl Dbl.add (.num 0) = .num 0 := by
        apply fold_zero
        intro d hd
        obtain ⟨q, hq, rfl⟩ := List.mem_map.1 hd
        obtain ⟨y, hy, rfl⟩ := List.mem_map.1 hq
        rw [hall y hy x hx, hmx, sub_num, sub_self, round_exact h0, mul_num, mul_zero, round_exact h0]
      rw [values_variance hv (by simpa using hne), hm, hs, List.length_map, ofNat_small (by omega),
        div_num (by exact_mod_cast (by omega : l.length - 1 ≠ 0)), zero_div, round_exact h0]
    rw [hvar] at h3
    exact Dbl.num.inj h3

theorem fold_fixed {α : Type} (f : Dbl → α → Dbl) (p : α) (a : Dbl) (h : f a p = a) (n : Nat) : (List.replicate n p).foldl f a = a := by
  induction n with
  | zero => rfl
  | succ n ih => rw [List.replicate_succ, List.foldl_cons, h, ih]

theorem fold_same {α : Type} (g : α → Dbl) (p : α) (x : ℤ) (hp : g p = .num x) (n : Nat) (hb : |x| * n ≤ 2 ^ 53) :
    (List.replicate n p).foldl (fun s p => Dbl.add s (g p)) (.num 0) = .num (x * n : ℤ) := by
  have := sum_int (List.replicate n x) 0 (by simpa [mul_comm] using hb)
  rw [List.sum_replicate, Int.cast_zero, nsmul_eq_mul, zero_add, mul_comm] at this
  rw [← this]
  clear this hb
  generalize Dbl.num 0 = a
  induction n generalizing a with
  | zero => rfl
  | succ n ih => rw [List.replicate_succ, List.replicate_succ, List.foldl_cons, List.foldl_cons, hp, ih]

/-- Adding -2^31 again and again to -2^22 is exact. -/
theorem fold_steps {α : Type} (g : α → Dbl) (p : α) (hp : g p = .num (-2 ^ 31)) (n : Nat) (hn : n ≤ 2 ^ 22) :
    (List.replicate n p).foldl (fun s p => Dbl.add s (g p)) (.num (-2 ^ 22)) = .num (-2 ^ 22 * (1 + n * 2 ^ 9 : ℕ)) := by
  induction n with
  | zero => simp
  | succ n ih =>
    rw [List.replicate_succ', List.foldl_append, ih (by omega), List.foldl_cons, List.foldl_nil, hp, add_num]
    have hd : IsDouble (-2 ^ 22 * (1 + (n + 1) * 2 ^ 9 : ℕ)) := by
      have := isDouble_mul (-(1 + (n + 1) * 2 ^ 9 : ℕ)) 22 (by rw [abs_neg, abs_of_nonneg (by positivity)]; norm_num; omega) (by norm_num) (by norm_num)
      refine (congrArg IsDouble ?_).mp this
      push_cast
      ring
    rw [← round_exact hd]
    congr 1
    push_cast
    ring

end Astro
