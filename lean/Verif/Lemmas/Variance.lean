import Verif.Lemmas.StatsFold

/-
Rounding errors of mean and variance.
-/

set_option exponentiation.threshold 3000

namespace Astro

open Spec Time FloatFmt

attribute [local irreducible] FloatFmt.nearest FloatFmt.value Dbl.round

/-- Half the smallest positive double. -/
def speck : ℚ := 2 ^ (-1075 : ℤ)

theorem speck_pos : 0 < speck := two_zpow_pos _

theorem sub_num (x y : ℚ) : Dbl.sub (.num x) (.num y) = Dbl.round (x - y) := by
  rw [sub_eq_add_neg]
  rfl

theorem mul_num (x y : ℚ) : Dbl.mul (.num x) (.num y) = Dbl.round (x * y) := rfl

theorem div_num {x y : ℚ} (h : y ≠ 0) : Dbl.div (.num x) (.num y) = Dbl.round (x / y) := if_neg h

theorem pow_le_top {k : ℕ} (h : k ≤ 1023) : (2 : ℚ) ^ k ≤ 2 ^ (1023 : ℤ) := by
  rw [top_eq]
  exact pow_le_pow_right₀ (by norm_num) h

theorem round_top {q : ℚ} (h : |q| ≤ 2 ^ (1023 : ℤ)) : Dbl.round q = .num (ieee.rnd q) := by
  rw [top_eq] at h
  exact round_num h

/-- Square of a difference. -/
theorem square_err {x m : ℚ} (hx : IsDouble x) (hm : IsDouble m) (hb : |x - m| ≤ 2 ^ 482) :
    ∃ q, (Dbl.sub (.num x) (.num m)).mul (Dbl.sub (.num x) (.num m)) = .num q ∧ IsDouble q ∧ 0 ≤ q ∧
      |q - (x - m) ^ 2| ≤ ((1 + ulp) ^ 3 - 1) * (x - m) ^ 2 + speck := by
  have hu := ulp_pos
  have hu1 : ulp ≤ 1 := by norm_num [ulp]
  have h1 := add_rel ieee hx (isDouble_neg hm) (by rw [← sub_eq_add_neg]; exact hb.trans (pow_le_top (by norm_num)))
  rw [← sub_eq_add_neg, ← ulp] at h1
  have hsub : Dbl.sub (.num x) (.num m) = .num (ieee.rnd (x - m)) := by
    rw [sub_num, round_top (hb.trans (pow_le_top (by norm_num)))]
  rw [hsub, mul_num]
  generalize x - m = e at *
  generalize ieee.rnd e = d at *
  have h2 : |d| ≤ |e| * (1 + ulp) := by
    have : d = (d - e) + e := by ring
    rw [this]
    refine (abs_add_le _ _).trans ?_
    linarith
  have he0 := abs_nonneg e
  have hd2 : d * d ≤ e ^ 2 * (1 + ulp) ^ 2 := by
    have : |d| * |d| ≤ (|e| * (1 + ulp)) * (|e| * (1 + ulp)) := mul_le_mul h2 h2 (abs_nonneg _) (by positivity)
    rw [abs_mul_abs_self] at this
    refine this.trans (le_of_eq ?_)
    rw [← sq_abs e]
    ring
  have hdd : |d * d - e ^ 2| ≤ ((1 + ulp) ^ 2 - 1) * e ^ 2 := by
    have e1 : d * d - e ^ 2 = (d - e) * (d - e) + 2 * e * (d - e) := by ring
    have e2 : |(d - e) * (d - e)| ≤ (|e| * ulp) * (|e| * ulp) := by
      rw [abs_mul]
      exact mul_le_mul h1 h1 (abs_nonneg _) (by positivity)
    have e3 : |2 * e * (d - e)| ≤ 2 * |e| * (|e| * ulp) := by
      rw [abs_mul, abs_mul, abs_two]
      exact mul_le_mul_of_nonneg_left h1 (by positivity)
    rw [e1]
    refine (abs_add_le _ _).trans ((add_le_add e2 e3).trans (le_of_eq ?_))
    rw [← sq_abs e]
    ring
  have hlim : |d * d| ≤ 2 ^ (1023 : ℤ) := by
    rw [abs_mul_self]
    refine hd2.trans (le_trans ?_ (pow_le_top (k := 966) (by norm_num)))
    have : e ^ 2 ≤ (2 ^ 482) ^ 2 := by
      rw [← sq_abs e]
      exact pow_le_pow_left₀ he0 hb 2
    calc e ^ 2 * (1 + ulp) ^ 2 ≤ (2 ^ 482) ^ 2 * (1 + 1) ^ 2 := by gcongr
      _ = 2 ^ 966 := by norm_num
  refine ⟨ieee.rnd (d * d), round_top hlim, ieee.isDouble _, rnd_nonneg (mul_self_nonneg d), ?_⟩
  have h3 := near_rel_abs ieee hlim
  rw [← ulp, ← speck, abs_mul_self d] at h3
  have e4 : ieee.rnd (d * d) - e ^ 2 = (ieee.rnd (d * d) - d * d) + (d * d - e ^ 2) := by ring
  rw [e4]
  refine (abs_add_le _ _).trans ?_
  have := mul_le_mul_of_nonneg_right hd2 hu.le
  nlinarith

/-- Sums of nearby numbers. -/
theorem sum_near {α : Type} (l : List α) (f g : α → ℚ) (a c : ℚ) (h : ∀ x ∈ l, |f x - g x| ≤ a * g x + c) :
    |(l.map f).sum - (l.map g).sum| ≤ a * (l.map g).sum + l.length * c := by
  induction l with
  | nil => simp
  | cons x t ih =>
    simp only [List.map_cons, List.sum_cons, List.length_cons, Nat.cast_add, Nat.cast_one]
    have h1 := ih fun y hy => h y (by simp [hy])
    have h2 := h x (by simp)
    rw [add_sub_add_comm]
    refine (abs_add_le _ _).trans ?_
    linarith

theorem sum_le_count {α : Type} (l : List α) (g : α → ℚ) (B : ℚ) (h : ∀ x ∈ l, g x ≤ B) : (l.map g).sum ≤ l.length * B := by
  induction l with
  | nil => simp
  | cons x t ih =>
    simp only [List.map_cons, List.sum_cons, List.length_cons, Nat.cast_add, Nat.cast_one]
    have h1 := ih fun y hy => h y (by simp [hy])
    have h2 := h x (by simp)
    linarith

theorem map_choose {α : Type} (l : List α) (g : α → Dbl) (P : α → ℚ → Prop) (h : ∀ x ∈ l, ∃ q, g x = .num q ∧ P x q) :
    ∃ f : α → ℚ, ∀ x ∈ l, g x = .num (f x) ∧ P x (f x) := by
  classical
  refine ⟨fun x => if hx : x ∈ l then (h x hx).choose else 0, ?_⟩
  intro x hx
  simp only [hx, dif_pos]
  exact (h x hx).choose_spec

theorem ofNat_small {n : Nat} (h : n ≤ 2 ^ 50) : Dbl.ofNat n = .num n := ofNat_num (h.trans (by norm_num))

theorem pow_ulp_small {k : ℕ} (h : k ≤ 2 ^ 51) : (1 + ulp) ^ k ≤ 1 + k * 2 ^ (-52 : ℤ) ∧ (1 + ulp) ^ k ≤ 2 := by
  have hk : (k : ℚ) ≤ 2 ^ 51 := by exact_mod_cast h
  have e : ulp * 2 = 2 ^ (-52 : ℤ) := by norm_num [ulp]
  have e1 : (2 : ℚ) ^ (-52 : ℤ) * 2 ^ 51 ≤ 1 := by norm_num
  have h0 : (0 : ℚ) < 2 ^ (-52 : ℤ) := two_zpow_pos _
  have h1 : (k : ℚ) * 2 ^ (-52 : ℤ) ≤ 1 := by nlinarith
  have := pow_ulp k (by rw [mul_assoc, mul_comm 2, e]; exact h1)
  have h2 : 2 * (k : ℚ) * ulp = k * 2 ^ (-52 : ℤ) := by rw [← e]; ring
  rw [h2] at this
  exact ⟨this, by linarith⟩

/-- The mean of doubles. -/
theorem mean_err (l : List ℚ) (hd : ∀ x ∈ l, IsDouble x) (hn : l ≠ []) (hn' : l.length ≤ 2 ^ 50) (hA : (l.map abs).sum ≤ 2 ^ 1022) :
    ∃ m, (l.foldl (fun s x => Dbl.add s (.num x)) (.num 0)).div (.ofNat l.length) = .num m ∧ IsDouble m ∧
      |m - l.sum / l.length| ≤ (l.length + 1) * 2 ^ (-52 : ℤ) * ((l.map abs).sum / l.length) + speck := by
  have hu := ulp_pos
  have hpos : 0 < l.length := List.length_pos_iff.2 hn
  obtain ⟨hp1, hp2⟩ := pow_ulp_small (k := l.length) (hn'.trans (by norm_num))
  have hA0 := sum_abs_nonneg l
  have htop : (2 : ℚ) ^ 1022 * 2 = 2 ^ (1023 : ℤ) := by rw [top_eq, ← pow_succ]
  have hlim : (l.map abs).sum * (1 + ulp) ^ l.length ≤ 2 ^ (1023 : ℤ) := by
    rw [← htop]
    exact mul_le_mul hA hp2 (by positivity) (by positivity)
  obtain ⟨s, hs, hsd, he⟩ := sum_err l hd hlim
  have hS := abs_sum_leq l
  have hq : (1 : ℚ) ≤ l.length := by exact_mod_cast hpos
  rw [hs, ofNat_small hn', div_num (by linarith)]
  obtain ⟨hp3, -⟩ := pow_ulp_small (k := l.length + 1) (by omega)
  rw [pow_succ] at hp3
  push_cast at hp3
  have hge1 : 1 ≤ (1 + ulp) ^ l.length := one_le_pow₀ (by linarith)
  generalize (1 + ulp) ^ l.length = P at *
  generalize (l.map abs).sum = A at *
  generalize l.sum = S at *
  have h1 : |s| ≤ P * A := by
    have h3 : s = (s - S) + S := by ring
    rw [h3]
    refine (abs_add_le _ _).trans ?_
    linarith
  generalize hN : (l.length : ℚ) = n at *
  have hn0 : 0 < n := by linarith
  have habs : |s / n| = |s| / n := by rw [abs_div, abs_of_pos hn0]
  have h2 : |s / n| ≤ 2 ^ (1023 : ℤ) := by
    rw [habs]
    refine (div_le_self (abs_nonneg s) hq).trans ?_
    linarith
  refine ⟨ieee.rnd (s / n), round_top h2, ieee.isDouble _, ?_⟩
  have h3 := near_rel_abs ieee h2
  rw [← ulp, ← speck, habs] at h3
  have e4 : ieee.rnd (s / n) - S / n = (ieee.rnd (s / n) - s / n) + (s - S) / n := by field_simp; ring
  have e5 : |(s - S) / n| ≤ (P - 1) * (A / n) := by
    rw [abs_div, abs_of_pos hn0, ← mul_div_assoc]
    exact div_le_div_of_nonneg_right he hn0.le
  have e6 : |s| / n ≤ P * (A / n) := by
    rw [← mul_div_assoc]
    exact div_le_div_of_nonneg_right h1 hn0.le
  rw [e4]
  refine (abs_add_le _ _).trans ?_
  have e7 : |s| / n * ulp ≤ P * (A / n) * ulp := mul_le_mul_of_nonneg_right e6 hu.le
  have e8 : (P * (1 + ulp) - 1) * (A / n) ≤ ((n + 1) * 2 ^ (-52 : ℤ)) * (A / n) :=
    mul_le_mul_of_nonneg_right (by linarith) (div_nonneg hA0 hn0.le)
  nlinarith

/-- Quotient of the sum of squares of differences. -/
theorem variance_err (l : List ℚ) (hd : ∀ x ∈ l, IsDouble x) (hn : 2 ≤ l.length) (hn' : l.length ≤ 2 ^ 50) {m : ℚ} (hm : IsDouble m)
    (hb : ∀ x ∈ l, |x - m| ≤ 2 ^ 482) :
    ∃ v, ((l.map fun x => (Dbl.sub (.num x) (.num m)).mul (Dbl.sub (.num x) (.num m))).foldl Dbl.add (.num 0)).div (.ofNat (l.length - 1)) = .num v ∧
      IsDouble v ∧ 0 ≤ v ∧
      |v - (l.map fun x => (x - m) ^ 2).sum / (l.length - 1)| ≤
        (l.length + 4) * 2 ^ (-52 : ℤ) * ((l.map fun x => (x - m) ^ 2).sum / (l.length - 1)) + 5 * speck := by
  have hu := ulp_pos
  have ht := speck_pos
  have hu1 : ulp ≤ 1 := by norm_num [ulp]
  have ht1 : speck ≤ 1 := zpow_le_one_of_nonpos₀ (by norm_num) (by norm_num)
  obtain ⟨f, hf⟩ := map_choose l (fun x => (Dbl.sub (.num x) (.num m)).mul (Dbl.sub (.num x) (.num m)))
    (fun x q => IsDouble q ∧ 0 ≤ q ∧ |q - (x - m) ^ 2| ≤ ((1 + ulp) ^ 3 - 1) * (x - m) ^ 2 + speck)
    (fun x hx => square_err (hd x hx) hm (hb x hx))
  rw [fold_map_num l _ f (fun x hx => (hf x hx).1)]
  have habs : (l.map f).map abs = l.map f := by
    rw [List.map_map]
    refine List.map_congr_left fun x hx => abs_of_nonneg (hf x hx).2.2.1
  have hsum := sum_near l f (fun x => (x - m) ^ 2) _ speck (fun x hx => (hf x hx).2.2.2)
  have hE0 : 0 ≤ (l.map fun x => (x - m) ^ 2).sum :=
    List.sum_nonneg (by simp only [List.mem_map]; rintro y ⟨z, -, rfl⟩; positivity)
  have hE1 := sum_le_count l (fun x => (x - m) ^ 2) ((2 ^ 482) ^ 2) (fun x hx => by
    rw [← sq_abs]
    exact pow_le_pow_left₀ (abs_nonneg _) (hb x hx) 2)
  have hF0 : 0 ≤ (l.map f).sum :=
    List.sum_nonneg (by simp only [List.mem_map]; rintro y ⟨z, hz, rfl⟩; exact (hf z hz).2.2.1)
  have key := sum_err (l.map f)
  rw [habs, List.length_map] at key
  obtain ⟨hp1, hp2⟩ := pow_ulp_small (k := l.length) (hn'.trans (by norm_num))
  obtain ⟨hp3, hp4⟩ := pow_ulp_small (k := l.length + 4) (by omega)
  have hge1 : 1 ≤ (1 + ulp) ^ l.length := one_le_pow₀ (by linarith)
  have hN : (l.length : ℚ) ≤ 2 ^ 50 := by exact_mod_cast hn'
  have hN2 : (2 : ℚ) ≤ l.length := by exact_mod_cast hn
  have hof : Dbl.ofNat (l.length - 1) = .num ((l.length : ℚ) - 1) := by
    rw [ofNat_small (by omega), Nat.cast_sub (by omega), Nat.cast_one]
  rw [pow_add] at hp3 hp4
  push_cast at hp3
  generalize (l.map fun x => (x - m) ^ 2).sum = E at *
  generalize hFd : (l.map f).sum = F at *
  have hF1 : F ≤ (1 + ulp) ^ 3 * E + l.length * speck := by
    have := (abs_le.1 hsum).2
    linarith
  have hEb : E ≤ 2 ^ 1014 := by
    refine hE1.trans ?_
    calc (l.length : ℚ) * (2 ^ 482) ^ 2 ≤ 2 ^ 50 * (2 ^ 482) ^ 2 := by gcongr
      _ = 2 ^ 1014 := by norm_num
  have hFb : F ≤ 2 ^ 1018 := by
    refine hF1.trans ?_
    calc (1 + ulp) ^ 3 * E + l.length * speck ≤ (1 + 1) ^ 3 * 2 ^ 1014 + 2 ^ 50 * 1 := by
          have h5 : (1 + ulp) ^ 3 ≤ (1 + 1) ^ 3 := pow_le_pow_left₀ (by linarith) (by linarith) 3
          exact add_le_add (mul_le_mul h5 hEb hE0 (by norm_num)) (mul_le_mul hN ht1 ht.le (by norm_num))
      _ ≤ 2 ^ 1018 := by norm_num
  obtain ⟨s, hs, hsd, he⟩ := key (by
      simp only [List.mem_map]
      rintro y ⟨z, hz, rfl⟩
      exact (hf z hz).2.1) (by
      refine le_trans ?_ (pow_le_top (k := 1019) (by norm_num))
      calc F * (1 + ulp) ^ l.length ≤ 2 ^ 1018 * 2 := mul_le_mul hFb hp2 (by positivity) (by positivity)
        _ = 2 ^ 1019 := by rw [← pow_succ])
  have hfold : ∀ (k : List ℚ) (a : Dbl), a.NonNeg → (∀ x ∈ k, 0 ≤ x) → (k.foldl (fun s x => Dbl.add s (.num x)) a).NonNeg := by
    intro k
    induction k with
    | nil => intro a h _; exact h
    | cons x t ih =>
      intro a h hk
      rw [List.foldl_cons]
      exact ih _ (add_nonneg' h (hk x (by simp))) fun d hd => hk d (by simp [hd])
  have hs0 : 0 ≤ s := by
    have := hfold (l.map f) (.num 0) (le_refl (0 : ℚ)) (by
      simp only [List.mem_map]
      rintro y ⟨z, hz, rfl⟩
      exact (hf z hz).2.2.1)
    rw [hs] at this
    exact this
  rw [hs, hof, div_num (by linarith)]
  generalize (l.length : ℚ) = n at *
  generalize (1 + ulp) ^ l.length = P at *
  have hlo := abs_le.1 he
  have hs1 : s ≤ P * F := by linarith [hlo.2]
  have hn1 : 0 < n - 1 := by linarith
  have hsn : |s / (n - 1)| = s / (n - 1) := abs_of_nonneg (div_nonneg hs0 hn1.le)
  have hlim : |s / (n - 1)| ≤ 2 ^ (1023 : ℤ) := by
    rw [hsn]
    refine (div_le_self hs0 (by linarith)).trans (hs1.trans (le_trans ?_ (pow_le_top (k := 1019) (by norm_num))))
    calc P * F ≤ 2 * 2 ^ 1018 := mul_le_mul hp2 hFb hF0 (by norm_num)
        _ = 2 ^ 1019 := by rw [← pow_succ']
  refine ⟨ieee.rnd (s / (n - 1)), round_top hlim, ieee.isDouble _, rnd_nonneg (div_nonneg hs0 hn1.le), ?_⟩
  have h3 := near_rel_abs ieee hlim
  rw [← ulp, ← speck, hsn] at h3
  -- the sum against the exact sum of squares
  have hSE : |s - E| ≤ (P * (1 + ulp) ^ 3 - 1) * E + P * (n * speck) := by
    have e1 : s - E = (s - F) + (F - E) := by ring
    rw [e1]
    refine (abs_add_le _ _).trans ?_
    have h4 : (P - 1) * F ≤ (P - 1) * ((1 + ulp) ^ 3 * E + n * speck) := mul_le_mul_of_nonneg_left hF1 (by linarith)
    linarith
  have hs2 : s ≤ P * (1 + ulp) ^ 3 * E + P * (n * speck) := by
    have := (abs_le.1 hSE).2
    linarith
  have e2 : ieee.rnd (s / (n - 1)) - E / (n - 1) = (ieee.rnd (s / (n - 1)) - s / (n - 1)) + (s - E) / (n - 1) := by field_simp; ring
  rw [e2]
  refine (abs_add_le _ _).trans ?_
  have hdivabs : |(s - E) / (n - 1)| = |s - E| / (n - 1) := by rw [abs_div, abs_of_pos hn1]
  rw [hdivabs]
  have h5 : s * ulp + |s - E| ≤ (P * (1 + ulp) ^ 4 - 1) * E + (1 + ulp) * P * (n * speck) := by
    have h6 : s * ulp ≤ (P * (1 + ulp) ^ 3 * E + P * (n * speck)) * ulp := mul_le_mul_of_nonneg_right hs2 hu.le
    have h7 : (P * (1 + ulp) ^ 4 - 1) * E + (1 + ulp) * P * (n * speck) =
      (P * (1 + ulp) ^ 3 * E + P * (n * speck)) * ulp + ((P * (1 + ulp) ^ 3 - 1) * E + P * (n * speck)) := by ring
    rw [h7]
    linarith
  have h8 : (P * (1 + ulp) ^ 4 - 1) * E ≤ ((n + 4) * 2 ^ (-52 : ℤ)) * E := mul_le_mul_of_nonneg_right (by linarith) hE0
  have h9 : (1 + ulp) * P * (n * speck) ≤ 4 * speck * (n - 1) := by
    have h10 : (1 + ulp) * P ≤ P * (1 + ulp) ^ 4 := by
      rw [mul_comm]
      refine mul_le_mul_of_nonneg_left ?_ (by linarith)
      calc (1 + ulp) = (1 + ulp) ^ 1 := (pow_one _).symm
        _ ≤ (1 + ulp) ^ 4 := pow_le_pow_right₀ (by linarith) (by norm_num)
    have h11 : (1 + ulp) * P ≤ 2 := h10.trans hp4
    have h12 : (1 + ulp) * P * (n * speck) ≤ 2 * (n * speck) := mul_le_mul_of_nonneg_right h11 (by positivity)
    nlinarith
  have h13 : s / (n - 1) * ulp + |s - E| / (n - 1) ≤ (((n + 4) * 2 ^ (-52 : ℤ)) * E + 4 * speck * (n - 1)) / (n - 1) := by
    rw [div_mul_eq_mul_div, ← add_div]
    exact div_le_div_of_nonneg_right (by linarith) hn1.le
  have h14 : (((n + 4) * 2 ^ (-52 : ℤ)) * E + 4 * speck * (n - 1)) / (n - 1) = (n + 4) * 2 ^ (-52 : ℤ) * (E / (n - 1)) + 4 * speck := by
    field_simp
  linarith

theorem single_bound {n : Nat} (h : n < FloatFmt.single.infinity) : FloatFmt.single.value n ≤ 2 ^ 480 := by
  have hl : FloatFmt.single.lowest = -149 := by norm_num [lowest, single]
  have hi : FloatFmt.single.infinity = 255 * 2 ^ 23 := by norm_num [infinity, single]
  rw [hi] at h
  have hu : FloatFmt.single.units n ≤ 2 ^ 24 * 2 ^ 254 := by
    unfold FloatFmt.units
    rw [show FloatFmt.single.frac = 23 from rfl]
    have hq : n / 2 ^ 23 < 255 := Nat.div_lt_of_lt_mul (by omega)
    split
    · have : n < 2 ^ 24 * 2 ^ 254 := h.trans (by norm_num)
      exact this.le
    · have hm : n % 2 ^ 23 < 2 ^ 23 := Nat.mod_lt _ (by norm_num)
      exact Nat.mul_le_mul (by omega) (Nat.pow_le_pow_right (by norm_num) (by omega))
  have hu' : (FloatFmt.single.units n : ℚ) ≤ 2 ^ 24 * 2 ^ 254 := by exact_mod_cast hu
  rw [show FloatFmt.single.value n = FloatFmt.single.units n * 2 ^ FloatFmt.single.lowest by rw [FloatFmt.value], hl]
  calc (FloatFmt.single.units n : ℚ) * 2 ^ (-149 : ℤ) ≤ 2 ^ 24 * 2 ^ 254 * 2 ^ (-149 : ℤ) := mul_le_mul_of_nonneg_right hu' (two_zpow_pos _).le
    _ ≤ 2 ^ 480 := by norm_num

/-- Only 64 bit floating point pixels can be large. -/
theorem number_bound {b : Bitpix} (hb : b ≠ .F64) {p : BitVec (8 * b.size)} {x : ℚ} (h : b.number p = .num x) : |x| ≤ 2 ^ 480 := by
  have ints : ∀ {w : Nat} (p : BitVec w), w ≤ 32 → |(p.toInt : ℚ)| ≤ 2 ^ 480 := by
    intro w p hw
    have h1 := BitVec.toInt_lt (x := p)
    have h2 := BitVec.le_toInt (x := p)
    have h3 : (2 : ℤ) ^ (w - 1) ≤ 2 ^ 480 := pow_le_pow_right₀ (by norm_num) (by omega)
    have h4 : |p.toInt| ≤ 2 ^ 480 := by
      rw [abs_le]
      constructor <;> linarith
    exact_mod_cast h4
  cases b with
  | F32 =>
    obtain ⟨neg, n, hn, e⟩ := signed_cases .single (single_bits p)
    rw [show Bitpix.F32.number p = FloatFmt.single.number p.toNat from rfl, e, number_signed _ _ hn] at h
    split at h
    · next h1 =>
      have h2 := single_bound h1
      have h3 := value_nonneg .single n
      cases neg
      · simp at h; rw [← h, abs_of_nonneg h3]; exact h2
      · simp at h; rw [← h, abs_neg, abs_of_nonneg h3]; exact h2
    · split at h <;> simp at h
  | F64 => exact absurd rfl hb
  | B8 =>
    have e : x = _ := (Dbl.num.inj h).symm
    rw [e]
    exact ints (w := 8) p (by norm_num)
  | B16 =>
    have e : x = _ := (Dbl.num.inj h).symm
    rw [e]
    exact ints (w := 16) p (by norm_num)
  | B32 =>
    have e : x = _ := (Dbl.num.inj h).symm
    rw [e]
    exact ints (w := 32) p (by norm_num)

/-- Squares of differences from the mean and from another number. -/
theorem spread_shift (l : List ℚ) (h : l ≠ []) (m : ℚ) :
    (l.map fun x => (x - m) ^ 2).sum = (l.map fun x => (x - l.sum / l.length) ^ 2).sum + l.length * (m - l.sum / l.length) ^ 2 := by
  have hpos : (0 : ℚ) < l.length := by exact_mod_cast List.length_pos_iff.2 h
  have e : ∀ (k : List ℚ) (a : ℚ), (k.map fun x => (x - a) ^ 2).sum = (k.map fun x => x ^ 2).sum - 2 * a * k.sum + k.length * a ^ 2 := by
    intro k a
    induction k with
    | nil => simp
    | cons x t ih =>
      simp only [List.map_cons, List.sum_cons, List.length_cons, ih]
      push_cast
      ring
  rw [e, e]
  field_simp
  ring

end Astro
