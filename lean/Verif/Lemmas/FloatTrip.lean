import Verif.Lemmas.FloatShow

/-
Helper lemmas: a floating point number printed and read again.
-/

namespace Astro

open Spec FloatFmt

/-- Neighbouring numbers with at least `K` units differ by at most one part in `K`. -/
theorem units_gap (f : FloatFmt) {m K : Nat} (hm : K ≤ m) (hK : K ≤ 2 ^ f.frac) : f.units (m + 1) * K ≤ f.units m * (K + 1) := by
  have hp : 0 < 2 ^ f.frac := Nat.two_pow_pos _
  have h2 : 2 ^ (f.frac + 1) = 2 ^ f.frac * 2 := Nat.pow_succ 2 f.frac
  by_cases h : m < 2 ^ f.frac
  · have e1 := units_of f (m := m) (k := 0) (Or.inl rfl) (by omega)
    have e2 := units_of f (m := m + 1) (k := 0) (Or.inl rfl) (by omega)
    simp only [Nat.zero_mul, Nat.add_zero, Nat.pow_zero, Nat.mul_one] at e1 e2
    rw [e1, e2, Nat.add_mul, Nat.mul_add]
    omega
  · have hd := Nat.div_add_mod m (2 ^ f.frac)
    have hm' := Nat.mod_lt m hp
    have hq : 1 ≤ m / 2 ^ f.frac := (Nat.one_le_div_iff hp).2 (by omega)
    obtain ⟨k, hk⟩ : ∃ k, m / 2 ^ f.frac = k + 1 := ⟨m / 2 ^ f.frac - 1, by omega⟩
    have em : m = (2 ^ f.frac + m % 2 ^ f.frac) + k * 2 ^ f.frac := by
      rw [hk, Nat.mul_add, Nat.mul_one, Nat.mul_comm] at hd
      omega
    have e1 := units_of f (m := 2 ^ f.frac + m % 2 ^ f.frac) (k := k) (Or.inr (by omega)) (by omega)
    have e2 := units_of f (m := 2 ^ f.frac + m % 2 ^ f.frac + 1) (k := k) (Or.inr (by omega)) (by omega)
    rw [← em] at e1
    rw [Nat.add_right_comm, ← em] at e2
    rw [e1, e2]
    have hMK : K ≤ 2 ^ f.frac + m % 2 ^ f.frac := hK.trans (Nat.le_add_right _ _)
    generalize 2 ^ f.frac + m % 2 ^ f.frac = M at *
    calc (M + 1) * 2 ^ k * K = (M * K + K) * 2 ^ k := by ring
      _ ≤ (M * K + M) * 2 ^ k := Nat.mul_le_mul_right _ (by omega)
      _ = M * 2 ^ k * (K + 1) := by ring

theorem value_gap (f : FloatFmt) {m K : Nat} (hm : K ≤ m) (hK : K ≤ 2 ^ f.frac) : (f.value (m + 1) - f.value m) * K ≤ f.value m := by
  have h := units_gap f hm hK
  have h' : (f.units (m + 1) : ℚ) * K ≤ f.units m * (K + 1) := by exact_mod_cast h
  unfold value
  have hU := two_zpow_pos f.lowest
  generalize (2 : ℚ) ^ f.lowest = U at *
  nlinarith

/-- The closest number, without regard to overflow. -/
theorem nearest_le {f : FloatFmt} (hf : 1 ≤ f.frac) {q : ℚ} (hq : 0 ≤ q) {n : Nat} (h : f.nearest q = some n) (m : Nat) :
    |f.value n - q| ≤ |f.value m - q| := by
  have h1 := nearest_bits hf hq m
  unfold nearest at h
  simp only at h
  split at h
  · rw [← Option.some.inj h]
    exact h1.1
  · cases h

/-- Relative error of rounding to the closest number. -/
theorem nearest_error {f : FloatFmt} (hf : 1 ≤ f.frac) {w : ℚ} (hw : 0 ≤ w) {m K : Nat} (h : f.nearest w = some m) (hm : K < m) (hK : K ≤ 2 ^ f.frac) :
    |f.value m - w| * (2 * K) ≤ w := by
  obtain ⟨p, rfl⟩ : ∃ p, m = p + 1 := ⟨m - 1, by omega⟩
  rcases le_total (f.value (p + 1)) w with hc | hc
  · have h1 := nearest_le hf hw h (p + 1 + 1)
    have h2 := value_strictMono f (Nat.lt_succ_self (p + 1))
    have h3 := value_gap f hm.le hK
    rw [abs_sub_comm, abs_of_nonneg (by linarith)] at h1 ⊢
    rcases le_total w (f.value (p + 1 + 1)) with h4 | h4
    · rw [abs_of_nonneg (by linarith)] at h1
      have hK0 : (0 : ℚ) ≤ K := by positivity
      nlinarith
    · rw [abs_of_nonpos (by linarith)] at h1
      simp only [Nat.succ_eq_add_one] at h2
      linarith
  · have h1 := nearest_le hf hw h p
    have h2 := value_strictMono f (Nat.lt_succ_self p)
    have h3 := value_gap f (Nat.le_of_lt_succ hm) hK
    rw [abs_of_nonneg (by linarith)] at h1 ⊢
    rcases le_total (f.value p) w with h4 | h4
    · rw [abs_of_nonpos (by linarith)] at h1
      have hK0 : (0 : ℚ) ≤ K := by positivity
      nlinarith
    · rw [abs_of_nonneg (by linarith)] at h1
      simp only [Nat.succ_eq_add_one] at h2
      linarith

theorem value_pos (f : FloatFmt) {m : Nat} (h : 0 < m) : 0 < f.value m := (value_nonneg f 0).trans_lt (value_strictMono f h)

theorem value_zero (f : FloatFmt) : f.value 0 = 0 := by simp [value, units]

/-- A six digit number survives being read and printed. -/
theorem sixValue_nearest {f : FloatFmt} (hf : 1000001 ≤ 2 ^ f.frac) {w : ℚ} (h0 : 0 ≤ w) (hw : SixDigits w) {m : Nat}
    (h : f.nearest w = some m) (hm : 1000001 < m) : sixValue (f.value m) = w := by
  have hf1 : 1 ≤ f.frac := by
    by_contra hc
    rw [show f.frac = 0 by omega] at hf
    norm_num at hf
  have he := nearest_error hf1 h0 h hm hf
  have hv := value_pos f (show 0 < m by omega)
  rcases h0.eq_or_lt with rfl | h0
  · exfalso
    have := nearest_le hf1 le_rfl h 0
    rw [value_zero, sub_self, abs_zero, sub_zero, abs_of_pos hv] at this
    linarith
  · apply sixValue_of_near hv hw
    push_cast at he
    have := abs_nonneg (f.value m - w)
    rw [lt_div_iff₀ (by norm_num)]
    rcases this.eq_or_lt with e | e
    · rw [← e]; linarith
    · linarith

/-- Printing and reading changes a number by at most one part in 100000. -/
theorem trip_error {f : FloatFmt} (hf : 1 ≤ f.frac) {m m' : Nat} (h : f.nearest (sixValue (f.value m)) = some m') :
    |f.value m' - f.value m| ≤ f.value m / 100000 := by
  have hv := value_nonneg f m
  have he := sixValue_error hv
  have hs : 0 ≤ sixValue (f.value m) := numeral_nonneg (showG_numeral hv)
  have h1 := nearest_le hf hs h m
  have h2 := abs_sub_le (f.value m') (sixValue (f.value m)) (f.value m)
  rw [abs_sub_comm (f.value m)] at h1
  linarith

/-- Largest printed number. -/
theorem sixValue_le {v M : ℚ} {c : Nat} {X : ℤ} (hv : 0 ≤ v) (hM : v ≤ M) (h1 : M < 10 ^ (X + 1))
    (h2 : M + 10 ^ (X - 5) / 2 < (c + 1) * 10 ^ (X - 5)) (h3 : (10 : ℚ) ^ X ≤ c * 10 ^ (X - 5)) : sixValue v ≤ c * 10 ^ (X - 5) := by
  rcases hv.eq_or_lt with rfl | hv
  · rw [sixValue_zero]
    exact (ten_zpow_pos X).le.trans h3
  have hx : Int.log 10 v ≤ X := by
    have := (Int.lt_zpow_iff_log_lt (b := 10) (x := X + 1) (by norm_num) hv).1 (by push_cast; linarith)
    omega
  obtain ⟨b1, b2⟩ := mantissa_bounds hv
  have hn := abs_le.1 (roundEven_near (v / 10 ^ (Int.log 10 v - 5)))
  have hy0 : 0 ≤ v / 10 ^ (Int.log 10 v - 5) := by linarith
  have hU := ten_zpow_pos (Int.log 10 v - 5)
  have hr := roundEven_le (n := 1000000) (x := v / 10 ^ (Int.log 10 v - 5)) (by exact_mod_cast b2.le)
  rw [sixValue_eq hv, roundEven_cast hy0]
  rcases hx.eq_or_lt with rfl | e
  · generalize (10 : ℚ) ^ (Int.log 10 v - 5) = U at *
    have h4 : (roundEven (v / U) : ℚ) < c + 1 := by
      have h5 : v / U + 1 / 2 < c + 1 := by
        rw [← mul_lt_mul_iff_left₀ hU, add_mul, div_mul_cancel₀ _ hU.ne']
        linarith
      linarith
    have h5 : roundEven (v / U) < (c : ℤ) + 1 := by exact_mod_cast h4
    have h6 : (roundEven (v / U) : ℚ) ≤ c := by exact_mod_cast Int.lt_add_one_iff.1 h5
    exact mul_le_mul_of_nonneg_right h6 hU.le
  · refine le_trans ?_ h3
    have h4 : (roundEven (v / 10 ^ (Int.log 10 v - 5)) : ℚ) ≤ 1000000 := by exact_mod_cast hr
    calc (roundEven (v / 10 ^ (Int.log 10 v - 5)) : ℚ) * 10 ^ (Int.log 10 v - 5)
        ≤ 1000000 * 10 ^ (Int.log 10 v - 5) := mul_le_mul_of_nonneg_right h4 hU.le
      _ = 10 ^ (Int.log 10 v + 1) := by
        rw [show (1000000 : ℚ) = 10 ^ (6 : ℤ) by norm_num, ← zpow_add₀ (by norm_num)]
        congr 1; ring
      _ ≤ 10 ^ X := zpow_le_zpow_right₀ (by norm_num) (by omega)

/-- The two formats of C++. -/
def Cpp (f : FloatFmt) : Prop := f = .single ∨ f = .double

theorem Cpp.facts {f : FloatFmt} (hf : Cpp f) : 1 ≤ f.frac ∧ 2 ≤ f.expo ∧ 1000001 ≤ 2 ^ f.frac := by
  rcases hf with rfl | rfl <;> decide

theorem value_infinity_single : FloatFmt.single.value FloatFmt.single.infinity = 2 ^ 128 := by
  norm_num [FloatFmt.value, units, infinity, lowest, single]

set_option exponentiation.threshold 3000

theorem value_infinity_double : FloatFmt.double.value FloatFmt.double.infinity = 2 ^ 1024 := by
  norm_num [FloatFmt.value, units, infinity, lowest, double]

theorem limit_single : limit .single = 340282356779733661637539395458142568448 := by
  norm_num [limit, single]

theorem limit_double : 17976931348623158 * 10 ^ 292 ≤ limit .double := by
  norm_num [limit, double]

/-- The printed number is never too large to be read. -/
theorem sixValue_lt_limit {f : FloatFmt} (hf : Cpp f) {m : Nat} (hm : m < f.infinity) : sixValue (f.value m) < limit f := by
  have hv := value_nonneg f m
  have hlt := value_strictMono f hm
  rcases hf with rfl | rfl
  · rw [value_infinity_single] at hlt
    have h := sixValue_le (M := 2 ^ 128) (c := 340282) (X := 38) hv hlt.le (by norm_num) (by norm_num) (by norm_num)
    rw [limit_single]
    exact h.trans_lt (by norm_num)
  · rw [value_infinity_double] at hlt
    have h := sixValue_le (M := 2 ^ 1024) (c := 179769) (X := 308) hv hlt.le (by norm_num) (by norm_num) (by norm_num)
    refine (h.trans_lt ?_).trans_le limit_double
    norm_num

theorem value_one (f : FloatFmt) (hf : 1 ≤ f.frac) : f.value 1 = 2 ^ f.lowest := by
  unfold value units
  rw [if_pos (Nat.div_eq_of_lt (Nat.one_lt_two_pow (by omega)))]
  simp

/-- Decimal exponents have at most three digits. -/
theorem sixDigits_exponent {f : FloatFmt} (hf : Cpp f) {m : Nat} (hm : m < f.infinity) : (sixDigits (f.value m)).2.natAbs < 1000 := by
  have hlog : Int.log 10 (f.value m) < 400 ∧ -400 ≤ Int.log 10 (f.value m) := by
    rcases Nat.eq_zero_or_pos m with rfl | h0
    · rw [value_zero]; simp
    have hp := value_pos f h0
    have hlt := value_strictMono f hm
    have hge : f.value 1 ≤ f.value m := by
      rcases Nat.lt_or_ge 1 m with h | h
      · exact (value_strictMono f h).le
      · rw [show m = 1 by omega]
    rw [value_one f hf.facts.1] at hge
    constructor
    · apply (Int.lt_zpow_iff_log_lt (b := 10) (by norm_num) hp).1
      refine hlt.trans ?_
      rcases hf with rfl | rfl
      · rw [value_infinity_single]; norm_num
      · rw [value_infinity_double]; norm_num
    · apply (Int.zpow_le_iff_le_log (b := 10) (by norm_num) hp).1
      refine le_trans ?_ hge
      rcases hf with rfl | rfl
      · norm_num [lowest, single]
      · norm_num [lowest, double]
  rcases sixDigits_exp (v := f.value m) with h | h <;> rw [h] <;> omega

/-! ### what is printed -/

theorem closestSix_unique {q w w' : ℚ} (h : ClosestSix q w) (h' : ClosestSix q w') : w = w' := by
  have key : ∀ {w w' : ℚ}, ClosestSix q w → ClosestSix q w' → ¬ w < w' := by
    rintro w w' ⟨d, t, hw, hd, hc⟩ ⟨d', t', hw', hd', hc'⟩ hlt
    have s0 : SixDigits 0 := ⟨0, 0, by norm_num, by norm_num⟩
    rcases hd with ⟨hq, rfl⟩ | hd
    · rcases hd' with ⟨_, rfl⟩ | hd'
      · rw [hw, hw'] at hlt; simp at hlt
      · have h1 := (hc' 0 s0).1
        rw [hq, sub_self, abs_zero, sub_zero] at h1
        have h2 := abs_nonpos_iff.1 h1
        rw [hw] at hlt
        simp at hlt
        linarith
    rcases hd' with ⟨hq, rfl⟩ | hd'
    · rw [hw'] at hlt
      have : 0 ≤ w := by rw [hw]; exact mul_nonneg (by positivity) (ten_zpow_pos _).le
      simp at hlt
      linarith
    have sw : SixDigits w := ⟨d, t, hd.2, hw⟩
    have sw' : SixDigits w' := ⟨d', t', hd'.2, hw'⟩
    have e : |w - q| = |w' - q| := le_antisymm (hc w' sw').1 (hc' w sw).1
    have ev : 2 ∣ d := by
      rcases (hc w' sw').2 e with h | h
      · exact absurd h hlt.ne'
      · exact h
    have ev' : 2 ∣ d' := by
      rcases (hc' w sw).2 e.symm with h | h
      · exact absurd h hlt.ne
      · exact h
    have hT := ten_zpow_pos t
    have hT' := ten_zpow_pos t'
    have q1 : (d : ℚ) + 1 ≤ 999999 := by
      have h2 : d < 10 ^ 6 := hd.2
      have : d + 1 ≤ 999999 := by omega
      exact_mod_cast this
    have q2 : (100000 : ℚ) ≤ d := by exact_mod_cast hd.1
    have q3 : (100000 : ℚ) ≤ d' := by exact_mod_cast hd'.1
    have q4 : (d' : ℚ) < 1000000 := by exact_mod_cast hd'.2
    -- the next number of six digits lies strictly between
    have mid : ((d : ℚ) + 1) * 10 ^ t < w' := by
      rw [hw']
      rcases lt_trichotomy t t' with ht | rfl | ht
      · have a : (10 : ℚ) ^ (t + 1) ≤ 10 ^ t' := zpow_le_zpow_right₀ (by norm_num) (by omega)
        rw [ten_zpow_succ] at a
        have b : ((d : ℚ) + 1) * 10 ^ t ≤ 999999 * 10 ^ t := mul_le_mul_of_nonneg_right q1 hT.le
        have c : 100000 * (10 : ℚ) ^ t' ≤ d' * 10 ^ t' := mul_le_mul_of_nonneg_right q3 hT'.le
        linarith
      · rw [hw, hw'] at hlt
        have h1 : (d : ℚ) < d' := lt_of_mul_lt_mul_right hlt hT.le
        have h2 : d < d' := by exact_mod_cast h1
        have h3 : d + 1 < d' := by omega
        have h4 : (d : ℚ) + 1 < d' := by exact_mod_cast h3
        exact mul_lt_mul_of_pos_right h4 hT
      · exfalso
        have a : (10 : ℚ) ^ (t' + 1) ≤ 10 ^ t := zpow_le_zpow_right₀ (by norm_num) (by omega)
        rw [ten_zpow_succ] at a
        have b : (d' : ℚ) * 10 ^ t' < 1000000 * 10 ^ t' := mul_lt_mul_of_pos_right q4 hT'
        have c : 100000 * (10 : ℚ) ^ t ≤ d * 10 ^ t := mul_le_mul_of_nonneg_right q2 hT.le
        rw [hw, hw'] at hlt
        linarith
    have sm : SixDigits (((d : ℚ) + 1) * 10 ^ t) := ⟨d + 1, t, by have h2 : d < 10 ^ 6 := hd.2; omega, by push_cast; rfl⟩
    have lo : w < ((d : ℚ) + 1) * 10 ^ t := by rw [hw]; linarith
    have hm := (hc _ sm).1
    have hq : q = (w + w') / 2 := by
      rcases abs_eq_abs.1 e with e | e <;> linarith
    rw [hq] at hm
    rw [abs_of_nonpos (by linarith)] at hm
    rcases abs_cases (((d : ℚ) + 1) * 10 ^ t - (w + w') / 2) with ⟨e1, _⟩ | ⟨e1, _⟩ <;> rw [e1] at hm <;> linarith
  rcases lt_trichotomy w w' with h1 | h1 | h1
  · exact absurd h1 (key h h')
  · exact h1
  · exact absurd h1 (key h' h)

theorem closestSix_zero : ClosestSix 0 0 :=
  ⟨0, 0, by norm_num, Or.inl ⟨rfl, rfl⟩, fun w' _ => ⟨by simp, fun _ => Or.inr ⟨0, rfl⟩⟩⟩

theorem closestSix_sixValue {v : ℚ} (hv : 0 ≤ v) : ClosestSix v (sixValue v) := by
  rcases hv.eq_or_lt with rfl | hv
  · rw [sixValue_zero]; exact closestSix_zero
  · exact sixValue_closest hv

theorem mantissa_plain {a r : Str} {n : Nat} (ha : IsNat a n) (hd : ∀ c ∈ r, 48 ≤ c.toNat ∧ c.toNat ≤ 57) :
    Plain (a ++ fraction r) (positional (a ++ r) / 10 ^ r.length) := by
  obtain ⟨t, k, h, hl, h'⟩ := fraction_spec r
  refine ⟨n, a, t, ha, fun c hc => hd c (by rw [h]; exact List.mem_append_left _ hc), hl, by rw [h'], ?_⟩
  rw [h, ← List.append_assoc, positional_tail, positional_append, ha.2.1, List.length_append, List.length_replicate, pow_add]
  push_cast
  field_simp

theorem take_isNat {s : Str} {d k : Nat} (hs : IsNat s d) (hl : 1 < s.length) (hk : 0 < k) : IsNat (s.take k) (positional (s.take k)) := by
  obtain ⟨⟨h1, h2⟩, -, h4⟩ := hs
  have hne : s.take k ≠ [] := by
    intro e
    rcases List.take_eq_nil_iff.1 e with h | h
    · omega
    · exact h1 h
  refine ⟨⟨hne, fun c hc => h2 c (List.mem_of_mem_take hc)⟩, rfl, fun h => ?_⟩
  rw [List.head?_take, if_neg (by omega)] at h
  rw [h4 h] at hl
  simp at hl

theorem showG_general {v : ℚ} (hv : 0 ≤ v) : General (showG v) (sixValue v) := by
  rcases hv.eq_or_lt with rfl | hv
  · rw [sixValue_zero]
    refine Or.inl ⟨⟨0, b!"0", [], ⟨⟨by decide, by decide⟩, by decide, by decide⟩, by simp, by simp, ?_, by norm_num [positional]⟩, Or.inl rfl⟩
    rw [showG, if_pos rfl]; rfl
  obtain ⟨s, x, hs, hx, hl, h⟩ := showG_cases hv
  have hn := showNat_isNat (sixDigits v).1
  obtain ⟨b1, b2⟩ := sixDigits_bounds hv
  rw [hs] at hn
  have hd := hn.1.2
  have hp := hn.2.1
  have q1 : (100000 : ℚ) ≤ (sixDigits v).1 := by exact_mod_cast b1
  have q2 : ((sixDigits v).1 : ℚ) < 1000000 := by exact_mod_cast b2
  have hval : sixValue v = (sixDigits v).1 * 10 ^ (x - 5) := by unfold sixValue; rw [hx]
  have hval' : sixValue v = ((sixDigits v).1 : ℚ) / 100000 * 10 ^ x := by
    rw [hval, zpow_sub₀ (by norm_num)]
    norm_num
    ring
  have y1 : (1 : ℚ) ≤ ((sixDigits v).1 : ℚ) / 100000 := by rw [le_div_iff₀ (by norm_num)]; linarith
  have y2 : ((sixDigits v).1 : ℚ) / 100000 < 10 := by rw [div_lt_iff₀ (by norm_num)]; linarith
  have lower : ∀ k : ℤ, k ≤ x → (10 : ℚ) ^ k ≤ sixValue v := by
    intro k hk
    rw [hval']
    calc (10 : ℚ) ^ k ≤ 10 ^ x := zpow_le_zpow_right₀ (by norm_num) hk
      _ = 1 * 10 ^ x := (one_mul _).symm
      _ ≤ _ := mul_le_mul_of_nonneg_right y1 (ten_zpow_pos _).le
  have upper : ∀ k : ℤ, x < k → sixValue v < (10 : ℚ) ^ k := by
    intro k hk
    rw [hval']
    calc _ < 10 * (10 : ℚ) ^ x := mul_lt_mul_of_pos_right y2 (ten_zpow_pos _)
      _ = 10 ^ (x + 1) := by rw [ten_zpow_succ]; ring
      _ ≤ _ := zpow_le_zpow_right₀ (by norm_num) hk
  rcases h with ⟨hc, h⟩ | ⟨hc, h⟩ | ⟨hc, h⟩ <;> rw [h]
  · refine Or.inr ⟨s.take 1 ++ fraction (s.drop 1), ((sixDigits v).1 : ℚ) / 100000, x, zeroPad 2 x.natAbs, ?_, ?_, y1, y2, ?_, hval', ?_⟩
    · simp only [List.append_assoc]
    · have := mantissa_plain (take_isNat hn (by omega) (k := 1) (by omega)) (r := s.drop 1) (fun c hc => hd c (List.mem_of_mem_drop hc))
      rw [List.take_append_drop, hp, List.length_drop, hl, show (10 : ℚ) ^ (6 - 1) = 100000 by norm_num] at this
      exact this
    · have hz := showNat_isNat x.natAbs
      by_cases h10 : 10 ≤ x.natAbs
      · left
        have hlen : 2 ≤ (showNat x.natAbs).length := by
          by_contra hc
          have := (showNat_length_le 1 x.natAbs (by norm_num)).1 (by omega)
          omega
        rw [zeroPad, show 2 - (showNat x.natAbs).length = 0 by omega]
        exact ⟨hz, h10⟩
      · right
        have e := showNat_small (n := x.natAbs) (by omega)
        rw [zeroPad]
        rw [e] at hz ⊢
        exact ⟨_, rfl, hz⟩
    · rcases hc with hc | hc
      · left
        have := upper (-4) hc
        norm_num at this ⊢
        exact this
      · right
        have := lower 6 hc
        norm_num at this ⊢
        exact this
  · have z0 : IsNat b!"0" 0 := ⟨⟨by decide, by decide⟩, by decide, by decide⟩
    have := mantissa_plain z0 (r := List.replicate (x.natAbs - 1) 48 ++ s) (by
      intro c hc
      rcases List.mem_append.1 hc with hc | hc
      · rw [(List.mem_replicate.1 hc).2]; decide
      · exact hd c hc)
    have e1 : positional (b!"0" ++ (List.replicate (x.natAbs - 1) 48 ++ s)) = positional s := by
      have : b!"0" ++ (List.replicate (x.natAbs - 1) 48 ++ s) = List.replicate (x.natAbs - 1 + 1) 48 ++ s := by
        rw [List.replicate_succ]; rfl
      rw [this, positional_zeros]
    have e2 : (((List.replicate (x.natAbs - 1) (48 : Byte) ++ s).length : ℕ) : ℤ) = 5 - x := by
      rw [List.length_append, List.length_replicate, hl]
      omega
    rw [e1, hp, ← zpow_natCast, e2, div_eq_mul_inv, ← zpow_neg, neg_sub, ← hval] at this
    refine Or.inl ⟨this, Or.inr ⟨?_, ?_⟩⟩
    · have := lower (-4) hc.1
      norm_num at this ⊢
      exact this
    · have := upper 6 (by omega)
      norm_num at this ⊢
      exact this
  · have := mantissa_plain (take_isNat hn (by omega) (k := x.toNat + 1) (by omega)) (r := s.drop (x.toNat + 1)) (fun c hc => hd c (List.mem_of_mem_drop hc))
    have e2 : (((s.drop (x.toNat + 1)).length : ℕ) : ℤ) = 5 - x := by
      rw [List.length_drop, hl]
      omega
    rw [List.take_append_drop, hp, ← zpow_natCast, e2, div_eq_mul_inv, ← zpow_neg, neg_sub, ← hval] at this
    refine Or.inl ⟨this, Or.inr ⟨?_, ?_⟩⟩
    · have := lower (-4) (by omega)
      norm_num at this ⊢
      exact this
    · have := upper 6 (by omega)
      norm_num at this ⊢
      exact this

theorem infinity_lt (f : FloatFmt) : f.infinity < f.signBit := by
  unfold infinity signBit
  rw [pow_add, Nat.mul_comm]
  exact Nat.mul_lt_mul_of_pos_left (by have := Nat.two_pow_pos f.expo; omega) (Nat.two_pow_pos _)

theorem signed_cases (f : FloatFmt) {b : Nat} (hb : b < 2 * f.signBit) : ∃ neg n, n < f.signBit ∧ b = signed f neg n := by
  by_cases h : f.signBit ≤ b
  · refine ⟨true, b - f.signBit, by omega, ?_⟩
    unfold signed
    rw [if_pos rfl]
    show b = f.signBit + (b - f.signBit)
    omega
  · exact ⟨false, b, by omega, rfl⟩

theorem showFloat_signed (f : FloatFmt) (neg : Bool) {n : Nat} (hn : n < f.signBit) :
    showFloat f (signed f neg n) = (if neg then b!"-" else []) ++
      (if n < f.infinity then showG (f.value n) else if n = f.infinity then b!"inf" else b!"nan") := by
  have e : signed f neg n = if neg then f.signBit + n else n := rfl
  unfold showFloat
  rw [e]
  cases neg with
  | true =>
    simp only [if_true]
    rw [Nat.add_mod_left, Nat.mod_eq_of_lt hn, if_pos (Nat.le_add_right _ _)]
  | false =>
    simp only [Bool.false_eq_true, if_false]
    rw [Nat.mod_eq_of_lt hn, if_neg (by omega)]

theorem sign_text (neg : Bool) : Sign (if neg then b!"-" else []) neg := by
  cases neg
  · exact Or.inl ⟨rfl, rfl⟩
  · exact Or.inr (Or.inr ⟨rfl, rfl⟩)

theorem showFloat_prints (f : FloatFmt) {b : Nat} (hb : b < 2 * f.signBit) : Prints f b (showFloat f b) := by
  obtain ⟨neg, n, hn, rfl⟩ := signed_cases f hb
  refine ⟨neg, n, _, hn, rfl, showFloat_signed f neg hn, ?_⟩
  by_cases h1 : n < f.infinity
  · rw [if_pos h1]
    exact Or.inl ⟨_, _, magnitude_iff.2 ⟨h1, rfl⟩, closestSix_sixValue (value_nonneg f n), showG_general (value_nonneg f n)⟩
  · rw [if_neg h1]
    by_cases h2 : n = f.infinity
    · rw [if_pos h2]
      exact Or.inr (Or.inl ⟨h2, rfl⟩)
    · rw [if_neg h2]
      exact Or.inr (Or.inr ⟨by show f.infinity < n; omega, rfl⟩)

theorem numeral_chars {s : Str} {q : ℚ} (h : Numeral s q) :
    ∀ c ∈ s, (48 ≤ c.toNat ∧ c.toNat ≤ 57) ∨ c = 46 ∨ c = 101 ∨ c = 69 ∨ c = 43 ∨ c = 45 := by
  obtain ⟨a, p, b, x, e, rfl, hd, hp, hx, -⟩ := h
  intro c hc
  rcases List.mem_append.1 hc with hc | hc
  · rcases List.mem_append.1 hc with hc | hc
    · exact Or.inl (hd.2 c (List.mem_append_left _ hc))
    · rcases hp with ⟨rfl, -⟩ | rfl
      · cases hc
      · rcases List.mem_cons.1 hc with rfl | hc
        · exact Or.inr (Or.inl rfl)
        · exact Or.inl (hd.2 c (List.mem_append_right _ hc))
  · rcases hx with ⟨rfl, -⟩ | ⟨c', sg, d, neg, rfl, hc', hs, hd', -⟩
    · cases hc
    · rcases List.mem_append.1 hc with hc | hc
      · rcases List.mem_cons.1 hc with rfl | hc
        · rcases hc' with rfl | rfl <;> simp
        · rcases hs with ⟨rfl, -⟩ | ⟨rfl, -⟩ | ⟨rfl, -⟩
          · cases hc
          · rw [List.mem_singleton.1 hc]; simp
          · rw [List.mem_singleton.1 hc]; simp
      · exact Or.inl (hd'.2 c hc)

theorem showFloat_chars (f : FloatFmt) {b : Nat} (hb : b < 2 * f.signBit) : ∀ c ∈ showFloat f b, 43 ≤ c.toNat ∧ c ≠ 47 := by
  obtain ⟨neg, n, hn, rfl⟩ := signed_cases f hb
  rw [showFloat_signed f neg hn]
  intro c hc
  rcases List.mem_append.1 hc with hc | hc
  · cases neg
    · cases hc
    · rw [List.mem_singleton.1 hc]; decide
  · split at hc
    · rcases numeral_chars (showG_numeral (value_nonneg f n)) c hc with h | rfl | rfl | rfl | rfl | rfl
      · refine ⟨by omega, ?_⟩
        rintro rfl
        exact absurd h (by decide)
      all_goals decide
    · have h1 : ∀ c ∈ b!"inf", 43 ≤ c.toNat ∧ c ≠ 47 := by decide
      have h2 : ∀ c ∈ b!"nan", 43 ≤ c.toNat ∧ c ≠ 47 := by decide
      split at hc
      · exact h1 c hc
      · exact h2 c hc

theorem showFloat_ne_nil (f : FloatFmt) {b : Nat} (hb : b < 2 * f.signBit) : showFloat f b ≠ [] := by
  obtain ⟨neg, n, hn, rfl⟩ := signed_cases f hb
  rw [showFloat_signed f neg hn]
  intro e
  have := (List.append_eq_nil_iff.1 e).2
  split at this
  · obtain ⟨c, r, h, -⟩ := numeral_head (showG_numeral (value_nonneg f n))
    rw [this] at h
    cases h
  · split at this
    · exact absurd this (by decide)
    · exact absurd this (by decide)

theorem showFloat_length {f : FloatFmt} (hf : Cpp f) {b : Nat} (hb : b < 2 * f.signBit) : (showFloat f b).length ≤ 13 := by
  obtain ⟨neg, n, hn, rfl⟩ := signed_cases f hb
  rw [showFloat_signed f neg hn, List.length_append]
  have h1 : (if neg then b!"-" else []).length ≤ 1 := by cases neg <;> decide
  refine (Nat.add_le_add h1 (?_ : _ ≤ 12)).trans (by norm_num)
  split
  · next h => exact showG_length (value_nonneg f n) (sixDigits_exponent hf h)
  · split <;> decide

/-- A finite number, printed and read. -/
theorem scan_show {f : FloatFmt} (hf : Cpp f) (neg : Bool) {n : Nat} (hn : n < f.infinity) :
    ∃ n', f.nearest (sixValue (f.value n)) = some n' ∧ n' < f.infinity ∧
      scanFloat f (showFloat f (signed f neg n)) = some (signed f neg n') := by
  obtain ⟨h1, h2, -⟩ := hf.facts
  have hv := value_nonneg f n
  have hnum := showG_numeral hv
  have hlim := sixValue_lt_limit hf hn
  obtain ⟨n', e, hc⟩ := nearest_some h1 h2 (numeral_nonneg hnum) hlim
  refine ⟨n', e, ?_, ?_⟩
  · obtain ⟨x, hx, -⟩ := hc
    exact (magnitude_iff.1 hx).1
  · rw [scanFloat_iff h1 h2, showFloat_signed f neg (hn.trans (infinity_lt f)), if_pos hn]
    exact ⟨_, _, neg, n', rfl, sign_text neg, rfl, Or.inr ⟨_, hnum, hlim, hc⟩⟩

theorem word_refl (w : Str) : Word w w := List.forall₂_same.2 fun _ _ => Or.inl rfl

theorem scan_show_inf {f : FloatFmt} (hf : Cpp f) (neg : Bool) :
    scanFloat f (showFloat f (signed f neg f.infinity)) = some (signed f neg f.infinity) := by
  obtain ⟨h1, h2, -⟩ := hf.facts
  rw [scanFloat_iff h1 h2, showFloat_signed f neg (infinity_lt f), if_neg (lt_irrefl _), if_pos rfl]
  exact ⟨_, _, neg, _, rfl, sign_text neg, rfl, Or.inl (Or.inl ⟨Or.inl (word_refl _), rfl⟩)⟩

theorem scan_show_nan {f : FloatFmt} (hf : Cpp f) (neg : Bool) {n : Nat} (hn : n < f.signBit) (h : f.infinity < n) :
    scanFloat f (showFloat f (signed f neg n)) = some (signed f neg (f.infinity + 2 ^ (f.frac - 1))) := by
  obtain ⟨h1, h2, -⟩ := hf.facts
  rw [scanFloat_iff h1 h2, showFloat_signed f neg hn, if_neg (not_lt.2 h.le), if_neg h.ne']
  exact ⟨_, _, neg, _, rfl, sign_text neg, rfl, Or.inl (Or.inr ⟨b!"nan", [], rfl, word_refl _, Or.inl rfl, rfl⟩)⟩

theorem numeral_unique {s : Str} {q q' : ℚ} (h : Numeral s q) (h' : Numeral s q') : q = q' := by
  rw [← scanUnsigned_iff] at h h'
  exact Option.some.inj (h.symm.trans h')

theorem digits_numeral {s : Str} (h : AllDigits s) : Numeral s (positional s) :=
  ⟨s, [], [], [], 0, by simp, by simpa using h, Or.inl ⟨rfl, rfl⟩, Or.inl ⟨rfl, rfl⟩, by simp⟩

/-- Only digits are printed exactly for whole numbers below a million. -/
theorem showG_digits {v : ℚ} (hv : 0 ≤ v) : AllDigits (showG v) ↔ ∃ n : Nat, n < 1000000 ∧ sixValue v = n := by
  constructor
  · intro h
    have e := numeral_unique (showG_numeral hv) (digits_numeral h)
    refine ⟨positional (showG v), ?_, e⟩
    rcases hv.eq_or_lt with rfl | hv
    · rw [sixValue_zero] at e
      have : positional (showG 0) = 0 := by exact_mod_cast e.symm
      omega
    have hlt : sixValue v < 1000000 := by
      obtain ⟨s, x, hs, hx, hl, hh⟩ := showG_cases hv
      have b2 : ((sixDigits v).1 : ℚ) < 1000000 := by exact_mod_cast (sixDigits_bounds hv).2
      have fin : x < 6 → sixValue v < 1000000 := by
        intro hx6
        unfold sixValue
        rw [hx]
        calc ((sixDigits v).1 : ℚ) * 10 ^ (x - 5) < 1000000 * 10 ^ (x - 5) := mul_lt_mul_of_pos_right b2 (ten_zpow_pos _)
          _ ≤ 1000000 * 10 ^ (0 : ℤ) := mul_le_mul_of_nonneg_left (zpow_le_zpow_right₀ (by norm_num) (by omega)) (by norm_num)
          _ = 1000000 := by norm_num
      rcases hh with ⟨-, hh⟩ | ⟨hc, -⟩ | ⟨hc, -⟩
      · have hm : (101 : Byte) ∈ showG v := by rw [hh]; simp
        exact absurd (h.2 _ hm) (by decide)
      · exact fin (by omega)
      · exact fin (by omega)
    rw [e] at hlt
    exact_mod_cast hlt
  · rintro ⟨n, hn, e⟩
    rcases hv.eq_or_lt with rfl | hv
    · rw [showG, if_pos rfl]
      exact ⟨by decide, by decide⟩
    obtain ⟨s, x, hs, hx, hl, hh⟩ := showG_cases hv
    obtain ⟨b1, b2⟩ := sixDigits_bounds hv
    have q1 : (100000 : ℚ) ≤ (sixDigits v).1 := by exact_mod_cast b1
    have hval : ((sixDigits v).1 : ℚ) * 10 ^ (x - 5) = n := by rw [← e]; unfold sixValue; rw [hx]
    have hx0 : 0 ≤ x := by
      by_contra hc
      have h1 : (10 : ℚ) ^ (x - 5) ≤ 10 ^ (-6 : ℤ) := zpow_le_zpow_right₀ (by norm_num) (by omega)
      have b3 : ((sixDigits v).1 : ℚ) < 1000000 := by exact_mod_cast b2
      have h2 : (n : ℚ) < 1 := by
        rw [← hval]
        calc ((sixDigits v).1 : ℚ) * 10 ^ (x - 5) < 1000000 * 10 ^ (x - 5) := mul_lt_mul_of_pos_right b3 (ten_zpow_pos _)
          _ ≤ 1000000 * 10 ^ (-6 : ℤ) := mul_le_mul_of_nonneg_left h1 (by norm_num)
          _ = 1 := by norm_num
      have h3 : n = 0 := by
        have : n < 1 := by exact_mod_cast h2
        omega
      rw [h3] at hval
      have := mul_pos (show (0 : ℚ) < (sixDigits v).1 by linarith) (ten_zpow_pos (x - 5))
      rw [hval] at this
      simp at this
    have hx6 : x < 6 := by
      by_contra hc
      have h1 : (10 : ℚ) ^ (1 : ℤ) ≤ 10 ^ (x - 5) := zpow_le_zpow_right₀ (by norm_num) (by omega)
      have h2 : (1000000 : ℚ) ≤ n := by
        rw [← hval]
        calc (1000000 : ℚ) = 100000 * 10 ^ (1 : ℤ) := by norm_num
          _ ≤ _ := mul_le_mul q1 h1 (by norm_num) (by linarith)
      have h3 : 1000000 ≤ n := by exact_mod_cast h2
      omega
    obtain ⟨k, hk⟩ : ∃ k : Nat, x = 5 - k := ⟨(5 - x).toNat, by omega⟩
    have hnd : (sixDigits v).1 = n * 10 ^ k := by
      have h1 : ((sixDigits v).1 : ℚ) = n * 10 ^ k := by
        rw [← hval, hk, show (5 : ℤ) - k - 5 = -(k : ℤ) by ring, zpow_neg, zpow_natCast]
        field_simp
      exact_mod_cast h1
    have hn0 : n ≠ 0 := by
      rintro rfl
      rw [Nat.zero_mul] at hnd
      omega
    obtain ⟨⟨h1, h2⟩, h3, h4⟩ := showNat_isNat n
    have es : s = showNat n ++ List.replicate k 48 := by
      rw [← hs]
      refine (isNat_unique ⟨⟨by simp [h1], ?_⟩, ?_, ?_⟩).symm
      · intro c hc
        rcases List.mem_append.1 hc with hc | hc
        · exact h2 c hc
        · rw [(List.mem_replicate.1 hc).2]; decide
      · rw [positional_tail, h3, hnd]
      · intro hh
        exfalso
        rw [List.head?_append_of_ne_nil _ h1] at hh
        have e0 := h4 hh
        rw [e0] at h3
        have : positional [48] = 0 := by decide
        omega
    have hlen : (showNat n).length = x.toNat + 1 := by
      have := congrArg List.length es
      rw [hl, List.length_append, List.length_replicate] at this
      omega
    rcases hh with ⟨hc, -⟩ | ⟨hc, -⟩ | ⟨-, hh⟩
    · omega
    · omega
    · have ef : fraction (List.replicate k 48) = [] := by
        obtain ⟨t, j, g1, g2, g3⟩ := fraction_spec (List.replicate k 48)
        rw [g3]
        by_cases ht : t = []
        · rw [if_pos ht]
        · exfalso
          have hm : t.getLast ht ∈ List.replicate k (48 : Byte) := by
            rw [g1]; exact List.mem_append_left _ (List.getLast_mem ht)
          exact g2 _ (List.getLast?_eq_some_getLast ht) (List.mem_replicate.1 hm).2
      rw [hh, es, ← hlen, List.take_left', List.drop_left', ef, List.append_nil]
      · exact ⟨h1, h2⟩
      · rfl
      · rfl

theorem scanFloat_reads {f : FloatFmt} (hf : Cpp f) {s : Str} {b : Nat} : scanFloat f s = some b ↔ Reads f s b :=
  scanFloat_iff hf.facts.1 hf.facts.2.1

theorem reads_lt {f : FloatFmt} (hf : Cpp f) {s : Str} {b : Nat} (h : Reads f s b) : b < 2 * f.signBit := by
  obtain ⟨sg, r, neg, n, -, -, rfl, h⟩ := h
  have hn : n < f.signBit := by
    have hi := infinity_lt f
    have hs : f.infinity + 2 ^ (f.frac - 1) < f.signBit := by rcases hf with rfl | rfl <;> decide
    rcases h with h | ⟨q, -, -, x, hx, -⟩
    · rcases h with ⟨-, rfl⟩ | ⟨w, r, -, -, -, rfl⟩
      · exact hi
      · exact hs
    · exact (magnitude_iff.1 hx).1.trans hi
  have e : signed f neg n = if neg then f.signBit + n else n := rfl
  rw [e]
  split <;> omega

/-- Printed and read again. -/
theorem scan_show_reprinted {f : FloatFmt} (hf : Cpp f) {b : Nat} (hb : b < 2 * f.signBit) :
    ∃ b', scanFloat f (showFloat f b) = some b' ∧ Reprinted f b b' := by
  obtain ⟨neg, n, hn, rfl⟩ := signed_cases f hb
  rcases Nat.lt_trichotomy n f.infinity with h | rfl | h
  · obtain ⟨n', h1, -, h2⟩ := scan_show hf neg h
    obtain ⟨h3, h4⟩ := (nearest_iff hf.facts.1 hf.facts.2.1 (numeral_nonneg (showG_numeral (value_nonneg f n)))).1 h1
    exact ⟨_, h2, neg, n, n', hn, rfl, rfl, Or.inl ⟨_, _, magnitude_iff.2 ⟨h, rfl⟩, closestSix_sixValue (value_nonneg f n), h3, h4⟩⟩
  · exact ⟨_, scan_show_inf hf neg, neg, _, _, hn, rfl, rfl, Or.inr (Or.inl ⟨rfl, rfl⟩)⟩
  · exact ⟨_, scan_show_nan hf neg hn h, neg, n, _, hn, rfl, rfl, Or.inr (Or.inr ⟨h, rfl⟩)⟩

theorem signed_inj {f : FloatFmt} {neg neg' : Bool} {n n' : Nat} (hn : n < f.signBit) (hn' : n' < f.signBit)
    (h : signed f neg n = signed f neg' n') : neg = neg' ∧ n = n' := by
  have e : ∀ neg n, signed f neg n = if neg then f.signBit + n else n := fun _ _ => rfl
  rw [e, e] at h
  cases neg <;> cases neg' <;> simp at h
  · exact ⟨rfl, h⟩
  · omega
  · omega
  · exact ⟨rfl, h⟩

/-- There is only one outcome. -/
theorem reprinted_unique {f : FloatFmt} {b b' b'' : Nat} (h : Reprinted f b b') (h' : Reprinted f b b'') : b' = b'' := by
  obtain ⟨neg, n, m, hn, rfl, rfl, h⟩ := h
  obtain ⟨neg', n', m', hn', e, rfl, h'⟩ := h'
  obtain ⟨rfl, rfl⟩ := signed_inj hn hn' e
  congr 1
  rcases h with ⟨x, w, hx, hw, -, hm⟩ | ⟨rfl, rfl⟩ | ⟨h, rfl⟩
  · have hx' := magnitude_iff.1 hx
    rcases h' with ⟨x', w', hx'', hw', -, hm'⟩ | ⟨rfl, -⟩ | ⟨h', -⟩
    · rw [hx'.2] at hw
      rw [(magnitude_iff.1 hx'').2] at hw'
      obtain rfl := closestSix_unique hw hw'
      exact closest_unique hm hm'
    · exact absurd hx'.1 (lt_irrefl _)
    · exact absurd (hx'.1.trans h') (lt_irrefl _)
  · rcases h' with ⟨x', w', hx, -⟩ | ⟨-, rfl⟩ | ⟨h', -⟩
    · exact absurd (magnitude_iff.1 hx).1 (lt_irrefl _)
    · rfl
    · exact absurd h' (lt_irrefl _)
  · rcases h' with ⟨x', w', hx, -⟩ | ⟨rfl, -⟩ | ⟨-, rfl⟩
    · exact absurd ((magnitude_iff.1 hx).1.trans h) (lt_irrefl _)
    · exact absurd h (lt_irrefl _)
    · rfl

theorem scan_show_iff {f : FloatFmt} (hf : Cpp f) {b b' : Nat} (hb : b < 2 * f.signBit) :
    scanFloat f (showFloat f b) = some b' ↔ Reprinted f b b' := by
  obtain ⟨c, h1, h2⟩ := scan_show_reprinted hf hb
  rw [h1]
  constructor
  · intro h
    rwa [← Option.some.inj h]
  · intro h
    rw [reprinted_unique h2 h]

/-- Reading fails when something follows the printed number behind a blank. -/
theorem scan_blank {f : FloatFmt} (hf : Cpp f) {b : Nat} (hb : b < 2 * f.signBit) (t : Str) : scanFloat f (showFloat f b ++ 32 :: t) = none := by
  rw [Option.eq_none_iff_forall_not_mem]
  intro b' hb'
  rw [Option.mem_def, scanFloat_iff hf.facts.1 hf.facts.2.1] at hb'
  obtain ⟨sg, r, neg, n, e, hs, -, h⟩ := hb'
  obtain ⟨neg', m, hm, rfl⟩ := signed_cases f hb
  rw [showFloat_signed f neg' hm] at e
  generalize hX : (if m < f.infinity then showG (f.value m) else if m = f.infinity then b!"inf" else b!"nan") = X at e
  have hXc : (∃ q, Numeral X q) ∨ X = b!"inf" ∨ X = b!"nan" := by
    rw [← hX]
    split
    · exact Or.inl ⟨_, showG_numeral (value_nonneg f m)⟩
    · split
      · exact Or.inr (Or.inl rfl)
      · exact Or.inr (Or.inr rfl)
  have hXh : ∃ c u, X = c :: u ∧ c ≠ 45 ∧ c ≠ 43 := by
    rcases hXc with ⟨q, hq⟩ | rfl | rfl
    · obtain ⟨c, u, e, hc⟩ := numeral_head hq
      refine ⟨c, u, e, ?_, ?_⟩ <;> rintro rfl <;> rcases hc with hc | hc <;> revert hc <;> decide
    · exact ⟨_, _, rfl, by decide, by decide⟩
    · exact ⟨_, _, rfl, by decide, by decide⟩
  have hr : ∀ c, r.head? = some c → c ≠ 45 ∧ c ≠ 43 := by
    intro c hc
    rcases h with h | ⟨q, hq, -⟩
    · obtain ⟨d, u, rfl, hd⟩ := special_head h
      obtain rfl : d = c := by simpa using hc
      constructor <;> rintro rfl <;> revert hd <;> decide
    · obtain ⟨d, u, rfl, hd⟩ := numeral_head hq
      obtain rfl : d = c := by simpa using hc
      constructor <;> rintro rfl <;> rcases hd with hd | hd <;> revert hd <;> decide
  have e1 : takeSign (sg ++ r) = (neg, r) := takeSign_of hs hr
  have e2 : takeSign ((if neg' then b!"-" else []) ++ (X ++ 32 :: t)) = (neg', X ++ 32 :: t) := by
    apply takeSign_of (sign_text neg')
    intro c hc
    obtain ⟨d, u, rfl, h1, h2⟩ := hXh
    obtain rfl : d = c := by simpa using hc
    exact ⟨h1, h2⟩
  rw [← e, List.append_assoc, e2] at e1
  have er : X ++ 32 :: t = r := congrArg Prod.snd e1
  subst er
  have h32 : (32 : Byte) ∈ X ++ 32 :: t := by simp
  have hw : ∀ {w s : Str}, Word w s → ∀ c ∈ s, ∃ d ∈ w, c = d ∨ c.toNat + 32 = d.toNat := by
    intro w s h
    unfold Word at h
    induction h with
    | nil => intro c hc; cases hc
    | cons h1 _ ih =>
      intro c hc
      rcases List.mem_cons.1 hc with rfl | hc
      · exact ⟨_, by simp, h1⟩
      · obtain ⟨d, hd, h⟩ := ih c hc
        exact ⟨d, List.mem_cons_of_mem _ hd, h⟩
  rcases h with (⟨h | h, -⟩ | ⟨w, r, ew, hn, hr', -⟩) | ⟨q, hq, -⟩
  · obtain ⟨d, hd, h⟩ := hw h _ h32
    revert d; decide
  · obtain ⟨d, hd, h⟩ := hw h _ h32
    revert d; decide
  · have hl : w.length = 3 := List.Forall₂.length_eq hn
    have hlow : ∀ c ∈ w, 65 ≤ c.toNat := by
      intro c hc
      obtain ⟨d, hd, h⟩ := hw hn c hc
      have : ∀ d ∈ b!"nan", 97 ≤ d.toNat := by decide
      have := this d hd
      rcases h with rfl | h <;> omega
    have hX3 : X.length = 3 := by
      rcases hXc with ⟨q, hq⟩ | rfl | rfl
      · exfalso
        obtain ⟨c, u, rfl, hc⟩ := numeral_head hq
        cases w with
        | nil => cases hl
        | cons d w =>
          simp only [List.cons_append, List.cons.injEq] at ew
          have := hlow d (by simp)
          rw [← ew.1] at this
          rcases hc with rfl | hc
          · revert this; decide
          · omega
      · rfl
      · rfl
    have := List.append_inj_right ew (by rw [hX3, hl])
    rcases hr' with rfl | ⟨u, rfl⟩
    · cases this
    · simp at this
  · rcases numeral_chars hq _ h32 with h | h | h | h | h | h <;> revert h <;> decide

/-- Whole multiples of powers of two with few enough bits are numbers of the format. -/
theorem representable (f : FloatFmt) {i : Nat} (hi : i < 2 ^ (f.frac + 1)) (K : Nat) : ∃ m, f.units m = i * 2 ^ K := by
  rcases Nat.eq_zero_or_pos i with rfl | h0
  · exact ⟨0, by simp [units]⟩
  have hl : Nat.log 2 i ≤ f.frac := by
    have := (Nat.log_lt_iff_lt_pow (b := 2) (by norm_num) h0.ne').2 hi
    omega
  obtain ⟨j, hj⟩ : ∃ j, Nat.log 2 i + j = f.frac := ⟨f.frac - Nat.log 2 i, by omega⟩
  have b1 : 2 ^ Nat.log 2 i ≤ i := Nat.pow_log_le_self 2 h0.ne'
  have b2 : i < 2 ^ (Nat.log 2 i + 1) := Nat.lt_pow_succ_log_self (by norm_num) _
  have c1 : 2 ^ f.frac ≤ i * 2 ^ j := by rw [← hj, pow_add]; exact Nat.mul_le_mul_right _ b1
  have c2 : i * 2 ^ j ≤ 2 ^ (f.frac + 1) := by
    rw [← hj, show Nat.log 2 i + j + 1 = Nat.log 2 i + 1 + j by omega, pow_add 2 (Nat.log 2 i + 1)]
    exact Nat.mul_le_mul_right _ b2.le
  rcases Nat.lt_or_ge K j with h | h
  · refine ⟨i * 2 ^ K + 0 * 2 ^ f.frac, ?_⟩
    rw [units_of f (Or.inl rfl)]
    · simp
    · exact (Nat.mul_le_mul_left _ (Nat.pow_le_pow_right (by norm_num) h.le)).trans c2
  · refine ⟨i * 2 ^ j + (K - j) * 2 ^ f.frac, ?_⟩
    rw [units_of f (Or.inr c1) c2, Nat.mul_assoc, ← pow_add]
    congr 2
    omega

end Astro
