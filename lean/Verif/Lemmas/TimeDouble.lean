import Verif.Lemmas.Double

namespace Astro

open Astro.Spec Astro.Time

theorem ofDecimal_double (N : Nearest) {d : ℚ} (hd : IsDouble d) {h : ℤ} (hh : toLong d = some h) :
    ∃ r, DecimalHour.ofDecimal N.rounding d = some r ∧ r.dh = d ∧ r.hours = h ∧ NearSplit d r.hours r.minutes r.seconds (1 / 2 ^ 53) := by
  obtain ⟨f1, f2, f3, f4⟩ := frac_double hd hh
  obtain ⟨a1, a2, a3, a4⟩ := mul60 N f1 f2
  have hs := toLong_spec hh
  have e1 : N.rounding.mul (N.rounding.sub d h) 60 = N.rnd ((d - h) * 60) := by
    unfold Rounding.mul Rounding.sub
    rw [N.rounding.exact _ f1]
    rfl
  obtain ⟨m, hm, hm60⟩ := toLong_small a1
  have dm := N.isDouble ((d - h) * 60)
  generalize N.rnd ((d - h) * 60) = g at *
  obtain ⟨g1, g2, g3, g4⟩ := frac_double dm hm
  obtain ⟨b1, b2, b3, b4⟩ := mul60 N g1 g2
  have hsm := toLong_spec hm
  have e2 : N.rounding.mul (N.rounding.sub g m) 60 = N.rnd ((g - m) * 60) := by
    unfold Rounding.mul Rounding.sub
    rw [N.rounding.exact _ g1]
    rfl
  refine ⟨⟨d, h, m, N.rnd ((g - m) * 60)⟩, ?_, rfl, rfl, ?_, hm60, b1, ?_, ?_⟩
  · unfold DecimalHour.ofDecimal
    rw [hh]
    simp only [Option.bind_eq_bind, Option.bind_some]
    rw [e1, hm]
    simp only [Option.bind_some]
    rw [e2]
    rfl
  · simp only
    have p := abs_le.1 a2
    have q := abs_le.1 b2
    rw [abs_le]
    norm_num at p q ⊢
    constructor <;> linarith [p.1, p.2, q.1, q.2]
  · intro h0
    have g0 := a3 (f3 h0)
    exact ⟨(hs.1 h0).1, (hsm.1 g0).1, b3 (g3 g0)⟩
  · intro h0
    have g0 := a4 (f4 h0)
    exact ⟨(hs.2 h0).1, (hsm.2 g0).1, b4 (g4 g0)⟩

theorem ofDecimal_double_day (N : Nearest) {d : ℚ} (hd : IsDouble d) (h1 : -1 < d) (h2 : d ≤ 24) : ∃ r, DecimalHour.ofDecimal N.rounding d = some r ∧ r.dh = d := by
  obtain ⟨n, hn⟩ := toLong_range d (by linarith) (by linarith)
  obtain ⟨r, h, e, _⟩ := ofDecimal_double N hd hn
  exact ⟨r, h, e⟩

theorem dayNumber_le {leap : ℕ → Bool} {d : Date} (h : Valid leap d) (hy : d.year ≤ 9999) : dayNumber leap d ≤ 3660000 := by
  have h1 := withinYear leap h
  have h2 : ∀ y, yearsBefore leap y ≤ 366 * y := by
    intro y
    induction y with
    | zero => simp [yearsBefore]
    | succ n ih =>
      rw [yearsBefore]
      split <;> omega
  have := h2 (d.year + 1)
  omega

/-- The reduction of a negative number that is almost zero: it is left alone or becomes 24. -/
theorem reduce24_tiny (N : Nearest) {x : ℚ} (hx : IsDouble x) (h0 : x < 0) (h1 : -2 ^ (-1000 : ℤ) < x) :
    reduce24 N.rounding x = x ∨ reduce24 N.rounding x = 24 := by
  have h2 : -1 / 1024 ≤ x := by linarith [tiny_le]
  have a1 : N.rnd (x / 24) ≤ 0 := by
    have := near_mono N (show x / 24 ≤ 0 by linarith)
    rwa [near_zero] at this
  have a2 : -1 ≤ N.rnd (x / 24) := by
    have := near_mono N (show (-1 : ℚ) ≤ x / 24 by linarith)
    rwa [near_exact N ⟨-1, 0, by norm_num, by omega, by omega, by simp⟩] at this
  have hf : ⌊N.rnd (x / 24)⌋ = 0 ∨ ⌊N.rnd (x / 24)⌋ = -1 := by
    have b1 : -1 ≤ ⌊N.rnd (x / 24)⌋ := Int.le_floor.2 (by simpa using a2)
    have b2 : ⌊N.rnd (x / 24)⌋ ≤ 0 := by
      have := Int.floor_le (N.rnd (x / 24))
      have : ((⌊N.rnd (x / 24)⌋ : ℤ) : ℚ) ≤ 0 := by linarith
      exact_mod_cast this
    omega
  unfold reduce24 Rounding.sub Rounding.mul Rounding.div
  rw [show N.rounding.rnd = N.rnd from rfl]
  rcases hf with hf | hf
  · left
    rw [hf]
    simp [near_zero, near_exact N hx]
  · right
    rw [hf]
    have e : N.rnd (24 * ((-1 : ℤ) : ℚ)) = -24 := by
      have := near_exact N (isDouble_int (-24) (by norm_num))
      push_cast at this ⊢
      norm_num at this ⊢
      exact this
    rw [e, sub_neg_eq_add]
    have d24 : IsDouble 24 := by simpa using isDouble_int 24 (by norm_num)
    have up : N.rnd (x + 24) ≤ 24 := by
      have := near_mono N (show x + 24 ≤ 24 by linarith)
      rwa [near_exact N d24] at this
    refine le_antisymm up ?_
    by_contra hlt
    rw [not_le] at hlt
    have hd := N.isDouble (x + 24)
    have herr := (abs_le.1 (N.closest (x + 24) 24 d24)).1
    rw [show |24 - (x + 24)| = -x by rw [show (24 : ℚ) - (x + 24) = -x by ring, abs_of_pos (by linarith)]] at herr
    have hpos : (16 : ℚ) ≤ N.rnd (x + 24) := by linarith
    obtain ⟨k, hk⟩ := double_multiple hd (-48) (by rw [abs_of_nonneg (by linarith)]; norm_num; linarith)
    have hp : (2 : ℚ) ^ (-48 : ℤ) = 1 / 2 ^ 48 := by norm_num
    rw [hk, hp] at hlt herr
    have g : (k : ℚ) < ((24 * 2 ^ 48 : ℤ) : ℚ) := by push_cast; linarith
    have g' : k < 24 * 2 ^ 48 := by exact_mod_cast g
    have g'' : (k : ℚ) ≤ ((24 * 2 ^ 48 - 1 : ℤ) : ℚ) := by exact_mod_cast (by omega : k ≤ 24 * 2 ^ 48 - 1)
    push_cast at g''
    have t : (2 : ℚ) ^ (-1000 : ℤ) ≤ 1 / 2 ^ 60 := by
      refine le_trans (zpow_le_zpow_right₀ (by norm_num : (1 : ℚ) ≤ 2) (by norm_num : (-1000 : ℤ) ≤ -60)) (by norm_num)
    generalize (2 : ℚ) ^ (-1000 : ℤ) = w at *
    norm_num at t g'' herr
    linarith

/-- LST with the longitude in hours counted to the east. -/
theorem lstValue_east (N : Nearest) (l : ℚ) (dir : Direction) (g : ℚ) :
    lstValue N.rounding l dir g = if l = 0 then g else reduce24 N.rounding (N.rnd (dirSign dir * N.rnd (l / 15) + g)) := by
  have hd := N.isDouble (l / 15)
  unfold lstValue
  split
  · rfl
  · cases dir
    · simp only [dirSign]
      unfold Rounding.add Rounding.mul Rounding.div
      rw [show N.rounding.rnd = N.rnd from rfl, neg_one_mul, near_exact N (isDouble_neg hd)]
    · simp only [dirSign]
      unfold Rounding.add Rounding.mul Rounding.div
      rw [show N.rounding.rnd = N.rnd from rfl, one_mul, near_exact N hd]

theorem dirSign_abs (dir : Direction) (x : ℚ) : |dirSign dir * x| = |x| := by
  cases dir <;> simp [dirSign]

theorem lstValue_near (N : Nearest) {g l : ℚ} (dir : Direction) (hg : IsDouble g) (g0 : 0 ≤ g) (g24 : g < 24) (hl : |l| ≤ 720) :
    IsDouble (lstValue N.rounding l dir g) ∧ -2 ^ (-1000 : ℤ) < lstValue N.rounding l dir g ∧ lstValue N.rounding l dir g ≤ 24 ∧
      NearHour (lstValue N.rounding l dir g) (g + dirSign dir * l / 15) (1 / 2 ^ 46) := by
  have hw : (0 : ℚ) < 2 ^ (-1000 : ℤ) := zpow_pos (by norm_num) _
  rw [lstValue_east]
  split
  · rename_i h
    refine ⟨hg, by linarith, g24.le, 0, ?_⟩
    simp [h]
  · have h15 : |l / 15| ≤ 48 := by rw [abs_div]; norm_num; linarith
    have e1 : |N.rnd (l / 15) - l / 15| ≤ 1 / 2 ^ 48 := near_step N (-47) (by omega) (by omega) h15 (E := 0) (by simp) (by norm_num) (by norm_num)
    have e1' : |dirSign dir * N.rnd (l / 15) - dirSign dir * (l / 15)| ≤ 1 / 2 ^ 48 := by rw [← mul_sub, dirSign_abs]; exact e1
    have b1 : |dirSign dir * (l / 15)| ≤ 48 := by rw [dirSign_abs]; exact h15
    have e2 : |N.rnd (dirSign dir * N.rnd (l / 15) + g) - (dirSign dir * (l / 15) + g)| ≤ 3 / 2 ^ 48 :=
      near_step N (-46) (by omega) (by omega) (B := 72) (le_trans (abs_add_le _ _) (by rw [abs_of_nonneg g0]; linarith)) (E := 1 / 2 ^ 48)
        (by rw [add_sub_add_right_eq_sub]; exact e1') (by norm_num) (by norm_num)
    have b2 := abs_of_err e2 (A := 72) (le_trans (abs_add_le _ _) (by rw [abs_of_nonneg g0]; linarith))
    have dx := N.isDouble (dirSign dir * N.rnd (l / 15) + g)
    generalize N.rnd (dirSign dir * N.rnd (l / 15) + g) = x at *
    have e3 := abs_le.1 e2
    have bx : |x| < 2 ^ 40 := lt_of_le_of_lt b2 (by norm_num)
    refine ⟨N.isDouble _, ?_⟩
    by_cases hs : 0 ≤ x ∨ x ≤ -2 ^ (-1000 : ℤ)
    · obtain ⟨n, r0, r24, rerr, _⟩ := reduce24_near N dx bx hs
      refine ⟨by linarith, r24, -n, ?_⟩
      have e4 := abs_le.1 rerr
      rw [abs_le]
      push_cast
      norm_num at e3 e4 ⊢
      constructor <;> linarith [e3.1, e3.2, e4.1, e4.2]
    · rw [not_or, not_le, not_le] at hs
      have t : (2 : ℚ) ^ (-1000 : ℤ) ≤ 1 / 2 ^ 60 := by
        refine le_trans (zpow_le_zpow_right₀ (by norm_num : (1 : ℚ) ≤ 2) (by norm_num : (-1000 : ℤ) ≤ -60)) (by norm_num)
      rcases reduce24_tiny N dx hs.1 hs.2 with h | h
      · rw [h]
        refine ⟨hs.2, by linarith, 0, ?_⟩
        rw [abs_le]
        norm_num at e3 ⊢
        constructor <;> linarith [e3.1, e3.2]
      · rw [h]
        refine ⟨by linarith, le_refl _, 1, ?_⟩
        generalize (2 : ℚ) ^ (-1000 : ℤ) = w at *
        rw [abs_le]
        norm_num at e3 t ⊢
        constructor <;> linarith [e3.1, e3.2, hs.1, hs.2]

end Astro
