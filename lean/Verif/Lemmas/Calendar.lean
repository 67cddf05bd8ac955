import Verif.Lemmas.Time

namespace Astro

open Astro.Spec Astro.Time

theorem monthDays_le (leap : ℕ → Bool) (y m : ℕ) : monthDays leap y m ≤ 31 := by
  unfold monthDays
  repeat' split
  all_goals omega

theorem before_iff (a b : Date) : a.before b = true ↔ Earlier a b := by
  unfold Date.before Earlier
  simp

theorem julian_late (R : Rounding) (t : PTime) (h : Representable t.date) (hl : Earlier lastJulian t.date) :
    julianDate R t = dayNumber gregorianLeap t.date + 3442117 / 2 := by
  obtain ⟨⟨hm1, hm2, _, hd⟩, hy, hy2⟩ := h
  rw [julianDate_eq R t (by omega) (by omega) hm1 hm2 (le_trans hd (monthDays_le _ _ _)), (before_iff ⟨1582, 10, 1⟩ _).2 hl,
    jdInt_gregorian _ _ _ (by omega) hm1 hm2]
  push_cast
  ring

theorem julian_early (R : Rounding) (t : PTime) (h : Representable t.date) (hl : ¬ Earlier lastJulian t.date) :
    julianDate R t = dayNumber julianLeap t.date + 3442113 / 2 := by
  obtain ⟨⟨hm1, hm2, _, hd⟩, hy, hy2⟩ := h
  have hb : Date.before ⟨1582, 10, 1⟩ t.date = false := by
    rw [Bool.eq_false_iff]
    exact fun h => hl ((before_iff _ _).1 h)
  rw [julianDate_eq R t (by omega) (by omega) hm1 hm2 (le_trans hd (monthDays_le _ _ _)), hb,
    jdInt_julian _ _ _ (by omega) hm1 hm2]
  push_cast
  ring

theorem yearDays (leap : ℕ → Bool) (y : ℕ) : monthsBefore leap y 12 + 31 = if leap y then 366 else 365 := by
  simp [monthsBefore, monthDays]
  split <;> rfl

theorem dayNumber_tomorrow (leap : ℕ → Bool) {a b : Date} (h : Valid leap a) (ht : Tomorrow leap a b) : dayNumber leap b = dayNumber leap a + 1 := by
  obtain ⟨y, m, d⟩ := a
  obtain ⟨hm1, hm2, hd1, hd2⟩ := h
  unfold Tomorrow at ht
  simp only at *
  unfold dayNumber
  split at ht
  · subst ht
    simp only
    omega
  · split at ht
    · subst ht
      simp only [monthsBefore]
      omega
    · subst ht
      obtain rfl : m = 12 := by omega
      have := yearDays leap y
      have e : monthDays leap y 12 = 31 := rfl
      have e1 : monthsBefore leap (y + 1) 1 = 0 := rfl
      simp only [yearsBefore, e1]
      omega

theorem monthsBefore_mono (leap : ℕ → Bool) (y : ℕ) {m n : ℕ} (h : m < n) : monthsBefore leap y m + monthDays leap y m ≤ monthsBefore leap y n := by
  induction n with
  | zero => omega
  | succ n ih =>
    rw [monthsBefore]
    rcases Nat.lt_or_ge m n with h' | h'
    · have := ih h'
      omega
    · obtain rfl : m = n := by omega
      rfl

theorem yearsBefore_mono (leap : ℕ → Bool) {x y : ℕ} (h : x < y) : yearsBefore leap (x + 1) ≤ yearsBefore leap y := by
  induction y with
  | zero => omega
  | succ n ih =>
    rcases Nat.lt_or_ge x n with h' | h'
    · have := ih h'
      exact le_trans this (by rw [yearsBefore]; omega)
    · obtain rfl : x = n := by omega
      rfl

theorem withinYear (leap : ℕ → Bool) {d : Date} (h : Valid leap d) : dayNumber leap d ≤ yearsBefore leap (d.year + 1) := by
  obtain ⟨y, m, d⟩ := d
  obtain ⟨hm1, hm2, hd1, hd2⟩ := h
  simp only at *
  have e := yearDays leap y
  have e12 : monthDays leap y 12 = 31 := rfl
  have : monthsBefore leap y m + monthDays leap y m ≤ monthsBefore leap y 12 + 31 := by
    rcases Nat.lt_or_ge m 12 with h' | h'
    · have := monthsBefore_mono leap y h'
      omega
    · obtain rfl : m = 12 := by omega
      omega
  unfold dayNumber
  simp only [yearsBefore]
  omega

theorem dayNumber_mono (leap : ℕ → Bool) {a b : Date} (ha : Valid leap a) (hb : Valid leap b) (h : Earlier a b) : dayNumber leap a < dayNumber leap b := by
  rcases h with h | ⟨h, h' | ⟨h', h''⟩⟩
  · have := withinYear leap ha
    have := yearsBefore_mono leap h
    have := hb.2.2.1
    unfold dayNumber at *
    omega
  · have := monthsBefore_mono leap a.year h'
    have := ha.2.2.2
    have := hb.2.2.1
    unfold dayNumber at *
    rw [← h]
    omega
  · unfold dayNumber
    rw [← h, ← h']
    omega

theorem valid_julian {d : Date} (h : Valid gregorianLeap d) : Valid julianLeap d := by
  obtain ⟨h1, h2, h3, h4⟩ := h
  refine ⟨h1, h2, h3, le_trans h4 ?_⟩
  unfold monthDays
  split
  case h_2 =>
    unfold gregorianLeap julianLeap
    split <;> split <;> simp_all
  all_goals exact le_refl _

theorem tomorrow_earlier {leap : ℕ → Bool} {a b c : Date} (h : Earlier c a) (ht : Tomorrow leap a b) : Earlier c b := by
  obtain ⟨y, m, d⟩ := a
  obtain ⟨y', m', d'⟩ := c
  unfold Tomorrow at ht
  unfold Earlier at *
  simp only at *
  split at ht
  · subst ht
    simp only
    omega
  · split at ht <;> subst ht <;> simp only <;> omega

theorem reduce24_range (x : ℚ) : 0 ≤ reduce24 .none x ∧ reduce24 .none x < 24 := by
  unfold reduce24 Rounding.sub Rounding.mul Rounding.div Rounding.none
  simp only [id]
  have h1 := Int.floor_le (x / 24)
  have h2 := Int.lt_floor_add_one (x / 24)
  constructor <;> linarith

theorem reduce24_same (x : ℚ) : SameHour (reduce24 .none x) x := by
  refine ⟨-⌊x / 24⌋, ?_⟩
  unfold reduce24 Rounding.sub Rounding.mul Rounding.div Rounding.none
  simp only [id]
  push_cast
  ring

theorem Spec.SameHour.trans {x y z : ℚ} (h : SameHour x y) (h' : SameHour y z) : SameHour x z := by
  obtain ⟨k, rfl⟩ := h
  obtain ⟨l, rfl⟩ := h'
  exact ⟨k + l, by push_cast; ring⟩

theorem Spec.SameHour.symm {x y : ℚ} (h : SameHour x y) : SameHour y x := by
  obtain ⟨k, rfl⟩ := h
  exact ⟨-k, by push_cast; ring⟩

theorem Spec.SameHour.add {x y : ℚ} (h : SameHour x y) (z : ℚ) : SameHour (z + x) (z + y) := by
  obtain ⟨k, rfl⟩ := h
  exact ⟨k, by ring⟩

/-- Hours in [0,24) that are the same are equal. -/
theorem Spec.SameHour.unique {x y : ℚ} (h : SameHour x y) (hx : 0 ≤ x ∧ x < 24) (hy : 0 ≤ y ∧ y < 24) : x = y := by
  obtain ⟨k, rfl⟩ := h
  have h1 : (-1 : ℚ) < k := by linarith [hx.1, hy.2]
  have h2 : (k : ℚ) < 1 := by linarith [hx.2, hy.1]
  have : k = 0 := by
    have h1' : -1 < k := by exact_mod_cast h1
    have h2' : k < 1 := by exact_mod_cast h2
    omega
  simp [this]

theorem toLong_range (x : ℚ) (h1 : -2 ^ 62 ≤ x) (h2 : x ≤ 2 ^ 62) : ∃ n, toLong x = some n := by
  unfold toLong
  simp only
  refine ⟨_, if_pos ?_⟩
  split
  · constructor
    · have := Int.le_ceil x
      have : (-2 ^ 63 : ℚ) ≤ (⌈x⌉ : ℤ) := by linarith
      exact_mod_cast this
    · have := Int.ceil_lt_add_one x
      have : ((⌈x⌉ : ℤ) : ℚ) < 2 ^ 63 := by linarith
      exact_mod_cast this
  · constructor
    · have := Int.lt_floor_add_one x
      have : (-2 ^ 63 : ℚ) ≤ (⌊x⌋ : ℤ) := by linarith
      exact_mod_cast this
    · have := Int.floor_le x
      have : ((⌊x⌋ : ℤ) : ℚ) < 2 ^ 63 := by linarith
      exact_mod_cast this

/-- Truncation: `n` is between 0 and `x`, less than one away. -/
theorem toLong_spec {x : ℚ} {n : ℤ} (h : toLong x = some n) :
    (0 ≤ x → 0 ≤ n ∧ (n : ℚ) ≤ x ∧ x < n + 1) ∧ (x ≤ 0 → n ≤ 0 ∧ x ≤ n ∧ (n : ℚ) - 1 < x) := by
  unfold toLong at h
  simp only at h
  by_cases hr : -2 ^ 63 ≤ (if x < 0 then ⌈x⌉ else ⌊x⌋) ∧ (if x < 0 then ⌈x⌉ else ⌊x⌋) < 2 ^ 63
  · rw [if_pos hr] at h
    have h := Option.some.inj h
    rw [← h]
    split
    · rename_i hx
      refine ⟨fun h => absurd h (by linarith), fun _ => ⟨?_, Int.le_ceil x, ?_⟩⟩
      · exact Int.ceil_le.2 (by simpa using hx.le)
      · linarith [Int.ceil_lt_add_one x]
    · rename_i hx
      refine ⟨fun h => ⟨Int.floor_nonneg.2 h, Int.floor_le x, Int.lt_floor_add_one x⟩, fun h => ?_⟩
      have : x = 0 := by linarith
      subst this
      simp
  · rw [if_neg hr] at h
    cases h

theorem toLong_small {x : ℚ} (h : |x| < 60) : ∃ n, toLong x = some n ∧ |n| < 60 := by
  rw [abs_lt] at h
  obtain ⟨n, hn⟩ := toLong_range x (by linarith [h.1]) (by linarith [h.2])
  refine ⟨n, hn, ?_⟩
  have hs := toLong_spec hn
  rw [abs_lt]
  rcases le_total 0 x with h0 | h0
  · obtain ⟨a, b, c⟩ := hs.1 h0
    have : (n : ℚ) < 60 := by linarith
    have : n < 60 := by exact_mod_cast this
    omega
  · obtain ⟨a, b, c⟩ := hs.2 h0
    have : (-60 : ℚ) < n := by linarith
    have : -60 < n := by exact_mod_cast this
    omega

theorem ofDecimal_spec {d : ℚ} {h : ℤ} (hh : toLong d = some h) : ∃ r, DecimalHour.ofDecimal .none d = some r ∧ r.dh = d ∧ r.hours = h ∧ Split d r.hours r.minutes r.seconds := by
  have hs := toLong_spec hh
  have hfrac : |(d - h) * 60| < 60 := by
    rw [abs_lt]
    rcases le_total 0 d with h0 | h0
    · obtain ⟨a, b, c⟩ := hs.1 h0
      constructor <;> linarith
    · obtain ⟨a, b, c⟩ := hs.2 h0
      constructor <;> linarith
  obtain ⟨m, hm, hm60⟩ := toLong_small hfrac
  have ms := toLong_spec hm
  refine ⟨⟨d, h, m, ((d - h) * 60 - m) * 60⟩, ?_, rfl, rfl, ?_⟩
  · unfold DecimalHour.ofDecimal Rounding.mul Rounding.sub Rounding.none
    simp only [id, hh, Option.bind_eq_bind, Option.bind_some, hm, Option.pure_def]
  · refine ⟨by simp only; ring, hm60, ?_, fun h0 => ?_, fun h0 => ?_⟩
    · simp only
      rw [abs_lt]
      rcases le_total 0 d with h0 | h0
      · obtain ⟨a, b, c⟩ := hs.1 h0
        obtain ⟨a', b', c'⟩ := ms.1 (by linarith)
        constructor <;> linarith
      · obtain ⟨a, b, c⟩ := hs.2 h0
        obtain ⟨a', b', c'⟩ := ms.2 (by linarith)
        constructor <;> linarith
    · obtain ⟨a, b, c⟩ := hs.1 h0
      obtain ⟨a', b', c'⟩ := ms.1 (by linarith)
      exact ⟨a, a', by simp only; linarith⟩
    · obtain ⟨a, b, c⟩ := hs.2 h0
      obtain ⟨a', b', c'⟩ := ms.2 (by linarith)
      exact ⟨a, a', by simp only; linarith⟩

theorem ofDecimal_day {d : ℚ} (h : 0 ≤ d ∧ d < 24) : ∃ r, DecimalHour.ofDecimal .none d = some r ∧ r.dh = d := by
  obtain ⟨n, hn⟩ := toLong_range d (by linarith [h.1]) (by linarith [h.2])
  obtain ⟨r, hr, hd, _⟩ := ofDecimal_spec hn
  exact ⟨r, hr, hd⟩

theorem gstValue_range (t : PTime) : 0 ≤ gstValue .none t ∧ gstValue .none t < 24 := reduce24_range _

theorem gstValue_same (t : PTime) : SameHour (gstValue .none t) (siderealFormula ((julianDate .none t - 2451545) / 36525) (universalTime t)) := by
  refine (reduce24_same _).trans ?_
  refine SameHour.trans (y := 1.002737909 * universalTime t + reduce24 .none (6.697374558 + 2400.051336 * ((julianDate .none t - 2451545) / 36525)
    + 0.000025862 * ((julianDate .none t - 2451545) / 36525) * ((julianDate .none t - 2451545) / 36525))) ⟨0, ?_⟩ ?_
  · unfold universalTime Rounding.add Rounding.mul Rounding.sub Rounding.div
    have : ∀ x, Rounding.none.rnd x = x := fun _ => rfl
    simp only [this]
    norm_num
    ring
  · refine ((reduce24_same _).add _).trans ⟨0, ?_⟩
    unfold siderealFormula
    push_cast
    ring

theorem lstValue_range (l : ℚ) (dir : Direction) {g : ℚ} (h : 0 ≤ g ∧ g < 24) : 0 ≤ lstValue .none l dir g ∧ lstValue .none l dir g < 24 := by
  unfold lstValue
  split
  · exact h
  · exact reduce24_range _

/-- Sign of a longitude. -/
def dirSign : Direction → ℚ
  | .west => -1
  | .east => 1

theorem lstValue_same (l : ℚ) (dir : Direction) (g : ℚ) : SameHour (lstValue .none l dir g) (g + dirSign dir * l / 15) := by
  unfold lstValue
  split
  · rename_i h
    exact ⟨0, by rw [h]; simp⟩
  · refine (reduce24_same _).trans ⟨0, ?_⟩
    unfold Rounding.add Rounding.mul Rounding.div
    have : ∀ x, Rounding.none.rnd x = x := fun _ => rfl
    simp only [this]
    cases dir <;> simp only [dirSign] <;> push_cast <;> ring

end Astro
