import Verif.Lemmas.Calendar

/-
Julian date, sidereal time, decimal hours (C46 to C52, C80).  The theorems about the Julian date hold for every rounding of `double`; those about
sidereal time and decimal hours are about exact arithmetic (`Rounding.none`).
-/

namespace Astro

open Astro.Spec Astro.Time

/-! C46 -/

/-- C46: from 2 October 1582 on the Julian date is the number of days counted in the Gregorian calendar, plus a constant. -/
theorem C46_counts (R : Rounding) (t : PTime) (h : Representable t.date) (hl : Earlier lastJulian t.date) :
    julianDate R t = dayNumber gregorianLeap t.date + 1721058.5 := by
  rw [julian_late R t h hl]
  norm_num

/-- C46: the Julian dates of consecutive days differ by one. -/
theorem C46_tomorrow (R : Rounding) (s t : PTime) (hs : Representable s.date) (ht : Representable t.date) (hl : Earlier lastJulian s.date)
    (h : Tomorrow gregorianLeap s.date t.date) : julianDate R t = julianDate R s + 1 := by
  have e := dayNumber_tomorrow gregorianLeap hs.1 h
  have hlt : Earlier lastJulian t.date := tomorrow_earlier hl h
  rw [julian_late R s hs hl, julian_late R t ht hlt, e]
  push_cast
  ring

/-- 2000 January 1, 0h. -/
example (R : Rounding) : julianDate R ⟨⟨2000, 1, 1⟩, 0, 0, 0, 0⟩ = 2451544.5 := by
  rw [C46_counts R _ (by unfold Representable Valid; decide) (by unfold Earlier lastJulian; decide)]
  have : dayNumber gregorianLeap ⟨2000, 1, 1⟩ = 730486 := by decide +kernel
  rw [this]
  norm_num

example : Tomorrow gregorianLeap ⟨2000, 2, 29⟩ ⟨2000, 3, 1⟩ ∧ Tomorrow gregorianLeap ⟨1900, 2, 28⟩ ⟨1900, 3, 1⟩ ∧ Tomorrow gregorianLeap ⟨1999, 12, 31⟩ ⟨2000, 1, 1⟩ := by
  unfold Tomorrow
  decide

/-! C47 -/

/-- C47: up to 1 October 1582 the Julian date counts days in the Julian calendar. -/
theorem C47_julian (R : Rounding) (t : PTime) (h : Representable t.date) (hl : ¬ Earlier lastJulian t.date) :
    julianDate R t = dayNumber julianLeap t.date + 1721056.5 := by
  rw [julian_early R t h hl]
  norm_num

/-- C47: the date type knows the Gregorian calendar only, so before the switch the step from one date to the next is one day, except that it is two
days from 28 February to 1 March of a year like 1500, whose 29 February cannot be expressed. -/
theorem C47_gap (R : Rounding) (s t : PTime) (hs : Representable s.date) (ht : Representable t.date) (hl : ¬ Earlier lastJulian t.date)
    (h : Tomorrow gregorianLeap s.date t.date) :
    julianDate R t = julianDate R s +
      if s.date.month = 2 ∧ s.date.day = 28 ∧ s.date.year % 100 = 0 ∧ s.date.year % 400 ≠ 0 then 2 else 1 := by
  have hls : ¬ Earlier lastJulian s.date := fun hh => hl (tomorrow_earlier hh h)
  rw [julian_early R s hs hls, julian_early R t ht hl]
  have key : dayNumber julianLeap t.date = dayNumber julianLeap s.date +
      if s.date.month = 2 ∧ s.date.day = 28 ∧ s.date.year % 100 = 0 ∧ s.date.year % 400 ≠ 0 then 2 else 1 := by
    split
    · rename_i hc
      obtain ⟨hm, hd, h1, h4⟩ := hc
      have hg : gregorianLeap s.date.year = false := by unfold gregorianLeap; simp; omega
      have hj : julianLeap s.date.year = true := by unfold julianLeap; simp; omega
      unfold Tomorrow at h
      rw [if_neg (by rw [hm, hd]; simp [monthDays, hg]), if_pos (by omega)] at h
      rw [h]
      unfold dayNumber
      simp only [hm, hd, monthsBefore, monthDays, hj]
      simp
    · rename_i hc
      have hv := valid_julian hs.1
      refine dayNumber_tomorrow julianLeap hv ?_
      have same : monthDays julianLeap s.date.year s.date.month = monthDays gregorianLeap s.date.year s.date.month ∨
          (s.date.month = 2 ∧ s.date.day < 28 ∧ monthDays julianLeap s.date.year s.date.month = 29 ∧ monthDays gregorianLeap s.date.year s.date.month = 28) := by
        by_cases hm : s.date.month = 2
        · have h4 := hs.1.2.2.2
          rw [hm] at h4 ⊢
          simp only [monthDays] at h4 ⊢
          have hgl : gregorianLeap s.date.year = true ↔ s.date.year % 4 = 0 ∧ (s.date.year % 100 ≠ 0 ∨ s.date.year % 400 = 0) := by
            unfold gregorianLeap; simp
          have hjl : julianLeap s.date.year = true ↔ s.date.year % 4 = 0 := by unfold julianLeap; simp
          by_cases hg : gregorianLeap s.date.year = true <;> by_cases hj : julianLeap s.date.year = true
          · left; simp [hg, hj]
          · exact absurd (hjl.2 (hgl.1 hg).1) hj
          · right
            simp [hg] at h4
            simp [hg, hj]
            have : s.date.day ≠ 28 := by
              intro hd
              apply hc
              rw [hgl] at hg
              rw [hjl] at hj
              omega
            omega
          · left; simp [hg, hj]
        · left
          unfold monthDays
          split <;> first | rfl | omega
      unfold Tomorrow at h ⊢
      rcases same with e | ⟨hm, hd, ej, eg⟩
      · rw [e]; exact h
      · rw [ej]
        rw [eg] at h
        rw [if_pos (by omega)] at h ⊢
        exact h
  rw [key]
  split <;> push_cast <;> ring

/-- C47: on each side of the switch, later dates have larger Julian dates. -/
theorem C47_order (R : Rounding) (s t : PTime) (hs : Representable s.date) (ht : Representable t.date) (h : Earlier s.date t.date)
    (side : Earlier lastJulian s.date ↔ Earlier lastJulian t.date) : julianDate R s < julianDate R t := by
  by_cases hl : Earlier lastJulian s.date
  · rw [julian_late R s hs hl, julian_late R t ht (side.1 hl)]
    have := dayNumber_mono gregorianLeap hs.1 ht.1 h
    have : (dayNumber gregorianLeap s.date : ℚ) < dayNumber gregorianLeap t.date := by exact_mod_cast this
    linarith
  · rw [julian_early R s hs hl, julian_early R t ht (fun h => hl (side.2 h))]
    have := dayNumber_mono julianLeap (valid_julian hs.1) (valid_julian ht.1) h
    have : (dayNumber julianLeap s.date : ℚ) < dayNumber julianLeap t.date := by exact_mod_cast this
    linarith

/-- C47: across the switch it is not so: 2 October 1582 comes nine days before 1 October, and the Julian dates of 2 to 11 October are those of 22 September
to 1 October. -/
theorem C47_switch (R : Rounding) :
    julianDate R ⟨⟨1582, 10, 2⟩, 0, 0, 0, 0⟩ = julianDate R ⟨⟨1582, 10, 1⟩, 0, 0, 0, 0⟩ - 9 ∧
      (∀ k : ℕ, 1 ≤ k → k ≤ 9 → julianDate R ⟨⟨1582, 10, 1 + k⟩, 0, 0, 0, 0⟩ = julianDate R ⟨⟨1582, 9, 21 + k⟩, 0, 0, 0, 0⟩) ∧
      julianDate R ⟨⟨1582, 10, 11⟩, 0, 0, 0, 0⟩ = julianDate R ⟨⟨1582, 10, 1⟩, 0, 0, 0, 0⟩ := by
  have yg : yearsBefore gregorianLeap 1582 = 577814 := by decide +kernel
  have yj : yearsBefore julianLeap 1582 = 577826 := by decide +kernel
  have late : ∀ k : ℕ, 1 ≤ k → k ≤ 10 → julianDate R ⟨⟨1582, 10, 1 + k⟩, 0, 0, 0, 0⟩ = 2299146 + 1 / 2 + k := by
    intro k h1 h10
    rw [julian_late R _ (by unfold Representable Valid; simp [monthDays]; omega) (by unfold Earlier lastJulian; simp; omega)]
    unfold dayNumber
    simp only [yg, monthsBefore, monthDays, show gregorianLeap 1582 = false from rfl]
    push_cast
    ring
  have sep : ∀ k : ℕ, k ≤ 9 → julianDate R ⟨⟨1582, 9, 21 + k⟩, 0, 0, 0, 0⟩ = 2299146 + 1 / 2 + k := by
    intro k h9
    rw [julian_early R _ (by unfold Representable Valid; simp [monthDays]; omega) (by unfold Earlier lastJulian; simp)]
    unfold dayNumber
    simp only [yj, monthsBefore, monthDays, show julianLeap 1582 = false from rfl]
    push_cast
    ring
  have oct : julianDate R ⟨⟨1582, 10, 1⟩, 0, 0, 0, 0⟩ = 2299156 + 1 / 2 := by
    rw [julian_early R _ (by unfold Representable Valid; decide) (by unfold Earlier lastJulian; decide)]
    unfold dayNumber
    simp only [yj, monthsBefore, monthDays, show julianLeap 1582 = false from rfl]
    push_cast
    ring
  refine ⟨?_, fun k h1 h9 => ?_, ?_⟩
  · have := late 1 (by omega) (by omega)
    norm_num at this ⊢
    rw [this, oct]
    norm_num
  · rw [late k h1 (by omega), sep k h9]
  · have := late 10 (by omega) (by omega)
    norm_num at this ⊢
    rw [this, oct]
    norm_num

example : Representable ⟨1500, 2, 28⟩ ∧ ¬ Representable ⟨1500, 2, 29⟩ ∧ Valid julianLeap ⟨1500, 2, 29⟩ := by
  unfold Representable Valid
  decide

/-! C48 -/

/-- C48: the Julian date depends on the date alone, it ends in .5, and rounding plays no part in it. -/
theorem C48_date_only (R R' : Rounding) (s t : PTime) (h : Representable s.date) (hd : s.date = t.date) :
    julianDate R s = julianDate R' t ∧ ∃ n : ℤ, julianDate R s = n + 1 / 2 := by
  by_cases hl : Earlier lastJulian s.date
  · rw [julian_late R s h hl, julian_late R' t (hd ▸ h) (hd ▸ hl), hd]
    exact ⟨rfl, dayNumber gregorianLeap t.date + 1721058, by push_cast; ring⟩
  · rw [julian_early R s h hl, julian_early R' t (hd ▸ h) (hd ▸ hl), hd]
    exact ⟨rfl, dayNumber julianLeap t.date + 1721056, by push_cast; ring⟩

example : (⟨⟨2020, 7, 1⟩, 0, 0, 0, 0⟩ : PTime).date = (⟨⟨2020, 7, 1⟩, 23, 59, 59, 999⟩ : PTime).date ∧ Representable ⟨2020, 7, 1⟩ := by
  unfold Representable Valid
  decide

/-! C49, C80 -/

/-- C51: no other parts would do. -/
theorem C51_unique {d : ℚ} {h m h' m' : ℤ} {s s' : ℚ} (a : Split d h m s) (b : Split d h' m' s') : h = h' ∧ m = m' ∧ s = s' := by
  have hh : ∀ {h m h' m' : ℤ} {s s' : ℚ}, Split d h m s → Split d h' m' s' → ¬ h < h' := by
    intro h m h' m' s s' a b hlt
    have hlt' : (h : ℚ) + 1 ≤ h' := by exact_mod_cast hlt
    have ea := a.sum
    have eb := b.sum
    have am := abs_lt.1 a.minutes
    have bm := abs_lt.1 b.minutes
    have as := abs_lt.1 a.seconds
    have bs := abs_lt.1 b.seconds
    have am2 : (m : ℚ) ≤ 59 := by exact_mod_cast Int.lt_add_one_iff.1 (by simpa using am.2)
    have bm2 : (-59 : ℚ) ≤ m' := by
      have : -59 ≤ m' := by omega
      exact_mod_cast this
    rcases le_total 0 d with h0 | h0
    · obtain ⟨_, p, q⟩ := b.nonneg h0
      have p' : (0 : ℚ) ≤ m' := by exact_mod_cast p
      linarith [as.2]
    · obtain ⟨_, p, q⟩ := a.nonpos h0
      have p' : (m : ℚ) ≤ 0 := by exact_mod_cast p
      linarith [bs.1]
  have mm : ∀ {h m m' : ℤ} {s s' : ℚ}, Split d h m s → Split d h m' s' → ¬ m < m' := by
    intro h m m' s s' a b hlt
    have hlt' : (m : ℚ) + 1 ≤ m' := by exact_mod_cast hlt
    have ea := a.sum
    have eb := b.sum
    have as := abs_lt.1 a.seconds
    have bs := abs_lt.1 b.seconds
    rcases le_total 0 d with h0 | h0
    · obtain ⟨_, _, q⟩ := b.nonneg h0
      linarith [as.2]
    · obtain ⟨_, _, q⟩ := a.nonpos h0
      linarith [bs.1]
  have e1 : h = h' := le_antisymm (not_lt.1 (hh b a)) (not_lt.1 (hh a b))
  subst e1
  have e2 : m = m' := le_antisymm (not_lt.1 (mm b a)) (not_lt.1 (mm a b))
  subst e2
  have := a.sum
  have := b.sum
  exact ⟨rfl, rfl, by linarith⟩

/-- C49: Greenwich sidereal time is in [0,24) and is what the polynomial gives, up to whole days; `c` is the number of Julian centuries from 2000 January 1
noon (day number 730486.5) to the beginning of the day. -/
theorem C49_gst (t : PTime) (h : Representable t.date) (hl : Earlier lastJulian t.date) :
    ∃ r, gst .none t = some r ∧ 0 ≤ r.dh ∧ r.dh < 24 ∧
      SameHour r.dh (siderealFormula ((dayNumber gregorianLeap t.date - 730486.5) / 36525) (universalTime t)) := by
  obtain ⟨r, hr, hd⟩ := ofDecimal_day (gstValue_range t)
  refine ⟨r, hr, hd ▸ (gstValue_range t).1, hd ▸ (gstValue_range t).2, ?_⟩
  rw [hd]
  have := gstValue_same t
  rw [julian_late _ t h hl] at this
  convert this using 3
  ring_nf

/-- C49: up to 1 October 1582 likewise, the day being counted in the Julian calendar. -/
theorem C49_gst_julian (t : PTime) (h : Representable t.date) (hl : ¬ Earlier lastJulian t.date) :
    ∃ r, gst .none t = some r ∧ 0 ≤ r.dh ∧ r.dh < 24 ∧
      SameHour r.dh (siderealFormula ((dayNumber julianLeap t.date - 730488.5) / 36525) (universalTime t)) := by
  obtain ⟨r, hr, hd⟩ := ofDecimal_day (gstValue_range t)
  refine ⟨r, hr, hd ▸ (gstValue_range t).1, hd ▸ (gstValue_range t).2, ?_⟩
  rw [hd]
  have := gstValue_same t
  rw [julian_early _ t h hl] at this
  convert this using 3
  ring_nf

/-- 1980 April 22, 14:36:51: 4h 40m 4.6s. -/
example : ∃ r, gst .none ⟨⟨1980, 4, 22⟩, 14, 36, 51, 0⟩ = some r ∧ r.hours = 4 ∧ r.minutes = 40 ∧ 4.55 ≤ r.seconds ∧ r.seconds < 4.56 := by
  have e : julianDate .none ⟨⟨1980, 4, 22⟩, 14, 36, 51, 0⟩ = 2444351.5 := by
    rw [C46_counts _ _ (by unfold Representable Valid; decide) (by unfold Earlier lastJulian; decide)]
    have : dayNumber gregorianLeap ⟨1980, 4, 22⟩ = 723293 := by decide +kernel
    rw [this]
    norm_num
  have rn : ∀ x, Rounding.none.rnd x = x := fun _ => rfl
  have v : gstValue .none ⟨⟨1980, 4, 22⟩, 14, 36, 51, 0⟩ = 99638003879945622287 / 21345210000000000000 := by
    simp only [gstValue, e, reduce24, Rounding.sub, Rounding.mul, Rounding.div, Rounding.add, rn]
    norm_num
  have hs : toLong (99638003879945622287 / 21345210000000000000) = some 4 := by
    unfold toLong
    norm_num
  obtain ⟨r, hr, _, _, hsp⟩ := ofDecimal_spec hs
  obtain ⟨h1, h2, h3⟩ := C51_unique (h' := 4) (m' := 40) (s' := 27023879945622287 / 5929225000000000) hsp
    ⟨by norm_num, by norm_num, by rw [abs_lt]; norm_num, by norm_num, by norm_num⟩
  refine ⟨r, ?_, h1, h2, ?_, ?_⟩
  · unfold gst
    rw [v]
    exact hr
  · rw [h3]
    norm_num
  · rw [h3]
    norm_num

/-- C80: fractions of a second are ignored, whatever the rounding. -/
theorem C80_fraction (R : Rounding) (t : PTime) (f : ℕ) (longitude : ℚ) (dir : Direction) :
    gst R { t with fraction := f } = gst R t ∧ lst R longitude dir { t with fraction := f } = lst R longitude dir t := ⟨rfl, rfl⟩

/-! C50 -/

/-- C50: local sidereal time is in [0,24) and is the sidereal time of Greenwich plus (east) or minus (west) one hour for 15 degrees. -/
theorem C50_lst (t : PTime) (l : ℚ) (dir : Direction) :
    ∃ g r, gst .none t = some g ∧ lst .none l dir t = some r ∧ 0 ≤ r.dh ∧ r.dh < 24 ∧
      SameHour r.dh (g.dh + (match dir with | .east => l | .west => -l) / 15) := by
  obtain ⟨g, hg, hgd⟩ := ofDecimal_day (gstValue_range t)
  have hr := lstValue_range l dir (hgd ▸ gstValue_range t : 0 ≤ g.dh ∧ g.dh < 24)
  obtain ⟨r, hr', hrd⟩ := ofDecimal_day hr
  refine ⟨g, r, hg, ?_, hrd ▸ hr.1, hrd ▸ hr.2, ?_⟩
  · unfold lst gst
    rw [hg]
    exact hr'
  · rw [hrd]
    have := lstValue_same l dir g.dh
    cases dir <;> simpa [dirSign] using this

/-- C50: a full turn of longitude changes nothing, and west is the negative of east. -/
theorem C50_periodic (t : PTime) (l : ℚ) (dir : Direction) :
    lst .none (l + 360) dir t = lst .none l dir t ∧ lst .none l .west t = lst .none (-l) .east t := by
  obtain ⟨g, hg, hgd⟩ := ofDecimal_day (gstValue_range t)
  have rg : 0 ≤ g.dh ∧ g.dh < 24 := hgd ▸ gstValue_range t
  have key : ∀ l l' d d', SameHour (g.dh + dirSign d * l / 15) (g.dh + dirSign d' * l' / 15) → lst .none l d t = lst .none l' d' t := by
    intro l l' d d' h
    unfold lst gst
    rw [hg]
    simp only [Option.bind_eq_bind, Option.bind_some]
    rw [((lstValue_same l d g.dh).trans (h.trans (lstValue_same l' d' g.dh).symm)).unique (lstValue_range _ _ rg) (lstValue_range _ _ rg)]
  constructor
  · apply key
    cases dir
    · exact ⟨-1, by simp only [dirSign]; push_cast; ring⟩
    · exact ⟨1, by simp only [dirSign]; push_cast; ring⟩
  · apply key
    exact ⟨0, by simp only [dirSign]; push_cast; ring⟩

example : lstValue .none 64 .west 4.668119 = 4.668119 - 64 / 15 + 0 ∧ lstValue .none 100 .west 4 = 4 - 100 / 15 + 24 := by
  constructor
  · unfold lstValue reduce24 Rounding.sub Rounding.mul Rounding.div Rounding.add Rounding.none
    norm_num
  · unfold lstValue reduce24 Rounding.sub Rounding.mul Rounding.div Rounding.add Rounding.none
    norm_num

/-! C51, C52 -/

/-- C51: hours, minutes and seconds of a decimal hour add up to it, minutes and seconds are below 60, and all have its sign.  The constructor is defined
exactly when the hours fit a `long int`. -/
theorem C51_split (d : ℚ) :
    (∀ r, DecimalHour.ofDecimal .none d = some r → r.dh = d ∧ Split d r.hours r.minutes r.seconds) ∧
      ((DecimalHour.ofDecimal .none d).isSome ↔ -2 ^ 63 - 1 < d ∧ d < 2 ^ 63) := by
  constructor
  · intro r hr
    have : ∃ h, toLong d = some h := by
      unfold DecimalHour.ofDecimal at hr
      cases e : toLong d with
      | none => rw [e] at hr; cases hr
      | some h => exact ⟨h, rfl⟩
    obtain ⟨h, hh⟩ := this
    obtain ⟨r', hr', h1, _, h2⟩ := ofDecimal_spec hh
    rw [hr] at hr'
    cases hr'
    exact ⟨h1, h2⟩
  · have iff : (DecimalHour.ofDecimal .none d).isSome ↔ (toLong d).isSome := by
      cases e : toLong d with
      | none =>
        unfold DecimalHour.ofDecimal
        rw [e]
        simp
      | some h =>
        obtain ⟨r, hr, _⟩ := ofDecimal_spec e
        rw [hr]
        simp
    rw [iff]
    unfold toLong
    simp only
    split
    · rename_i hx
      have e1 : -2 ^ 63 ≤ ⌈d⌉ ↔ (-2 ^ 63 - 1 : ℚ) < d := by
        rw [show (-2 ^ 63 : ℤ) = -2 ^ 63 - 1 + 1 by norm_num, Int.add_one_le_iff, Int.lt_ceil]
        norm_num
      have e2 : ⌈d⌉ < 2 ^ 63 := by
        have : ⌈d⌉ ≤ 0 := Int.ceil_le.2 (by simpa using hx.le)
        omega
      have e3 : d < 2 ^ 63 := by linarith
      simp only [e1, e2, e3, and_true]
      split <;> simp_all
    · rename_i hx
      have e1 : ⌊d⌋ < 2 ^ 63 ↔ d < (2 ^ 63 : ℚ) := by
        rw [Int.floor_lt]
        norm_num
      have e2 : -2 ^ 63 ≤ ⌊d⌋ := by
        have : 0 ≤ ⌊d⌋ := Int.floor_nonneg.2 (by linarith)
        omega
      have e3 : (-2 ^ 63 - 1 : ℚ) < d := by linarith
      simp only [e1, e2, e3, true_and]
      split <;> simp_all

example : ∃ r, DecimalHour.ofDecimal .none (-1.51) = some r ∧ r.hours = -1 ∧ r.minutes = -30 ∧ r.seconds = -36 := by
  obtain ⟨r, hr⟩ := Option.isSome_iff_exists.1 ((C51_split (-1.51)).2.2 (by norm_num))
  have := ((C51_split (-1.51)).1 r hr).2
  obtain ⟨h1, h2, h3⟩ := C51_unique (h' := -1) (m' := -30) (s' := -36) this
    ⟨by norm_num, by norm_num, by norm_num, by norm_num, by norm_num⟩
  exact ⟨r, hr, h1, h2, h3⟩

/-- C52: a decimal hour made of parts has the right value, but all its parts are zero. -/
theorem C52_parts (h m s : ℚ) :
    (DecimalHour.ofParts .none h m s).dh = h + m / 60 + s / 3600 ∧ (DecimalHour.ofParts .none h m s).hours = 0 ∧
      (DecimalHour.ofParts .none h m s).minutes = 0 ∧ (DecimalHour.ofParts .none h m s).seconds = 0 := ⟨rfl, rfl, rfl, rfl⟩

example : (DecimalHour.ofParts .none 4 40 12).dh = 4.67 ∧ (DecimalHour.ofParts .none 4 40 12).hours = 0 := by
  refine ⟨?_, rfl⟩
  rw [(C52_parts 4 40 12).1]
  norm_num

end Astro
