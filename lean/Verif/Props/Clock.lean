import Verif.Lemmas.Clock
import Verif.Props.TimeDouble

/-
Sidereal time as a clock (C136): how much GST and LST advance between two moments, in `double` arithmetic that rounds to nearest.
-/

namespace Astro

open Astro.Spec Astro.Time

/-- C136: between two moments after 1 October 1582 Greenwich sidereal time advances by 1.002737909 sidereal hours for every hour, up to whole days, two
nanohours and 0.13 microhours (half a millisecond) for every day. -/
theorem C136_gst (N : Nearest) (s t : PTime) (hs : Representable s.date) (ht : Representable t.date) (s' : TimeOfDay s) (t' : TimeOfDay t)
    (ls : Earlier lastJulian s.date) (lt : Earlier lastJulian t.date) :
    ∃ a b, gst N.rounding s = some a ∧ gst N.rounding t = some b ∧
      NearHour (b.dh - a.dh) (1.002737909 * elapsedHours gregorianLeap s t)
        (2 / 10 ^ 9 + 1.3 / 10 ^ 7 * |(dayNumber gregorianLeap t.date : ℚ) - dayNumber gregorianLeap s.date|) := by
  obtain ⟨a, ha, -, -, -, na⟩ := C88_gst N s hs s' ls
  obtain ⟨b, hb, -, -, -, nb⟩ := C88_gst N t ht t' lt
  refine ⟨a, b, ha, hb, ?_⟩
  have := hour_trans (hour_sub na nb) (formula_near (dayNumber gregorianLeap s.date) (dayNumber gregorianLeap t.date) 730486.5 (universalTime s) (universalTime t)
    (by norm_num) (by norm_num) (dayNumber_le hs.1 hs.2.2) (dayNumber_le ht.1 ht.2.2))
  refine Eq.subst (motive := fun e => NearHour _ _ e) ?_ this
  norm_num

/-- C136: the same up to 1 October 1582, the days being counted in the Julian calendar. -/
theorem C136_gst_julian (N : Nearest) (s t : PTime) (hs : Representable s.date) (ht : Representable t.date) (s' : TimeOfDay s) (t' : TimeOfDay t)
    (ls : ¬ Earlier lastJulian s.date) (lt : ¬ Earlier lastJulian t.date) :
    ∃ a b, gst N.rounding s = some a ∧ gst N.rounding t = some b ∧
      NearHour (b.dh - a.dh) (1.002737909 * elapsedHours julianLeap s t)
        (2 / 10 ^ 9 + 1.3 / 10 ^ 7 * |(dayNumber julianLeap t.date : ℚ) - dayNumber julianLeap s.date|) := by
  obtain ⟨a, ha, -, -, -, na⟩ := C88_gst_julian N s hs s' ls
  obtain ⟨b, hb, -, -, -, nb⟩ := C88_gst_julian N t ht t' lt
  refine ⟨a, b, ha, hb, ?_⟩
  have := hour_trans (hour_sub na nb) (formula_near (dayNumber julianLeap s.date) (dayNumber julianLeap t.date) 730488.5 (universalTime s) (universalTime t)
    (by norm_num) (by norm_num) (dayNumber_le (valid_julian hs.1) hs.2.2) (dayNumber_le (valid_julian ht.1) ht.2.2))
  refine Eq.subst (motive := fun e => NearHour _ _ e) ?_ this
  norm_num

/-- C136: local sidereal time at one place advances like that of Greenwich, up to 2^-45 hours. -/
theorem C136_lst (N : Nearest) (s t : PTime) (hs : Representable s.date) (ht : Representable t.date) (s' : TimeOfDay s) (t' : TimeOfDay t)
    (l : ℚ) (hl : |l| ≤ 720) (dir : Direction) :
    ∃ a b c d, gst N.rounding s = some a ∧ gst N.rounding t = some b ∧ lst N.rounding l dir s = some c ∧ lst N.rounding l dir t = some d ∧
      NearHour (d.dh - c.dh) (b.dh - a.dh) (1 / 2 ^ 45) := by
  obtain ⟨a, c, ha, hc, -, -, nc⟩ := C89_lst N s hs s' l hl dir
  obtain ⟨b, d, hb, hd, -, -, nd⟩ := C89_lst N t ht t' l hl dir
  refine ⟨a, b, c, d, ha, hb, hc, hd, ?_⟩
  have := hour_sub nc nd
  rw [add_sub_add_right_eq_sub] at this
  refine Eq.subst (motive := fun e => NearHour _ _ e) ?_ this
  norm_num

/-- C136: a sidereal day: 23 hours, 56 minutes and 4 seconds later (after 1 October 1582) the stars are where they were, up to a tenth of a second. -/
theorem C136_sidereal_day (N : Nearest) (s t : PTime) (hs : Representable s.date) (ht : Representable t.date) (s' : TimeOfDay s) (t' : TimeOfDay t)
    (ls : Earlier lastJulian s.date) (lt : Earlier lastJulian t.date) (he : elapsedHours gregorianLeap s t = 23 + 56 / 60 + 4 / 3600) :
    ∃ a b, gst N.rounding s = some a ∧ gst N.rounding t = some b ∧ NearHour b.dh a.dh (0.1 / 3600) := by
  obtain ⟨a, b, ha, hb, k, hk⟩ := C136_gst N s t hs ht s' t' ls lt
  refine ⟨a, b, ha, hb, k + 1, ?_⟩
  have bound : ∀ u : PTime, TimeOfDay u → 0 ≤ universalTime u ∧ universalTime u < 24 := by
    intro u hu
    have h1 : (u.hours : ℚ) ≤ 23 := by exact_mod_cast Nat.le_of_lt_succ hu.1
    have h2 : (u.minutes : ℚ) ≤ 59 := by exact_mod_cast Nat.le_of_lt_succ hu.2.1
    have h3 : (u.seconds : ℚ) ≤ 59 := by exact_mod_cast Nat.le_of_lt_succ hu.2.2
    unfold universalTime
    exact ⟨by positivity, by linarith⟩
  have d1 : |(dayNumber gregorianLeap t.date : ℚ) - dayNumber gregorianLeap s.date| ≤ 2 := by
    have := bound s s'
    have := bound t t'
    unfold elapsedHours at he
    rw [abs_le]
    constructor <;> linarith
  rw [he] at hk
  have := hk.trans (add_le_add_right (mul_le_mul_of_nonneg_left d1 (by norm_num)) _)
  rw [abs_le] at *
  push_cast
  norm_num at *
  constructor <;> linarith [this.1, this.2]

/-- C136: at the change of the calendar the clock jumps: from 1 to 2 October 1582 it goes back by 35 minutes and 29 seconds instead of going on by four minutes. -/
theorem C136_switch (N : Nearest) (s t : PTime) (hs : s.date = ⟨1582, 10, 1⟩) (ht : t.date = ⟨1582, 10, 2⟩) (s' : TimeOfDay s)
    (hu : t.hours = s.hours ∧ t.minutes = s.minutes ∧ t.seconds = s.seconds) :
    ∃ a b, gst N.rounding s = some a ∧ gst N.rounding t = some b ∧ NearHour (b.dh - a.dh) (-(35 / 60 + 29 / 3600)) (0.1 / 3600) := by
  have t' : TimeOfDay t := by
    unfold TimeOfDay
    rw [hu.1, hu.2.1, hu.2.2]
    exact s'
  have u : universalTime t = universalTime s := by
    unfold universalTime
    rw [hu.1, hu.2.1, hu.2.2]
  obtain ⟨a, ha, -, -, -, na⟩ := C88_gst_julian N s (by rw [hs]; unfold Representable Valid; decide) s' (by rw [hs]; unfold Earlier lastJulian; decide)
  obtain ⟨b, hb, -, -, -, nb⟩ := C88_gst N t (by rw [ht]; unfold Representable Valid; decide) t' (by rw [ht]; unfold Earlier lastJulian; decide)
  refine ⟨a, b, ha, hb, ?_⟩
  have yj : dayNumber julianLeap s.date = 578100 := by rw [hs]; decide +kernel
  have yg : dayNumber gregorianLeap t.date = 578089 := by rw [ht]; decide +kernel
  rw [yj] at na
  rw [yg, u] at nb
  obtain ⟨k, hk⟩ := hour_sub na nb
  refine ⟨k, ?_⟩
  unfold siderealFormula at hk
  rw [abs_le] at *
  norm_num at *
  constructor <;> linarith [hk.1, hk.2]

/-- 1980 April 22, 11:36:51, and 23 hours, 56 minutes and 4 seconds later. -/
example (N : Nearest) : ∃ a b, gst N.rounding ⟨⟨1980, 4, 22⟩, 11, 36, 51, 0⟩ = some a ∧ gst N.rounding ⟨⟨1980, 4, 23⟩, 11, 32, 55, 0⟩ = some b ∧
    NearHour b.dh a.dh (0.1 / 3600) := by
  have e : dayNumber gregorianLeap ⟨1980, 4, 22⟩ = 723293 := by decide +kernel
  have e' : dayNumber gregorianLeap ⟨1980, 4, 23⟩ = 723294 := by decide +kernel
  refine C136_sidereal_day N _ _ (by unfold Representable Valid; decide) (by unfold Representable Valid; decide) (by unfold TimeOfDay; decide)
    (by unfold TimeOfDay; decide) (by unfold Earlier lastJulian; decide) (by unfold Earlier lastJulian; decide) ?_
  simp only [elapsedHours, e, e', universalTime]
  norm_num

end Astro
