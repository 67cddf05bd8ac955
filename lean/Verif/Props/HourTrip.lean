import Verif.Spec.HourTrip
import Verif.Props.Print

/-
Property C146: a time of day made a decimal hour and taken apart again, in double arithmetic.
-/

namespace Astro

open Astro.Time Spec

theorem ofParts_nonneg (N : Nearest) {h m s : ℚ} (h0 : 0 ≤ h) (m0 : 0 ≤ m) (s0 : 0 ≤ s) : 0 ≤ (DecimalHour.ofParts N.rounding h m s).dh := by
  have up : ∀ {x : ℚ}, 0 ≤ x → 0 ≤ N.rnd x := fun hx => by
    have := near_mono N hx
    rwa [near_zero] at this
  exact up (add_nonneg (up (add_nonneg h0 (up (by positivity)))) (up (by positivity)))

/-- **C146** A time of day, made a decimal hour and taken apart again, comes back within 10^-10 seconds, as hours, minutes and seconds that are not negative
and minutes and seconds below 60. -/
theorem C146_trip (N : Nearest) (h m : ℤ) (s : ℚ) (ht : ClockTime h m s) :
    ∃ r, DecimalHour.ofDecimal N.rounding (DecimalHour.ofParts N.rounding h m s).dh = some r ∧ 0 ≤ r.hours ∧ (0 ≤ r.minutes ∧ r.minutes < 60) ∧
      (0 ≤ r.seconds ∧ r.seconds < 60) ∧ |sinceMidnight r.hours r.minutes r.seconds - sinceMidnight h m s| ≤ 1 / 10 ^ 10 := by
  obtain ⟨⟨h0, h1⟩, ⟨m0, m1⟩, s0, s1⟩ := ht
  have h0' : (0 : ℚ) ≤ h := by exact_mod_cast h0
  have h1' : (h : ℚ) ≤ 24 := by exact_mod_cast h1.le
  have m0' : (0 : ℚ) ≤ m := by exact_mod_cast m0
  have m1' : (m : ℚ) ≤ 60 := by exact_mod_cast m1.le
  obtain ⟨e, hd, -⟩ := C52_double N h m s (by rw [abs_of_nonneg h0']; exact h1') (by rw [abs_of_nonneg m0']; exact m1') (by rw [abs_of_nonneg s0]; exact s1.le)
  have hn := ofParts_nonneg N h0' m0' s0
  generalize (DecimalHour.ofParts N.rounding h m s).dh = d at *
  have hr : d < 2 ^ 63 := by
    have := (abs_le.1 e).2
    norm_num at this ⊢
    linarith
  obtain ⟨r, hr⟩ := Option.isSome_iff_exists.1 ((C90_split N d hd).2.2 ⟨by linarith, hr⟩)
  obtain ⟨-, g⟩ := (C90_split N d hd).1 r hr
  obtain ⟨g1, g2, g3⟩ := g.nonneg hn
  refine ⟨r, hr, g1, ⟨g2, (abs_lt.1 g.minutes).2⟩, ⟨g3, (abs_lt.1 g.seconds).2⟩, ?_⟩
  have a := abs_le.1 e
  have b := abs_le.1 g.sum
  unfold sinceMidnight
  norm_num at a b ⊢
  rw [abs_le]
  constructor <;> linarith [a.1, a.2, b.1, b.2]

/-- **C146** If the seconds are not next to a full minute, hours and minutes are the same and the seconds are off by at most 10^-10. -/
theorem C146_inside (N : Nearest) (h m : ℤ) (s : ℚ) (ht : ClockTime h m s) (lo : 1 / 10 ^ 10 ≤ s) (hi : s < 60 - 1 / 10 ^ 10) :
    ∃ r, DecimalHour.ofDecimal N.rounding (DecimalHour.ofParts N.rounding h m s).dh = some r ∧ r.hours = h ∧ r.minutes = m ∧
      |r.seconds - s| ≤ 1 / 10 ^ 10 := by
  obtain ⟨r, e, a1, a2, a3, a4⟩ := C146_trip N h m s ht
  obtain ⟨hh, hm, hs⟩ := ht
  unfold sinceMidnight at a4
  have b := abs_le.1 a4
  have c1 : ((60 * r.hours + r.minutes : ℤ) : ℚ) < ((60 * h + m + 1 : ℤ) : ℚ) := by push_cast; linarith [b.1, b.2, a3.1, a3.2]
  have c2 : ((60 * h + m - 1 : ℤ) : ℚ) < ((60 * r.hours + r.minutes : ℤ) : ℚ) := by push_cast; linarith [b.1, b.2, a3.1, a3.2]
  rw [Int.cast_lt] at c1 c2
  have d1 : r.hours = h := by omega
  have d2 : r.minutes = m := by omega
  rw [d1, d2] at a4
  exact ⟨r, e, d1, d2, by rwa [add_sub_add_left_eq_sub] at a4⟩

/-- **C146** A full minute comes back as that minute, or as the minute before with seconds just below 60. -/
theorem C146_minute (N : Nearest) (h m : ℤ) (ht : ClockTime h m 0) :
    ∃ r, DecimalHour.ofDecimal N.rounding (DecimalHour.ofParts N.rounding h m 0).dh = some r ∧
      ((r.hours = h ∧ r.minutes = m ∧ r.seconds ≤ 1 / 10 ^ 10) ∨ (60 * r.hours + r.minutes = 60 * h + m - 1 ∧ 60 - 1 / 10 ^ 10 ≤ r.seconds)) := by
  obtain ⟨r, e, a1, a2, a3, a4⟩ := C146_trip N h m 0 ht
  obtain ⟨hh, hm, hs⟩ := ht
  unfold sinceMidnight at a4
  have b := abs_le.1 a4
  have c1 : ((60 * r.hours + r.minutes : ℤ) : ℚ) < ((60 * h + m + 1 : ℤ) : ℚ) := by push_cast; linarith [b.1, b.2, a3.1, a3.2]
  have c2 : ((60 * h + m - 2 : ℤ) : ℚ) < ((60 * r.hours + r.minutes : ℤ) : ℚ) := by push_cast; linarith [b.1, b.2, a3.1, a3.2]
  rw [Int.cast_lt] at c1 c2
  refine ⟨r, e, ?_⟩
  rcases lt_or_ge (60 * r.hours + r.minutes) (60 * h + m) with hc | hc
  · have d : 60 * r.hours + r.minutes = 60 * h + m - 1 := by omega
    have d' : ((60 * r.hours + r.minutes : ℤ) : ℚ) = ((60 * h + m - 1 : ℤ) : ℚ) := by rw [d]
    push_cast at d'
    exact Or.inr ⟨d, by linarith [b.1]⟩
  · have d1 : r.hours = h := by omega
    have d2 : r.minutes = m := by omega
    rw [d1, d2] at b
    exact Or.inl ⟨d1, d2, by linarith [b.2]⟩

/-- **C146** The second happens: from four o'clock in the afternoon on, the minutes 13, 28, 43 and 58 of every hour come back as the minute before, printed with
60.000000 seconds. -/
theorem C146_early (N : Nearest) (h m : ℤ) (h1 : 16 ≤ h) (h2 : h < 24) (hm : m = 13 ∨ m = 28 ∨ m = 43 ∨ m = 58) :
    ∃ r, DecimalHour.ofDecimal N.rounding (DecimalHour.ofParts N.rounding h m 0).dh = some r ∧ r.hours = h ∧ r.minutes = m - 1 ∧
      fixed6 r.seconds = b!"60.000000" := by
  have ht : ClockTime h m 0 := ⟨⟨by omega, h2⟩, by omega, by norm_num, by norm_num⟩
  obtain ⟨j, hj, j0, j3⟩ : ∃ j : ℤ, m = 15 * j + 13 ∧ 0 ≤ j ∧ j ≤ 3 := by
    rcases hm with rfl | rfl | rfl | rfl
    · exact ⟨0, by omega, by omega, by omega⟩
    · exact ⟨1, by omega, by omega, by omega⟩
    · exact ⟨2, by omega, by omega, by omega⟩
    · exact ⟨3, by omega, by omega, by omega⟩
  have h1' : (16 : ℚ) ≤ h := by exact_mod_cast h1
  have h2' : (h : ℚ) ≤ 23 := by exact_mod_cast (by omega : h ≤ 23)
  have j0' : (0 : ℚ) ≤ j := by exact_mod_cast j0
  have j3' : (j : ℚ) ≤ 3 := by exact_mod_cast j3
  have hj' : (m : ℚ) = 15 * j + 13 := by exact_mod_cast hj
  -- the decimal hour
  have hlt : (DecimalHour.ofParts N.rounding h m 0).dh ≤ h + m / 60 - 3 / 2 ^ 51 := by
    have e0 : (DecimalHour.ofParts N.rounding h m 0).dh = N.rnd (h + N.rnd (m / 60)) := by
      show N.rnd (N.rnd (h + N.rnd (m / 60)) + N.rnd (0 / 3600)) = _
      rw [zero_div, near_zero, add_zero, near_exact N (N.isDouble _)]
    have em : |N.rnd ((m : ℚ) / 60) - m / 60| ≤ 2 ^ (-53 : ℤ) / 2 :=
      near_err N _ (-53) (by omega) (by omega) (by
        rw [abs_of_nonneg (by rw [hj']; positivity)]
        norm_num
        rw [hj']
        linarith)
    have em' := abs_le.1 em
    rw [e0]
    -- the double below
    have hD : IsDouble (((h * 2 ^ 48 + j * 2 ^ 46 + 60986244953975 : ℤ) : ℚ) * 2 ^ (-48 : ℤ)) :=
      isDouble_mul _ _ (by rw [abs_of_nonneg (by positivity)]; norm_num; omega) (by omega) (by omega)
    have hlt := near_lt N (x := h + N.rnd (m / 60)) (b := ((h * 2 ^ 48 + j * 2 ^ 46 + 60986244953975 : ℤ) : ℚ) * 2 ^ (-48 : ℤ) + 2 ^ (-48 : ℤ)) hD (by
      push_cast
      norm_num at em'
      rw [hj'] at em' ⊢
      refine abs_lt.2 ⟨?_, ?_⟩
      · norm_num
        linarith [em'.1, em'.2]
      · norm_num)
    have hge : (16 : ℚ) ≤ N.rnd (h + N.rnd (m / 60)) := by
      have h16 : IsDouble 16 := ⟨16, 0, by norm_num, by omega, by omega, by norm_num⟩
      have := near_mono N (x := 16) (y := h + N.rnd (m / 60)) (by
        norm_num at em'
        rw [hj'] at em' ⊢
        linarith [em'.1])
      rwa [near_exact N h16] at this
    obtain ⟨k, hk⟩ := double_multiple (N.isDouble (h + N.rnd (m / 60))) (-48) (by rw [abs_of_nonneg (by linarith)]; norm_num; exact hge)
    rw [hk] at hlt ⊢
    have hk' : k ≤ h * 2 ^ 48 + j * 2 ^ 46 + 60986244953975 := by
      have : (k : ℚ) < ((h * 2 ^ 48 + j * 2 ^ 46 + 60986244953975 + 1 : ℤ) : ℚ) := by
        push_cast at hlt ⊢
        norm_num at hlt ⊢
        linarith
      rw [Int.cast_lt] at this
      omega
    have hk'' : (k : ℚ) ≤ ((h * 2 ^ 48 + j * 2 ^ 46 + 60986244953975 : ℤ) : ℚ) := by exact_mod_cast hk'
    push_cast at hk''
    rw [hj']
    norm_num
    linarith
  obtain ⟨hn, hd, -⟩ := C52_double N h m 0 (by rw [abs_le]; constructor <;> linarith) (by rw [abs_le, hj']; constructor <;> linarith) (by norm_num)
  obtain ⟨r, e, a⟩ := C146_minute N h m ht
  obtain ⟨-, g⟩ := (C90_split N _ hd).1 r e
  have a0 := ofParts_nonneg N (show (0 : ℚ) ≤ h by linarith) (show (0 : ℚ) ≤ m by rw [hj']; linarith) le_rfl
  obtain ⟨g1, g2, g3⟩ := g.nonneg a0
  have gm := abs_lt.1 g.minutes
  have gs := abs_le.1 g.sum
  rcases a with ⟨d1, d2, -⟩ | ⟨d1, d2⟩
  · rw [d1, d2] at gs
    norm_num at gs hlt
    linarith [gs.1]
  · refine ⟨r, e, by omega, by omega, ?_⟩
    refine (C95_sixty r.seconds g.seconds).1.2 ?_
    norm_num at d2 ⊢
    linarith

/-- **C146** Later times have larger decimal hours, as soon as they differ by more than 10^-10 seconds. -/
theorem C146_order (N : Nearest) (h m h' m' : ℤ) (s s' : ℚ) (ht : ClockTime h m s) (ht' : ClockTime h' m' s')
    (lt : sinceMidnight h m s + 1 / 10 ^ 10 ≤ sinceMidnight h' m' s') :
    (DecimalHour.ofParts N.rounding h m s).dh < (DecimalHour.ofParts N.rounding h' m' s').dh := by
  have key : ∀ {h m : ℤ} {s : ℚ}, ClockTime h m s → |(DecimalHour.ofParts N.rounding h m s).dh - (h + m / 60 + s / 3600)| ≤ 1 / 2 ^ 47 := by
    intro h m s ht
    obtain ⟨⟨h0, h1⟩, ⟨m0, m1⟩, s0, s1⟩ := ht
    have h0' : (0 : ℚ) ≤ h := by exact_mod_cast h0
    have h1' : (h : ℚ) ≤ 24 := by exact_mod_cast h1.le
    have m0' : (0 : ℚ) ≤ m := by exact_mod_cast m0
    have m1' : (m : ℚ) ≤ 60 := by exact_mod_cast m1.le
    exact (C52_double N h m s (by rw [abs_of_nonneg h0']; exact h1') (by rw [abs_of_nonneg m0']; exact m1') (by rw [abs_of_nonneg s0]; exact s1.le)).1
  have a := abs_le.1 (key ht)
  have b := abs_le.1 (key ht')
  unfold sinceMidnight at lt
  norm_num at a b lt
  linarith [a.1, a.2, b.1, b.2]

/-- Two minutes to midnight comes back as 23h 57m 60.000000s; half past nine and 30 seconds comes back as it was, up to the seconds. -/
example (N : Nearest) : (∃ r, DecimalHour.ofDecimal N.rounding (DecimalHour.ofParts N.rounding 23 58 0).dh = some r ∧
      r.print = b!"Hours: 23h 57m 60.000000s ") ∧
    ∃ r, DecimalHour.ofDecimal N.rounding (DecimalHour.ofParts N.rounding 9 30 30).dh = some r ∧ r.hours = 9 ∧ r.minutes = 30 ∧ |r.seconds - 30| ≤ 1 / 10 ^ 10 := by
  constructor
  · obtain ⟨r, e, h1, h2, h3⟩ := C146_early N 23 58 (by norm_num) (by norm_num) (by norm_num)
    refine ⟨r, by exact_mod_cast e, ?_⟩
    rw [DecimalHour.print, h1, h2, h3]
    rfl
  · exact_mod_cast C146_inside N 9 30 30 ⟨by norm_num, by norm_num, by norm_num, by norm_num⟩ (by norm_num) (by norm_num)

end Astro
