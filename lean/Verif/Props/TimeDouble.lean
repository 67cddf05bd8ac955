import Verif.Lemmas.TimeDouble
import Verif.Props.Time

/-
Sidereal time and decimal hours in `double` arithmetic that rounds to nearest (C88 to C90).  `N` is any function that takes a number to a double closest to
it, so nothing depends on what happens to ties; every operation of the code is rounded.
-/

namespace Astro

open Astro.Spec Astro.Time

/-! C88 -/

/-- C88: in double arithmetic, too, Greenwich sidereal time is in [0,24), and up to whole days it is less than four microseconds (1e-9 hours) away from
what the polynomial gives; `dayNumber - 730486.5` days have passed since 2000 January 1 noon. -/
theorem C88_gst (N : Nearest) (t : PTime) (h : Representable t.date) (ht : TimeOfDay t) (hl : Earlier lastJulian t.date) :
    ∃ r, gst N.rounding t = some r ∧ IsDouble r.dh ∧ 0 ≤ r.dh ∧ r.dh < 24 ∧
      NearHour r.dh (siderealFormula ((dayNumber gregorianLeap t.date - 730486.5) / 36525) (universalTime t)) (1 / 10 ^ 9) := by
  have hd := dayNumber_le h.1 h.2.2
  have hj := julian_late N.rounding t h hl
  obtain ⟨dv, v0, v24, hn⟩ := gst_near N t ht (dayNumber gregorianLeap t.date + 1721058) (by rw [hj]; push_cast; ring) (by omega) (by omega)
  obtain ⟨r, hr, e⟩ := ofDecimal_double_day N dv (by linarith) v24.le
  refine ⟨r, hr, e ▸ dv, e ▸ v0, e ▸ v24, ?_⟩
  rw [e]
  convert hn using 3
  push_cast
  ring

/-- C88: up to 1 October 1582 likewise, the day being counted in the Julian calendar. -/
theorem C88_gst_julian (N : Nearest) (t : PTime) (h : Representable t.date) (ht : TimeOfDay t) (hl : ¬ Earlier lastJulian t.date) :
    ∃ r, gst N.rounding t = some r ∧ IsDouble r.dh ∧ 0 ≤ r.dh ∧ r.dh < 24 ∧
      NearHour r.dh (siderealFormula ((dayNumber julianLeap t.date - 730488.5) / 36525) (universalTime t)) (1 / 10 ^ 9) := by
  have hd := dayNumber_le (valid_julian h.1) h.2.2
  have hj := julian_early N.rounding t h hl
  obtain ⟨dv, v0, v24, hn⟩ := gst_near N t ht (dayNumber julianLeap t.date + 1721056) (by rw [hj]; push_cast; ring) (by omega) (by omega)
  obtain ⟨r, hr, e⟩ := ofDecimal_double_day N dv (by linarith) v24.le
  refine ⟨r, hr, e ▸ dv, e ▸ v0, e ▸ v24, ?_⟩
  rw [e]
  convert hn using 3
  push_cast
  ring

/-- 1980 April 22, 11:36:51: between 1h 39m 30s and 1h 39m 36s. -/
theorem exGst (N : Nearest) : ∃ r, gst N.rounding ⟨⟨1980, 4, 22⟩, 11, 36, 51, 0⟩ = some r ∧ IsDouble r.dh ∧ 1.6595 ≤ r.dh ∧ r.dh < 1.66 := by
  obtain ⟨r, hr, dr, h0, h24, k, hk⟩ := C88_gst N ⟨⟨1980, 4, 22⟩, 11, 36, 51, 0⟩ (by unfold Representable Valid; decide) (by unfold TimeOfDay; decide)
    (by unfold Earlier lastJulian; decide)
  have e : dayNumber gregorianLeap ⟨1980, 4, 22⟩ = 723293 := by decide +kernel
  simp only [e, siderealFormula, universalTime] at hk
  have hk' := abs_le.1 hk
  norm_num at hk'
  have k1 : (18 : ℚ) < k := by linarith [hk'.1, hk'.2]
  have k2 : (k : ℚ) < 20 := by linarith [hk'.1, hk'.2]
  have k1' : 18 < k := by exact_mod_cast k1
  have k2' : k < 20 := by exact_mod_cast k2
  obtain rfl : k = 19 := by omega
  refine ⟨r, hr, dr, ?_, ?_⟩ <;> norm_num at hk' ⊢ <;> linarith [hk'.1, hk'.2]

/-! C89 -/

/-- C89: in double arithmetic local sidereal time is the sidereal time of Greenwich plus (east) or minus (west) one hour for 15 degrees, up to whole days and
2^-46 hours; it is at most 24 and not below zero (but for underflow, when the sum of both is a negative number above -2^-1000). -/
theorem C89_lst (N : Nearest) (t : PTime) (h : Representable t.date) (ht : TimeOfDay t) (l : ℚ) (hl : |l| ≤ 720) (dir : Direction) :
    ∃ g r, gst N.rounding t = some g ∧ lst N.rounding l dir t = some r ∧ -2 ^ (-1000 : ℤ) < r.dh ∧ r.dh ≤ 24 ∧
      NearHour r.dh (g.dh + (match dir with | .east => l | .west => -l) / 15) (1 / 2 ^ 46) := by
  obtain ⟨g, hg, dg, g0, g24⟩ : ∃ g, gst N.rounding t = some g ∧ IsDouble g.dh ∧ 0 ≤ g.dh ∧ g.dh < 24 := by
    by_cases hj : Earlier lastJulian t.date
    · obtain ⟨g, a, b, c, d, _⟩ := C88_gst N t h ht hj
      exact ⟨g, a, b, c, d⟩
    · obtain ⟨g, a, b, c, d, _⟩ := C88_gst_julian N t h ht hj
      exact ⟨g, a, b, c, d⟩
  obtain ⟨dv, v0, v24, hn⟩ := lstValue_near N dir dg g0 g24 hl
  obtain ⟨r, hr, e⟩ := ofDecimal_double_day N dv (by linarith [tiny_le]) v24
  refine ⟨g, r, hg, ?_, e ▸ v0, e ▸ v24, ?_⟩
  · unfold lst
    rw [hg]
    exact hr
  · rw [e]
    convert hn using 2
    cases dir <;> simp [dirSign]

/-- C89: 24 hours do occur: at every moment when the sidereal time of Greenwich is between 1/2 and 15/8 hours there is a western longitude (a double below 29
degrees) for which local sidereal time is 24, not 0. -/
theorem C89_24 (N : Nearest) (t : PTime) (g : DecimalHour) (hg : gst N.rounding t = some g) (dg : IsDouble g.dh) (h1 : 1 / 2 ≤ g.dh) (h2 : g.dh ≤ 15 / 8) :
    ∃ l r, IsDouble l ∧ 0 < l ∧ l < 29 ∧ lst N.rounding l .west t = some r ∧ r.dh = 24 ∧ r.hours = 24 := by
  obtain ⟨l, hl⟩ : ∃ l, l = N.rnd (15 * (g.dh + 1 / 2 ^ 51)) := ⟨_, rfl⟩
  have dl : IsDouble l := hl ▸ N.isDouble _
  have el : |l - 15 * (g.dh + 1 / 2 ^ 51)| ≤ 1 / 2 ^ 49 := by
    rw [hl]
    exact near_step N (-48) (by omega) (by omega) (B := 29) (E := 0) (by rw [abs_of_nonneg (by positivity)]; norm_num; linarith) (by simp) (by norm_num) (by norm_num)
  have el' := abs_le.1 el
  have l0 : 0 < l := by norm_num at el'; linarith [el'.1]
  have l29 : l < 29 := by norm_num at el'; linarith [el'.2]
  have e1 : |N.rnd (l / 15) - l / 15| ≤ 1 / 2 ^ 53 := by
    refine near_step N (-52) (by omega) (by omega) (B := 2) (E := 0) ?_ (by simp) (by norm_num) (by norm_num)
    rw [abs_of_nonneg (by linarith)]
    linarith
  have e1' := abs_le.1 e1
  have dq := N.isDouble (l / 15)
  generalize hq : N.rnd (l / 15) = q at *
  -- the difference is a small negative double
  have dlt : g.dh - q < 0 := by norm_num at e1' el' ⊢; linarith [e1'.1, el'.1]
  have dgt : -1 / 2 ^ 50 < g.dh - q := by norm_num at e1' el' ⊢; linarith [e1'.2, el'.2]
  have q1 : 1 / 2 ≤ q := by linarith
  obtain ⟨a, ha⟩ := double_multiple dg (-53) (by rw [abs_of_nonneg (by linarith)]; norm_num; linarith)
  obtain ⟨b, hb⟩ := double_multiple dq (-53) (by rw [abs_of_nonneg (by linarith)]; norm_num; linarith)
  have hp : (2 : ℚ) ^ (-53 : ℤ) = 1 / 2 ^ 53 := by norm_num
  have dd : IsDouble (-q + g.dh) := by
    have : -q + g.dh = ((a - b : ℤ) : ℚ) * 2 ^ (-53 : ℤ) := by rw [ha, hb]; push_cast; ring
    rw [this]
    refine isDouble_mul _ _ ?_ (by omega) (by omega)
    have e : g.dh - q = ((a - b : ℤ) : ℚ) * (1 / 2 ^ 53) := by rw [ha, hb, hp]; push_cast; ring
    rw [e] at dlt dgt
    have u : ((a - b : ℤ) : ℚ) < ((0 : ℤ) : ℚ) := by push_cast at *; linarith
    have v : ((-8 : ℤ) : ℚ) < ((a - b : ℤ) : ℚ) := by push_cast at *; linarith
    have u' : a - b < 0 := by exact_mod_cast u
    have v' : -8 < a - b := by exact_mod_cast v
    rw [abs_le]
    constructor <;> omega
  have hv : lstValue N.rounding l .west g.dh = 24 := by
    have e2 : lstValue N.rounding l .west g.dh = reduce24 N.rounding (-q + g.dh) := by
      rw [lstValue_east, if_neg l0.ne', hq]
      simp only [dirSign]
      rw [show (-1 : ℚ) * q + g.dh = -q + g.dh by ring, near_exact N dd]
    rw [e2]
    have fl : ⌊(-q + g.dh) / 24⌋ = -1 := by
      rw [Int.floor_eq_iff]
      push_cast
      norm_num at dgt dlt ⊢
      constructor <;> linarith
    have sm : -q + g.dh ≤ -2 ^ (-1000 : ℤ) := by
      have e : g.dh - q = ((a - b : ℤ) : ℚ) * (1 / 2 ^ 53) := by rw [ha, hb, hp]; push_cast; ring
      have u : ((a - b : ℤ) : ℚ) < ((0 : ℤ) : ℚ) := by rw [e] at dlt; push_cast at *; linarith
      have u' : a - b < 0 := by exact_mod_cast u
      have u'' : ((a - b : ℤ) : ℚ) ≤ ((-1 : ℤ) : ℚ) := by exact_mod_cast (by omega : a - b ≤ -1)
      have t : (2 : ℚ) ^ (-1000 : ℤ) ≤ 1 / 2 ^ 60 := by
        refine le_trans (zpow_le_zpow_right₀ (by norm_num : (1 : ℚ) ≤ 2) (by norm_num : (-1000 : ℤ) ≤ -60)) (by norm_num)
      generalize (2 : ℚ) ^ (-1000 : ℤ) = w at *
      push_cast at *
      linarith
    have ff := floor24 N dd (by rw [abs_lt]; norm_num at dgt dlt ⊢; constructor <;> linarith) (.inr sm)
    unfold reduce24 Rounding.sub Rounding.mul Rounding.div
    rw [show N.rounding.rnd = N.rnd from rfl, ff, fl]
    have e : N.rnd (24 * ((-1 : ℤ) : ℚ)) = -24 := by
      have := near_exact N (isDouble_int (-24) (by norm_num))
      push_cast at this ⊢
      norm_num at this ⊢
      exact this
    rw [e, sub_neg_eq_add]
    have d24 : IsDouble 24 := by simpa using isDouble_int 24 (by norm_num)
    refine le_antisymm ?_ ?_
    · have := near_mono N (show -q + g.dh + 24 ≤ 24 by linarith)
      rwa [near_exact N d24] at this
    · by_contra hlt
      rw [not_le] at hlt
      have hd := N.isDouble (-q + g.dh + 24)
      have herr := (abs_le.1 (N.closest (-q + g.dh + 24) 24 d24)).1
      rw [show |24 - (-q + g.dh + 24)| = q - g.dh by rw [show (24 : ℚ) - (-q + g.dh + 24) = q - g.dh by ring, abs_of_pos (by linarith)]] at herr
      obtain ⟨k, hk⟩ := double_multiple hd (-48) (by rw [abs_of_nonneg (by norm_num at dgt; linarith)]; norm_num at dgt ⊢; linarith)
      have hp48 : (2 : ℚ) ^ (-48 : ℤ) = 1 / 2 ^ 48 := by norm_num
      rw [hk, hp48] at hlt herr
      have g1 : (k : ℚ) < ((24 * 2 ^ 48 : ℤ) : ℚ) := by push_cast; linarith
      have g2 : k < 24 * 2 ^ 48 := by exact_mod_cast g1
      have g3 : (k : ℚ) ≤ ((24 * 2 ^ 48 - 1 : ℤ) : ℚ) := by exact_mod_cast (by omega : k ≤ 24 * 2 ^ 48 - 1)
      push_cast at g3
      norm_num at g3 herr dgt
      linarith
  have d24 : IsDouble 24 := by simpa using isDouble_int 24 (by norm_num)
  have tl : toLong 24 = some 24 := by
    unfold toLong
    norm_num
  obtain ⟨r, hr, e, eh, _⟩ := ofDecimal_double N d24 tl
  refine ⟨l, r, dl, l0, l29, ?_, e, eh⟩
  unfold lst
  rw [hg]
  simp only [Option.bind_eq_bind, Option.bind_some]
  rw [hv, hr]

/-- On 1980 April 22, 11:36:51 it happens. -/
example (N : Nearest) : ∃ l r, |l| ≤ 29 ∧ lst N.rounding l .west ⟨⟨1980, 4, 22⟩, 11, 36, 51, 0⟩ = some r ∧ r.hours = 24 := by
  obtain ⟨g, hg, dg, g1, g2⟩ := exGst N
  obtain ⟨l, r, _, l0, l29, hr, _, h24⟩ := C89_24 N _ g hg dg (by norm_num at g1 ⊢; linarith) (by norm_num at g2 ⊢; linarith)
  exact ⟨l, r, by rw [abs_of_pos l0]; exact l29.le, hr, h24⟩

/-! C90 -/

/-- C90: in double arithmetic hours, minutes and seconds of a decimal hour have its sign, minutes and seconds are below 60 (not 60, although products are
rounded), and they add up to it within 2^-53 hours.  The constructor is defined for the doubles from -2^63 up to 2^63. -/
theorem C90_split (N : Nearest) (d : ℚ) (hd : IsDouble d) :
    (∀ r, DecimalHour.ofDecimal N.rounding d = some r → r.dh = d ∧ NearSplit d r.hours r.minutes r.seconds (1 / 2 ^ 53)) ∧
      ((DecimalHour.ofDecimal N.rounding d).isSome ↔ -2 ^ 63 - 1 < d ∧ d < 2 ^ 63) := by
  have key : (DecimalHour.ofDecimal N.rounding d).isSome ↔ (toLong d).isSome := by
    constructor
    · intro h
      cases e : toLong d with
      | none => unfold DecimalHour.ofDecimal at h; rw [e] at h; cases h
      | some n => rfl
    · intro h
      obtain ⟨n, hn⟩ := Option.isSome_iff_exists.1 h
      obtain ⟨r, hr, _⟩ := ofDecimal_double N hd hn
      rw [hr]
      rfl
  constructor
  · intro r hr
    obtain ⟨n, hn⟩ := Option.isSome_iff_exists.1 (key.1 (by rw [hr]; rfl))
    obtain ⟨r', hr', h1, _, h2⟩ := ofDecimal_double N hd hn
    rw [hr] at hr'
    cases hr'
    exact ⟨h1, h2⟩
  · rw [key, ← (C51_split d).2]
    constructor
    · intro h
      obtain ⟨n, hn⟩ := Option.isSome_iff_exists.1 h
      obtain ⟨r, hr, _⟩ := ofDecimal_spec hn
      rw [hr]
      rfl
    · intro h
      cases e : toLong d with
      | none => unfold DecimalHour.ofDecimal at h; rw [e] at h; cases h
      | some n => rfl

/-- One and a half hours. -/
example (N : Nearest) : ∃ r, DecimalHour.ofDecimal N.rounding (3 / 2) = some r ∧ r.hours = 1 ∧ r.minutes = 30 ∧ r.seconds = 0 := by
  have tl : toLong (3 / 2) = some 1 := by unfold toLong; norm_num
  have d32 : IsDouble (3 / 2) := by simpa using isDouble_half 3 (by norm_num)
  have d12 : IsDouble (1 / 2) := by simpa using isDouble_half 1 (by norm_num)
  have d30 : N.rnd 30 = 30 := near_exact N (by simpa using isDouble_int 30 (by norm_num))
  have tl2 : toLong 30 = some 30 := by unfold toLong; norm_num
  refine ⟨⟨3 / 2, 1, 30, 0⟩, ?_, rfl, rfl, rfl⟩
  unfold DecimalHour.ofDecimal Rounding.mul Rounding.sub
  rw [tl, show N.rounding.rnd = N.rnd from rfl]
  simp only [Option.bind_eq_bind, Option.bind_some]
  rw [show (3 / 2 : ℚ) - ((1 : ℤ) : ℚ) = 1 / 2 by norm_num, near_exact N d12, show (1 / 2 : ℚ) * 60 = 30 by norm_num, d30, tl2]
  simp [near_zero]

/-! C52 in double arithmetic -/

/-- C52: in double arithmetic the value of a decimal hour made of parts is right to 2^-47 hours (for a day's worth), and its parts are zero. -/
theorem C52_double (N : Nearest) (h m s : ℚ) (hh : |h| ≤ 24) (hm : |m| ≤ 60) (hs : |s| ≤ 60) :
    |(DecimalHour.ofParts N.rounding h m s).dh - (h + m / 60 + s / 3600)| ≤ 1 / 2 ^ 47 ∧ IsDouble (DecimalHour.ofParts N.rounding h m s).dh ∧
    (DecimalHour.ofParts N.rounding h m s).hours = 0 ∧ (DecimalHour.ofParts N.rounding h m s).minutes = 0 ∧
    (DecimalHour.ofParts N.rounding h m s).seconds = 0 := by
  refine ⟨?_, N.isDouble _, rfl, rfl, rfl⟩
  have e : (DecimalHour.ofParts N.rounding h m s).dh = N.rnd (N.rnd (h + N.rnd (m / 60)) + N.rnd (s / 3600)) := rfl
  rw [e]
  have h1 := abs_le.1 hh
  have h2 := abs_le.1 hm
  have h3 := abs_le.1 hs
  have bm : |m / 60| ≤ 1 := by rw [abs_le]; constructor <;> linarith [h2.1, h2.2]
  have bs : |s / 3600| ≤ 1 / 60 := by rw [abs_le]; constructor <;> linarith [h3.1, h3.2]
  have em : |N.rnd (m / 60) - m / 60| ≤ 1 / 2 ^ 54 :=
    near_step N (-53) (by omega) (by omega) bm (E := 0) (by simp) (by norm_num) (by norm_num)
  have es : |N.rnd (s / 3600) - s / 3600| ≤ 1 / 2 ^ 59 :=
    near_step N (-58) (by omega) (by omega) bs (E := 0) (by simp) (by norm_num) (by norm_num)
  have e1 : |(h + N.rnd (m / 60)) - (h + m / 60)| ≤ 0 + 1 / 2 ^ 54 := add_err (by simp) em
  have b1 : |h + m / 60| ≤ 25 := by
    rw [abs_le] at bm ⊢
    constructor <;> linarith [bm.1, bm.2, h1.1, h1.2]
  have e2 : |N.rnd (h + N.rnd (m / 60)) - (h + m / 60)| ≤ 1 / 2 ^ 49 + 1 / 2 ^ 54 :=
    near_step N (-48) (by omega) (by omega) b1 e1 (by norm_num) (by norm_num)
  have e3 := add_err e2 es
  have b2 : |h + m / 60 + s / 3600| ≤ 26 := by
    rw [abs_le] at b1 bs ⊢
    constructor <;> linarith [b1.1, b1.2, bs.1, bs.2]
  refine near_step N (-48) (by omega) (by omega) b2 e3 (by norm_num) ?_
  norm_num

/-- 4 hours, 40 minutes and 12 seconds are 4.67 hours. -/
example (N : Nearest) : |(DecimalHour.ofParts N.rounding 4 40 12).dh - 4.67| ≤ 1 / 2 ^ 47 := by
  have := (C52_double N 4 40 12 (by norm_num) (by norm_num) (by norm_num)).1
  norm_num at this ⊢
  exact this

end Astro
