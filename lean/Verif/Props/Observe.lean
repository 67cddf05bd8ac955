import Verif.Lemmas.Observe

/-
C135: azimuth and altitude of a star, from the moment and the place, in doubles.
-/

set_option exponentiation.threshold 3000

namespace Astro

open Spec Time Matrix

attribute [local irreducible] FloatFmt.nearest FloatFmt.value Dbl.round

/-- **C135.** Azimuth and altitude point to where the star is by the formulas of the textbook, up to 2^-22 + 2^-31 rad (a twentieth of a second of arc), unless the altitude is NaN. -/
theorem C135_direction {T : Trig} {I : InverseTrig} (hT : Accurate T) (hI : AccurateInverse I) (hP : PassesNaN T) (N : Nearest) (t : PTime) (h : Representable t.date)
    (ht : TimeOfDay t) (l : ℚ) (hl : |l| ≤ 720) (dir : Direction) (φ α δ : ℚ) (hφ : |φ| ≤ 360) (hα : |α| ≤ 360) (hδ : |δ| ≤ 360) {s : ℚ} (hs : GreenwichHour t s) :
    ∃ p, azimuthAltitude T I N t l dir φ α δ = some p ∧ (p.2 ≠ .nan → ∃ a h : ℚ, p = (.num a, .num h) ∧ |(h : ℝ)| ≤ Real.pi / 2 + 2 ^ (-52 : ℤ) ∧
      chord (Coord.columnVector a h) (overHorizon (degree φ) (degree (15 * s + eastward l dir) - degree α) (degree δ)) ≤ 2 ^ (-22 : ℤ) + 2 ^ (-31 : ℤ)) := by
  obtain ⟨r, hr, hst, k, hk⟩ := sidereal_degrees N t h ht l hl dir hs
  refine ⟨_, by unfold azimuthAltitude; rw [hr]; rfl, ?_⟩
  intro hn
  generalize N.rnd (15 * r.dh) = st at *
  obtain ⟨a, b, e1, e2⟩ := C131_degrees hT hI hP [(.hourAngle, st), (.horizon, φ)] (by simp [hst, hφ]) α δ hα hδ _ rfl hn
  refine ⟨a, b, e1, convert_range hI _ _ (congrArg Prod.snd e1), ?_⟩
  have e3 : turned ([(.hourAngle, st), (.horizon, φ)].map fun s : Conversion × ℚ => (s.1, degree s.2)) (Coord.columnVector (degree α) (degree δ)) =
      overHorizon (degree φ) (degree st - degree α) (degree δ) := turned_horizon _ _ _ _
  rw [e3] at e2
  have e4 := overHorizon_close (degree φ) (degree δ) (degree st - degree α) (degree (15 * s + eastward l dir) - degree α) k (e := 27 / 10 ^ 11)
    (by convert hk using 2; ring)
  refine (chord_triangle _ _ _).trans ((add_le_add e2 e4).trans ?_)
  norm_num

/-- C135: if star and altitude are not too near to the poles and the zenith, both numbers exist and are exact to 2^-31 rad (a ten thousandth of a second of arc). -/
theorem C135_moderate {T : Trig} {I : InverseTrig} (hT : Accurate T) (hI : AccurateInverse I) (N : Nearest) (t : PTime) (h : Representable t.date)
    (ht : TimeOfDay t) (l : ℚ) (hl : |l| ≤ 720) (dir : Direction) (φ α δ : ℚ) (hφ : |φ| ≤ 360) (hα : |α| ≤ 360) (hδ : |δ| ≤ 360) {s : ℚ} (hs : GreenwichHour t s)
    (h1 : |Real.sin (degree δ)| ≤ 3 / 4) (h2 : |overHorizon (degree φ) (degree (15 * s + eastward l dir) - degree α) (degree δ) 2| ≤ 7 / 10) :
    ∃ a h : ℚ, azimuthAltitude T I N t l dir φ α δ = some (.num a, .num h) ∧ |(h : ℝ)| ≤ Real.pi / 2 + 2 ^ (-52 : ℤ) ∧
      chord (Coord.columnVector a h) (overHorizon (degree φ) (degree (15 * s + eastward l dir) - degree α) (degree δ)) ≤ 2 ^ (-31 : ℤ) := by
  obtain ⟨r, hr, hst, k, hk⟩ := sidereal_degrees N t h ht l hl dir hs
  generalize hq : N.rnd (15 * r.dh) = st at *
  have e4 := overHorizon_close (degree φ) (degree δ) (degree st - degree α) (degree (15 * s + eastward l dir) - degree α) k (e := 27 / 10 ^ 11)
    (by convert hk using 2; ring)
  have e3 : turned ([(.hourAngle, st), (.horizon, φ)].map fun s : Conversion × ℚ => (s.1, degree s.2)) (Coord.columnVector (degree α) (degree δ)) =
      overHorizon (degree φ) (degree st - degree α) (degree δ) := turned_horizon _ _ _ _
  have e5 := (third_le_chord _ _).trans e4
  obtain ⟨a, b, e1, e2⟩ := C131_degrees_moderate hT hI [(.hourAngle, st), (.horizon, φ)] (by simp [hst, hφ]) (by norm_num) α δ hα hδ (by
    intro m hm hne
    obtain ⟨w, hw⟩ := hm
    match m, hne, hw with
    | [x], _, hw =>
      simp only [List.singleton_append, List.cons.injEq] at hw
      rw [hw.1]
      have : turned ([(Conversion.hourAngle, st)].map fun s : Conversion × ℚ => (s.1, degree s.2)) (Coord.columnVector (degree α) (degree δ)) =
        Coord.haDecRaDec (degree st) *ᵥ Coord.columnVector (degree α) (degree δ) := rfl
      rw [this, C82_right_ascension]
      exact h1
    | x :: y :: m, _, hw =>
      simp only [List.cons_append, List.cons.injEq, List.append_eq_nil_iff] at hw
      rw [hw.1, hw.2.1, hw.2.2.1, e3]
      have := abs_sub_abs_le_abs_sub (overHorizon (degree φ) (degree st - degree α) (degree δ) 2)
        (overHorizon (degree φ) (degree (15 * s + eastward l dir) - degree α) (degree δ) 2)
      norm_num at e5 ⊢
      linarith)
  refine ⟨a, b, ?_, convert_range hI _ _ (congrArg Prod.snd e1), ?_⟩
  · unfold azimuthAltitude
    rw [hr]
    show some (Conversion.chain T I [(.hourAngle, inDegrees (N.rnd (15 * r.dh))), (.horizon, inDegrees φ)] (inDegrees α) (inDegrees δ)) = _
    rw [hq]
    exact congrArg some e1
  · rw [e3] at e2
    refine (chord_triangle _ _ _).trans ((add_le_add e2 e4).trans ?_)
    norm_num

/-- Positive or negative like its sine. -/
theorem sine_sign {h u e : ℝ} (hr : |h| ≤ Real.pi / 2 + 2 ^ (-52 : ℤ)) (hd : |Real.sin h - u| ≤ e) (hu : e < |u|) : 0 < h ↔ 0 < u := by
  have hp := Real.pi_gt_three
  have h52 : (2 : ℝ) ^ (-52 : ℤ) ≤ 1 := by norm_num
  have hb : |h| < Real.pi := by linarith
  rw [abs_lt] at hb
  rw [abs_le] at hd
  constructor
  · intro h0
    have := Real.sin_pos_of_pos_of_lt_pi h0 hb.2
    rcases lt_abs.1 hu with g | g <;> linarith [hd.1, hd.2]
  · intro u0
    rw [abs_of_pos u0] at hu
    by_contra hc
    have : Real.sin h ≤ 0 := Real.sin_nonpos_of_nonpos_of_neg_pi_le (not_lt.1 hc) hb.1.le
    linarith [hd.1, hd.2]

/-- C135: a star is said to be over the horizon exactly if it is, when the sine of its altitude is more than 2^-31 away from zero (for stars within 41 degrees of a pole: 2^-21). -/
theorem C135_rises {T : Trig} {I : InverseTrig} (hT : Accurate T) (hI : AccurateInverse I) (hP : PassesNaN T) (N : Nearest) (t : PTime) (h : Representable t.date)
    (ht : TimeOfDay t) (l : ℚ) (hl : |l| ≤ 720) (dir : Direction) (φ α δ : ℚ) (hφ : |φ| ≤ 360) (hα : |α| ≤ 360) (hδ : |δ| ≤ 360) {s : ℚ} (hs : GreenwichHour t s)
    {up : ℝ} (hup : up = Real.sin (degree φ) * Real.sin (degree δ) +
      Real.cos (degree φ) * Real.cos (degree δ) * Real.cos (degree (15 * s + eastward l dir) - degree α))
    (hfar : |Real.sin (degree δ)| ≤ 3 / 4 ∧ 2 ^ (-31 : ℤ) < |up| ∨ 2 ^ (-21 : ℤ) < |up|) :
    ∃ p, azimuthAltitude T I N t l dir φ α δ = some p ∧ (p.2 ≠ .nan → ∃ a h : ℚ, p = (.num a, .num h) ∧ (0 < h ↔ 0 < up)) := by
  obtain ⟨p, hp, g⟩ := C135_direction hT hI hP N t h ht l hl dir φ α δ hφ hα hδ hs
  have hthird : overHorizon (degree φ) (degree (15 * s + eastward l dir) - degree α) (degree δ) 2 = up := hup.symm
  have gen : 2 ^ (-21 : ℤ) < |up| → ∃ p, azimuthAltitude T I N t l dir φ α δ = some p ∧ (p.2 ≠ .nan → ∃ a h : ℚ, p = (.num a, .num h) ∧ (0 < h ↔ 0 < up)) := by
    intro hu
    refine ⟨p, hp, fun hn => ?_⟩
    obtain ⟨a, b, e1, e2, e3⟩ := g hn
    have e4 := (third_le_chord _ _).trans e3
    rw [hthird] at e4
    have := sine_sign (u := up) (h := (b : ℝ)) e2 e4 (lt_of_le_of_lt (by norm_num) hu)
    exact ⟨a, b, e1, by rw [← this]; exact Rat.cast_pos.symm⟩
  rcases hfar with ⟨h1, hu⟩ | hu
  · by_cases h2 : |up| ≤ 7 / 10
    · obtain ⟨a, b, e1, e2, e3⟩ := C135_moderate hT hI N t h ht l hl dir φ α δ hφ hα hδ hs h1 (by rw [hthird]; exact h2)
      have e4 := (third_le_chord _ _).trans e3
      rw [hthird] at e4
      have := sine_sign (u := up) (h := (b : ℝ)) e2 e4 hu
      exact ⟨_, e1, fun _ => ⟨a, b, rfl, by rw [← this]; exact Rat.cast_pos.symm⟩⟩
    · exact gen (lt_trans (by norm_num) (not_le.1 h2))
  · exact gen hu

/-- The hypotheses can be met: on 2000 January 1 at noon, 15 degrees west, a star on the equator that culminates there (right ascension 265.95...) stands 30 degrees high,
seen from latitude 60 degrees. -/
example : ∃ (T : Trig) (I : InverseTrig) (N : Nearest) (α a h : ℚ), 265 < α ∧ α < 266 ∧
    azimuthAltitude T I N ⟨⟨2000, 1, 1⟩, 12, 0, 0, 0⟩ 15 .west 60 α 0 = some (.num a, .num h) ∧ |Real.sin h - 1 / 2| ≤ 2 ^ (-31 : ℤ) := by
  obtain ⟨T, hB⟩ := best_exists
  obtain ⟨I, hI⟩ := inverse_exists
  obtain ⟨N⟩ := Nearest.exists
  have hT := best_accurate hB
  have hd : dayNumber gregorianLeap ⟨2000, 1, 1⟩ = 730486 := by decide +kernel
  set s : ℚ := siderealFormula ((dayNumber gregorianLeap ⟨2000, 1, 1⟩ - 730486.5) / 36525) (universalTime ⟨⟨2000, 1, 1⟩, 12, 0, 0, 0⟩) with hs
  have hg : GreenwichHour ⟨⟨2000, 1, 1⟩, 12, 0, 0, 0⟩ s := ⟨fun _ => rfl, fun hc => absurd (by unfold Earlier lastJulian; decide) hc⟩
  have hα : 265 < 15 * s - 15 ∧ 15 * s - 15 < 266 := by
    rw [hs, hd]
    simp only [siderealFormula, universalTime]
    norm_num
  have hup : overHorizon (degree 60) (degree (15 * s + eastward 15 .west) - degree (15 * s - 15)) (degree 0) 2 = 1 / 2 := by
    have e0 : degree 0 = 0 := by unfold degree; simp
    have e60 : degree 60 = Real.pi / 3 := by unfold degree; push_cast; ring
    have e1 : 15 * s + eastward 15 .west = 15 * s - 15 := by unfold eastward; ring
    rw [e1, sub_self, e0, e60]
    show Real.sin (Real.pi / 3) * Real.sin 0 + Real.cos (Real.pi / 3) * Real.cos 0 * Real.cos 0 = 1 / 2
    rw [Real.sin_zero, Real.cos_zero, Real.cos_pi_div_three]
    ring
  obtain ⟨a, h, e1, -, e3⟩ := C135_moderate hT hI N ⟨⟨2000, 1, 1⟩, 12, 0, 0, 0⟩ (by unfold Representable Valid; decide) (by unfold TimeOfDay; decide) 15 (by norm_num [abs_le]) .west
    60 (15 * s - 15) 0 (by norm_num [abs_le]) (by rw [abs_le]; constructor <;> linarith [hα.1, hα.2]) (by norm_num) hg (by unfold degree; norm_num)
    (by rw [hup]; norm_num [abs_le])
  refine ⟨T, I, N, 15 * s - 15, a, h, hα.1, hα.2, e1, ?_⟩
  have e4 := (third_le_chord _ _).trans e3
  rw [hup] at e4
  exact e4

end Astro
