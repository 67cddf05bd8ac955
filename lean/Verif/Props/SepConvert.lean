import Verif.Lemmas.SepConvert
import Verif.Props.SepDouble
import Verif.Props.ChainDouble

/-
C133: the angular separation of two points before and after a conversion of their coordinates.
-/

namespace Astro

open Spec Matrix Coord Time

/-- **C133.** Conversions by the matrices of angles leave the angular distance of two places as it is, and none of them gives NaN. -/
theorem C133_invariant (ms : List Mat) (hm : ∀ m ∈ ms, AngleMatrix m) (l b l' b' : ℝ) :
    ∃ l₁ b₁ l₁' b₁' : ℝ, convertAll ms (l, b) = some (l₁, b₁) ∧ convertAll ms (l', b') = some (l₁', b₁') ∧
      angularDistance b₁ l₁ b₁' l₁' = angularDistance b l b' l' := by
  obtain ⟨⟨l₁, b₁⟩, h⟩ := convertAll_some hm (l, b)
  obtain ⟨⟨l₁', b₁'⟩, h'⟩ := convertAll_some hm (l', b')
  refine ⟨l₁, b₁, l₁', b₁', h, h', ?_⟩
  rw [angularDistance_dot, angularDistance_dot, convertAll_dot hm h h']

/-- **C133.** So do the frames with equatorial data: the separation of the converted points is the separation of the points. -/
theorem C133_equatorial (ms : List Mat) (hm : ∀ m ∈ ms, AngleMatrix m) (f g f₁ g₁ : Frame) (hf : IsEquatorial f) (hg : IsEquatorial g)
    (hf₁ : IsEquatorial f₁) (hg₁ : IsEquatorial g₁) (df : f.dist ≠ 0) (dg : g.dist ≠ 0) (df₁ : f₁.dist ≠ 0) (dg₁ : g₁.dist ≠ 0)
    (cf : convertAll ms (f.data.pt.c0, f.data.pt.c1) = some (f₁.data.pt.c0, f₁.data.pt.c1))
    (cg : convertAll ms (g.data.pt.c0, g.data.pt.c1) = some (g₁.data.pt.c0, g₁.data.pt.c1)) : f₁.separation g₁ = f.separation g := by
  rw [equatorial_angle f₁ g₁ hf₁ hg₁, equatorial_angle f g hf hg, if_neg (not_or.2 ⟨df₁, dg₁⟩), if_neg (not_or.2 ⟨df, dg⟩), angularDistance_dot,
    angularDistance_dot, convertAll_dot hm cf cg]

/-- The conversion by the sidereal time of a place that is not a pole. -/
theorem hour_angle {st l b l₁ b₁ : ℝ} (hb : |b| < Real.pi / 2) (h : convert (haDecRaDec st) (l, b) = some (l₁, b₁)) :
    b₁ = b ∧ Real.cos l₁ = Real.cos (st - l) ∧ Real.sin l₁ = Real.sin (st - l) := by
  obtain ⟨h1, h2⟩ := abs_lt.1 hb
  have hu : columnVector (st - l) b ⬝ᵥ columnVector (st - l) b = 1 := C57_unit _ _
  simp only [convert, C82_right_ascension] at h
  obtain ⟨x, y, e, -, -, y1, y2, ec⟩ := C57_column _ hu
  rw [e] at h
  cases h
  have hs : Real.sin b₁ = Real.sin b := congrFun ec 2
  have eb : b₁ = b := Real.injOn_sin ⟨y1, y2⟩ ⟨h1.le, h2.le⟩ hs
  subst eb
  have hc : 0 < Real.cos b₁ := Real.cos_pos_of_mem_Ioo ⟨h1, h2⟩
  exact ⟨rfl, mul_right_cancel₀ hc.ne' (congrFun ec 0), mul_right_cancel₀ hc.ne' (congrFun ec 1)⟩

/-- **C133.** The library's frames take the latitude for the azimuth.  Their separation survives the conversion between hour angle and right ascension
exactly when the latitudes are the same (up to turns) or cos(2 st - l - l') = cos(l + l'). -/
theorem C133_frame_iff (st : ℝ) (f g f₁ g₁ : Frame) (hf : IsFrame f) (hg : IsFrame g) (hf₁ : IsFrame f₁) (hg₁ : IsFrame g₁)
    (df : f.dist ≠ 0) (dg : g.dist ≠ 0) (df₁ : f₁.dist ≠ 0) (dg₁ : g₁.dist ≠ 0) (b l b' l' : ℝ) (pb : |b| < Real.pi / 2) (pb' : |b'| < Real.pi / 2)
    (eb : f.data.pt.c0 = b) (el : f.data.pt.c1 = l) (eb' : g.data.pt.c0 = b') (el' : g.data.pt.c1 = l')
    (cf : convert (haDecRaDec st) (l, b) = some (f₁.data.pt.c1, f₁.data.pt.c0))
    (cg : convert (haDecRaDec st) (l', b') = some (g₁.data.pt.c1, g₁.data.pt.c0)) :
    f₁.separation g₁ = f.separation g ↔ b = b' ∨ Real.cos (2 * st - l - l') = Real.cos (l + l') := by
  obtain ⟨e1, e2, e3⟩ := hour_angle pb cf
  obtain ⟨e1', e2', e3'⟩ := hour_angle pb' cg
  have hbound : ∀ b l b' l' : ℝ, -1 ≤ Real.sin b * Real.sin b' + Real.cos b * Real.cos b' * Real.cos (l - l') ∧
      Real.sin b * Real.sin b' + Real.cos b * Real.cos b' * Real.cos (l - l') ≤ 1 := by
    intro b l b' l'
    rw [← column_dot]
    exact unit_dot_le (C57_unit _ _) (C57_unit _ _)
  rw [C66_angle f₁ g₁ hf₁ hg₁, C66_angle f g hf hg, if_neg (not_or.2 ⟨df₁, dg₁⟩), if_neg (not_or.2 ⟨df, dg⟩), Option.some.injEq, angularDistance_eq,
    angularDistance_eq, Real.arccos_injOn.eq_iff (hbound _ _ _ _) (hbound _ _ _ _)]
  simp only [Real.sin_pi_div_two_sub, Real.cos_pi_div_two_sub, e1, e1', e2, e2', e3, e3', eb, eb', el, el']
  have key : ∀ x y : ℝ, Real.cos x * Real.cos y + Real.sin x * Real.sin y * Real.cos (b - b') =
      (Real.cos (x - y) * (1 + Real.cos (b - b')) + Real.cos (x + y) * (1 - Real.cos (b - b'))) / 2 := by
    intro x y
    rw [Real.cos_sub x y, Real.cos_add x y]
    ring
  have hd : Real.cos (b - b') = 1 ↔ b = b' := by
    obtain ⟨h1, h2⟩ := abs_lt.1 pb
    obtain ⟨h1', h2'⟩ := abs_lt.1 pb'
    rw [Real.cos_eq_one_iff_of_lt_of_lt (by linarith) (by linarith), sub_eq_zero]
  rw [key, key, show st - l - (st - l') = -(l - l') by ring, Real.cos_neg, show st - l + (st - l') = 2 * st - l - l' by ring, ← hd]
  constructor
  · intro h
    have : (Real.cos (2 * st - l - l') - Real.cos (l + l')) * (1 - Real.cos (b - b')) = 0 := by linear_combination 2 * h
    rcases mul_eq_zero.1 this with h | h
    · exact .inr (sub_eq_zero.1 h)
    · exact .inl (sub_eq_zero.1 h).symm
  · rintro (h | h)
    · rw [h]; ring
    · rw [h]

/-- **C133.** Two points of a frame on the meridian 0 are 0 apart, and after six hours of sidereal time they are as far apart as their latitudes. -/
theorem C133_frame_changes (f g f₁ g₁ : Frame) (hf : IsFrame f) (hg : IsFrame g) (hf₁ : IsFrame f₁) (hg₁ : IsFrame g₁)
    (df : f.dist ≠ 0) (dg : g.dist ≠ 0) (df₁ : f₁.dist ≠ 0) (dg₁ : g₁.dist ≠ 0) (b b' : ℝ) (pb : |b| < Real.pi / 2) (pb' : |b'| < Real.pi / 2)
    (eb : f.data.pt.c0 = b) (el : f.data.pt.c1 = 0) (eb' : g.data.pt.c0 = b') (el' : g.data.pt.c1 = 0)
    (cf : convert (haDecRaDec (Real.pi / 2)) (0, b) = some (f₁.data.pt.c1, f₁.data.pt.c0))
    (cg : convert (haDecRaDec (Real.pi / 2)) (0, b') = some (g₁.data.pt.c1, g₁.data.pt.c0)) :
    f.separation g = some 0 ∧ f₁.separation g₁ = some |b - b'| := by
  obtain ⟨e1, e2, e3⟩ := hour_angle pb cf
  obtain ⟨e1', e2', e3'⟩ := hour_angle pb' cg
  rw [sub_zero, Real.cos_pi_div_two] at e2 e2'
  rw [sub_zero, Real.sin_pi_div_two] at e3 e3'
  rw [C66_angle f₁ g₁ hf₁ hg₁, C66_angle f g hf hg, if_neg (not_or.2 ⟨df₁, dg₁⟩), if_neg (not_or.2 ⟨df, dg⟩), angularDistance_eq, angularDistance_eq]
  simp only [Real.sin_pi_div_two_sub, Real.cos_pi_div_two_sub, e1, e1', e2, e2', e3, e3', eb, eb', el, el', Real.sin_zero, Real.cos_zero]
  constructor
  · norm_num
  · obtain ⟨h1, h2⟩ := abs_lt.1 pb
    obtain ⟨h1', h2'⟩ := abs_lt.1 pb'
    rw [show (0 : ℝ) * 0 + 1 * 1 * Real.cos (b - b') = Real.cos |b - b'| by rw [Real.cos_abs]; ring,
      Real.arccos_cos (abs_nonneg _) (abs_le.2 ⟨by linarith, by linarith⟩)]

/-! ### in doubles -/

theorem cosBetween_dot (u v u' v' : ℝ) : cosBetween .equatorial u v u' v' = columnVector u v ⬝ᵥ columnVector u' v' := by
  rw [column_dot]
  unfold cosBetween
  exact add_comm _ _

/-- Moved directions: the exact separation of the new coordinates. -/
theorem converted_near {T : Trig} (steps : List (Rotation T)) {u v u' v' x y x' y' : ℝ} {δ : ℝ}
    (h : chord (columnVector x y) (rotated steps (columnVector u v)) ≤ δ) (h' : chord (columnVector x' y') (rotated steps (columnVector u' v')) ≤ δ) :
    |Real.arccos (cosBetween .equatorial x y x' y') - Real.arccos (cosBetween .equatorial u v u' v')| ≤ 4 * δ := by
  have k := arccos_moved (a := rotated steps (columnVector u v)) (b := rotated steps (columnVector u' v')) (p := columnVector x y) (q := columnVector x' y')
    (by rw [rotated_dot]; exact C57_unit _ _) (by rw [rotated_dot]; exact C57_unit _ _) (C57_unit _ _) (C57_unit _ _)
  rw [rotated_dot, ← cosBetween_dot, ← cosBetween_dot] at k
  refine k.trans ?_
  have h0 : (0 : ℝ) ≤ chord (columnVector x y) (rotated steps (columnVector u v)) := Real.sqrt_nonneg _
  have h1 : (0 : ℝ) ≤ chord (columnVector x' y') (rotated steps (columnVector u' v')) := Real.sqrt_nonneg _
  have hp := Real.pi_le_four
  have hp0 := Real.pi_pos
  calc Real.pi / 2 * _ ≤ 2 * (δ + δ) := mul_le_mul (by linarith) (add_le_add h h') (add_nonneg h0 h1) (by norm_num)
    _ = 4 * δ := by ring

/-- **C133.** In doubles: the separation computed after N conversions is within (4 N + 1) 2^-23 rad of the exact separation of the points before them, or
NaN where the two points nearly coincide or are nearly opposite; unless a latitude became NaN. -/
theorem C133_chain {T : Trig} {I : InverseTrig} (hT : Accurate T) (hI : AccurateInverse I) (hP : PassesNaN T) (steps : List (Rotation T))
    (u v u' v' r r' : ℚ) (hu : IsDouble u) (hv : IsDouble v) (hu' : IsDouble u') (hv' : IsDouble v')
    (h1 : 2 ^ (-400 : ℤ) ≤ |r|) (h2 : |r| ≤ 2 ^ (400 : ℤ)) (h1' : 2 ^ (-400 : ℤ) ≤ |r'|) (h2' : |r'| ≤ 2 ^ (400 : ℤ))
    (p q : Dbl × Dbl) (hp : DMat.chain T I (steps.map (·.computed)) (.num u, .num v) = p) (hq : DMat.chain T I (steps.map (·.computed)) (.num u', .num v') = q)
    (np : p.2 ≠ .nan) (nq : q.2 ≠ .nan) (d : Dbl) (hd : d = DSph.separation T I .equatorial ⟨p.1, p.2, .num r⟩ ⟨q.1, q.2, .num r'⟩)
    (t : ℝ) (ht : t = angularDistance v u v' u') (e : ℝ) (he : e = (4 * steps.length + 1) * 2 ^ (-23 : ℤ)) :
    Near d t e ∨ (d = .nan ∧ (t ≤ e ∨ Real.pi - e ≤ t)) := by
  obtain ⟨x, y, rfl, dx, dy, hc⟩ := C121_chain hT hI hP steps u v hu hv p hp np
  obtain ⟨x', y', rfl, dx', dy', hc'⟩ := C121_chain hT hI hP steps u' v' hu' hv' q hq nq
  have k := converted_near steps hc hc'
  rw [(C119_meaning (u : ℝ) v u' v').1, ← ht] at k
  obtain ⟨k1, k2⟩ := abs_le.1 k
  have ee : e = 4 * (steps.length * 2 ^ (-23 : ℤ)) + 2 ^ (-23 : ℤ) := by rw [he]; ring
  rcases C119_error hT hI .equatorial (by simp) x y r x' y' r' dx dy dx' dy' h1 h2 h1' h2' d hd _ rfl with ⟨c, hc, dc, ec⟩ | ⟨hn, hr⟩
  · left
    refine ⟨c, hc, dc, ?_⟩
    rw [ee]
    exact (abs_sub_le _ _ _).trans (by rw [add_comm]; exact add_le_add k ec)
  · right
    refine ⟨hn, ?_⟩
    rw [ee]
    generalize (steps.length : ℝ) * 2 ^ (-23 : ℤ) = N at *
    generalize (2 : ℝ) ^ (-23 : ℤ) = ε at *
    rcases hr with hr | hr
    · left; linarith
    · right; linarith

/-- **C133.** For points away from the poles of the systems, and not nearly coincident or opposite: within (4 N + 1) 2^-45 rad, and never NaN. -/
theorem C133_moderate {T : Trig} {I : InverseTrig} (hT : Accurate T) (hI : AccurateInverse I) (steps : List (Rotation T)) (hlen : steps.length ≤ 2 ^ 32)
    (u v u' v' r r' : ℚ) (hu : IsDouble u) (hv : IsDouble v) (hu' : IsDouble u') (hv' : IsDouble v')
    (h1 : 2 ^ (-400 : ℤ) ≤ |r|) (h2 : |r| ≤ 2 ^ (400 : ℤ)) (h1' : 2 ^ (-400 : ℤ) ≤ |r'|) (h2' : |r'| ≤ 2 ^ (400 : ℤ))
    (hm : ∀ l, l <+: steps → l ≠ [] → |rotated l (columnVector u v) 2| ≤ 4 / 5 ∧ |rotated l (columnVector u' v') 2| ≤ 4 / 5)
    (p q : Dbl × Dbl) (hp : DMat.chain T I (steps.map (·.computed)) (.num u, .num v) = p) (hq : DMat.chain T I (steps.map (·.computed)) (.num u', .num v') = q)
    (t : ℝ) (ht : t = angularDistance v u v' u') (hmid : |t - Real.pi / 2| ≤ 9 / 10) :
    Near (DSph.separation T I .equatorial ⟨p.1, p.2, .num r⟩ ⟨q.1, q.2, .num r'⟩) t ((4 * steps.length + 1) * 2 ^ (-45 : ℤ)) := by
  obtain ⟨x, y, ex, dx, dy, hc⟩ := C121_moderate hT hI steps u v hu hv hlen (fun l h h' => (hm l h h').1)
  obtain ⟨x', y', ex', dx', dy', hc'⟩ := C121_moderate hT hI steps u' v' hu' hv' hlen (fun l h h' => (hm l h h').2)
  rw [ex] at hp
  rw [ex'] at hq
  subst hp hq
  have k := converted_near steps hc hc'
  rw [(C119_meaning (u : ℝ) v u' v').1, ← ht] at k
  have small : 4 * ((steps.length : ℝ) * 2 ^ (-45 : ℤ)) ≤ 1 / 100 := by
    have : (steps.length : ℝ) ≤ 2 ^ 32 := by exact_mod_cast hlen
    refine (mul_le_mul_of_nonneg_left (mul_le_mul_of_nonneg_right this (by positivity)) (by norm_num)).trans ?_
    norm_num
  have hmid' : |Real.arccos (cosBetween .equatorial x y x' y') - Real.pi / 2| ≤ 1 := by
    refine (abs_sub_le _ t _).trans ((add_le_add k hmid).trans ?_)
    generalize (steps.length : ℝ) * 2 ^ (-45 : ℤ) = N at *
    linarith
  obtain ⟨c, hc, dc, ec⟩ := C119_moderate hT hI .equatorial (by simp) x y r x' y' r' dx dy dx' dy' h1 h2 h1' h2' _ rfl hmid'
  refine ⟨c, hc, dc, (abs_sub_le _ _ _).trans ((add_le_add ec k).trans ?_)⟩
  have e46 : (2 : ℝ) ^ (-46 : ℤ) ≤ 2 ^ (-45 : ℤ) := zpow_le_zpow_right₀ (by norm_num) (by norm_num)
  calc (2 : ℝ) ^ (-46 : ℤ) + 4 * (steps.length * 2 ^ (-45 : ℤ)) ≤ 2 ^ (-45 : ℤ) + 4 * (steps.length * 2 ^ (-45 : ℤ)) := add_le_add_left e46 _
    _ = _ := by ring

/-! ### examples -/

/-- (dec 0, ra 0) and (dec 1, ra 0) are 0 apart; their hour angles are π/2 at the sidereal time π/2, and then they are 1 apart. -/
example : convert (haDecRaDec (Real.pi / 2)) (0, 0) = some (Real.pi / 2, 0) ∧ convert (haDecRaDec (Real.pi / 2)) (0, 1) = some (Real.pi / 2, 1) ∧
    (exFrame 0 0 1).separation (exFrame 1 0 1) = some 0 ∧ (exFrame 0 (Real.pi / 2) 1).separation (exFrame 1 (Real.pi / 2) 1) = some 1 := by
  have hp := Real.pi_gt_three
  have conv : ∀ b : ℝ, |b| < Real.pi / 2 → convert (haDecRaDec (Real.pi / 2)) (0, b) = some (Real.pi / 2, b) := by
    intro b hb
    simp only [convert, C82_right_ascension, sub_zero]
    rw [C57_extract _ _ ⟨by linarith, by linarith⟩ (abs_lt.1 hb)]
    rfl
  have hd : ∀ lat lon, (exFrame lat lon 1).dist ≠ 0 := fun lat lon => by simp [exFrame, Frame.dist, Rep.get]
  have b0 : |(0 : ℝ)| < Real.pi / 2 := by rw [abs_zero]; linarith
  have b1 : |(1 : ℝ)| < Real.pi / 2 := by rw [abs_one]; linarith
  have := C133_frame_changes (exFrame 0 0 1) (exFrame 1 0 1) (exFrame 0 (Real.pi / 2) 1) (exFrame 1 (Real.pi / 2) 1) (exFrame_isFrame _ _ _)
    (exFrame_isFrame _ _ _) (exFrame_isFrame _ _ _) (exFrame_isFrame _ _ _) (hd _ _) (hd _ _) (hd _ _) (hd _ _) 0 1 b0 b1 rfl rfl rfl rfl (conv 0 b0)
    (conv 1 b1)
  refine ⟨conv 0 b0, conv 1 b1, this.1, this.2.trans ?_⟩
  norm_num

/-- The points (0, 0) and (3/2, 0) of the ecliptic in equatorial coordinates, for the obliquity 1/2: the computed separation is 3/2 within 5 2^-45. -/
example : ∃ (T : Trig) (I : InverseTrig), Accurate T ∧ AccurateInverse I ∧ ∃ p q : Dbl × Dbl,
    DMat.convert T I (DMat.eclipticToRaDec T (.num (1 / 2))) (.num 0, .num 0) = p ∧
      DMat.convert T I (DMat.eclipticToRaDec T (.num (1 / 2))) (.num (3 / 2), .num 0) = q ∧
      Near (DSph.separation T I .equatorial ⟨p.1, p.2, .num 1⟩ ⟨q.1, q.2, .num 1⟩) (3 / 2) (5 * 2 ^ (-45 : ℤ)) := by
  obtain ⟨T, hT⟩ := best_exists
  obtain ⟨I, hI⟩ := inverse_exists
  have half : IsDouble (1 / 2) := ⟨1, -1, by norm_num, by norm_num, by norm_num, by norm_num⟩
  have d3 : IsDouble (3 / 2) := ⟨3, -1, by norm_num, by norm_num, by norm_num, by norm_num⟩
  have p1 := Real.pi_gt_d4
  have p2 := Real.pi_lt_d4
  norm_num at p1 p2
  let r : Rotation T := ⟨1 / 2, _, _, half, .fromEcliptic, ⟨_, .inr (.inr (.inl rfl))⟩⟩
  have low : (2 : ℚ) ^ (-400 : ℤ) ≤ |1| := by rw [abs_one]; exact zpow_le_one_of_nonpos₀ (by norm_num) (by norm_num)
  have high : |(1 : ℚ)| ≤ 2 ^ (400 : ℤ) := by rw [abs_one]; exact one_le_zpow₀ (by norm_num) (by norm_num)
  have e : (3 / 2 : ℝ) = angularDistance ((0 : ℚ) : ℝ) ((0 : ℚ) : ℝ) ((0 : ℚ) : ℝ) ((3 / 2 : ℚ) : ℝ) := by
    rw [angularDistance_eq]
    have : Real.cos (-(3 / 2 : ℝ)) = Real.cos (3 / 2) := Real.cos_neg _
    push_cast
    simp only [Real.sin_zero, Real.cos_zero, zero_mul, one_mul, zero_sub, zero_add, this]
    exact (Real.arccos_cos (by norm_num) (by linarith)).symm
  have z : ∀ u : ℝ, |(r.exact *ᵥ columnVector u 0) 2| ≤ 4 / 5 := by
    intro u
    have h1 : Real.sin (1 / 2) ≤ 1 / 2 := Real.sin_le (by norm_num)
    have h2 : 0 ≤ Real.sin (1 / 2) := Real.sin_nonneg_of_nonneg_of_le_pi (by norm_num) (by linarith)
    have h3 := Real.abs_sin_le_one u
    simp [r, eclipticToRaDec, columnVector, Matrix.mulVec, dotProduct, Fin.sum_univ_three]
    rw [one_div] at h1 h2
    rw [abs_of_nonneg h2]
    nlinarith [abs_nonneg (Real.sin u)]
  refine ⟨T, I, best_accurate hT, hI, _, _, rfl, rfl, ?_⟩
  have := C133_moderate (best_accurate hT) hI [r] (by norm_num) 0 0 (3 / 2) 0 1 1 isDouble_zero isDouble_zero d3 isDouble_zero low high low high (by
    intro l hl hne
    have hl' : l = [r] := by
      obtain ⟨t, ht⟩ := hl
      match l, hne, ht with
      | [a], _, ht => simp at ht; simp [ht.1]
      | a :: b :: c, _, ht => simp at ht
    subst hl'
    push_cast
    exact ⟨z 0, z _⟩) _ _ rfl rfl _ e (abs_le.2 ⟨by linarith, by linarith⟩)
  have e5 : ((4 : ℝ) * ([r].length : ℕ) + 1) = 5 := by norm_num
  rw [e5] at this
  exact this

end Astro
