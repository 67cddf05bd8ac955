import Mathlib.Geometry.Euclidean.Angle.Unoriented.TriangleInequality
import Verif.Lemmas.Frame

/-
Frames, points in the sky and two-angle coordinates (C66, C67, C68, C70, C81).
-/

namespace Astro

open Astro.Coord Matrix

/-! C68 -/

/-- C68: after any sequence of setter calls every getter returns the value of the last call that concerns it, and the value from before when there is none. -/
theorem C68_last_write (f : Frame) (h : Spec.IsFrame f) (calls : List Frame.Call) (ht : ∀ c ∈ calls, Spec.Typed f c) (x : Spec.FrameField) :
    Spec.observe (f.run calls) x = (Spec.lastWritten calls x).getD (Spec.observe f x) := by
  induction calls generalizing f with
  | nil => rfl
  | cons c cs ih =>
    obtain ⟨hf, ht', e1, e2, e3⟩ := apply_isFrame h (ht c (by simp))
    have := ih (f.apply c) hf (by
      intro d hd
      have := ht d (List.mem_cons_of_mem _ hd)
      cases d with
      | differential d => exact ⟨this.1.trans e1.symm, this.2.1.trans e2.symm, this.2.2.trans e3.symm⟩
      | _ => trivial)
    rw [Frame.run, List.foldl_cons]
    rw [Frame.run] at this
    rw [this, observe_apply h, Spec.lastWritten, Spec.lastWritten, List.reverse_cons, List.findSome?_append]
    cases List.findSome? (Spec.written · x) cs.reverse with
    | some v => rfl
    | none =>
      simp only [Option.getD_none, Option.none_or, List.findSome?_cons, List.findSome?_nil]
      cases Spec.written c x <;> rfl

/-- C68: the constructors from quantities set the coordinates (and the motion) to them. -/
theorem C68_construct (f : Frame) (h : Spec.IsFrame f) (a b c x y z : ℝ) :
    (Frame.ofQuantities f a b c).latLonDist = ⟨a, b, c⟩ ∧ (Frame.ofQuantities6 f a b c x y z).latLonDist = ⟨a, b, c⟩ ∧
    (Frame.ofQuantities6 f a b c x y z).pm = ⟨x, y, z⟩ := by
  obtain ⟨hs, hu, m1, m2, -⟩ := h
  have h1 : 0 < f.data.u1 := hu.1
  have h2 : 0 < f.data.u2 := hu.2.1
  clear hu
  obtain ⟨⟨s, p, u, v, w⟩, ⟨q, u', v', w'⟩, l, pr, te, o, hu, eq⟩ := f
  simp only at hs h1 h2 m1 m2
  subst hs
  simp [Frame.ofQuantities, Frame.ofQuantities6, Frame.latLonDist, Frame.pm, Rep.get, CosLat.get,
      Rep.setLat, Rep.setLon, Rep.setDist, Rep.setLatLonDist, CosLat.setDlat, CosLat.setDlonCosLat, CosLat.setDdist, CosLat.setAll,
      unitCast_trans _ _ one_pos, unitCast_self _ h1, unitCast_self _ h2, unitCast_self _ m1, unitCast_self _ m2]

/-- C68: the tuple getters return the single values. -/
theorem C68_tuples (f : Frame) : f.latLonDist = ⟨f.lat, f.lon, f.dist⟩ ∧ f.pm = ⟨f.pmLat, f.pmLon, f.radial⟩ ∧ f.baseRadial = f.radial := ⟨rfl, rfl, rfl⟩

/-- C68: a frame made from a representation stands for the same vector, in the frame's units. -/
theorem C68_convert (junk : ℝ) (f : Frame) (h : Spec.IsFrame f) (r : Rep) (hr : Spec.Units r.type) :
    Spec.vec (Frame.ofRep junk f r).data = Spec.vec r ∧ (Frame.ofRep junk f r).data.type = f.data.type := by
  have hd : f.data.type.sys = .spherical := h.1
  rw [Frame.ofRep]
  split
  · next hs => exact C83_change_units _ r (hd.trans hs.symm) hr h.2.1
  · have e := vec_convert junk (t := ⟨.spherical, r.u1, r.u2, r.u3⟩) hr hr
    have hu : Spec.Units (Rep.convert junk ⟨.spherical, r.u1, r.u2, r.u3⟩ r).type := by rw [convert_eq junk _ hr]; exact hr
    obtain ⟨e1, e2⟩ := C83_change_units f.data.type (Rep.convert junk ⟨.spherical, r.u1, r.u2, r.u3⟩ r) (hd.trans (by rw [convert_eq junk _ hr])) hu h.2.1
    exact ⟨e1.trans e, e2⟩

/-- C68: a copied alt_az has the values of the original. -/
theorem C68_copy (f other : Frame) (x : Spec.FrameField) (hx : x ≠ .equinox) : Spec.observe (Frame.copyAltAz f other) x = Spec.observe other x := by
  cases x <;> first | rfl | exact absurd rfl hx

/-! C81 -/

/-- C81: base_frame::get_proper_motion returns the numbers of the other getters multiplied by the size of the unit in radians, labelled with the same unit. -/
theorem C81_proper_motion (f : Frame) (h : Spec.IsFrame f) : f.properMotion = (f.pmLat * f.motion.u1, f.pmLon * f.motion.u2) := by
  have h1 := h.2.2.1
  have h2 := h.2.2.2.1
  simp only [Frame.properMotion, Frame.pmLat, Frame.pmLon, CosLat.get, unitCast]
  field_simp

/-- C81: so it agrees with them exactly when each motion is 0 or its unit is the radian. -/
theorem C81_agrees (f : Frame) (h : Spec.IsFrame f) :
    f.properMotion = (f.pmLat, f.pmLon) ↔ (f.pmLat = 0 ∨ f.motion.u1 = 1) ∧ (f.pmLon = 0 ∨ f.motion.u2 = 1) := by
  rw [C81_proper_motion f h, Prod.mk.injEq]
  rw [mul_right_eq_self₀, mul_right_eq_self₀, or_comm, or_comm (a := f.motion.u2 = 1)]

/-! C70 -/

/-- C70: after any sequence of setter calls each getter returns the value of the last call that concerns its angle, in the same unit. -/
theorem C70_last_write (p : TwoAngle) (h1 : 0 < p.u1) (h2 : 0 < p.u2) (calls : List TwoAngle.Call) :
    (p.run calls).get = ((calls.reverse.findSome? Spec.firstWritten).getD p.get0, (calls.reverse.findSome? Spec.secondWritten).getD p.get1) := by
  induction calls generalizing p with
  | nil => rfl
  | cons c cs ih =>
    rw [TwoAngle.run, List.foldl_cons]
    have e : ∀ c : TwoAngle.Call, (p.apply c).u1 = p.u1 ∧ (p.apply c).u2 = p.u2 := by
      intro c
      cases c <;> exact ⟨rfl, rfl⟩
    have := ih (p.apply c) (by rw [(e c).1]; exact h1) (by rw [(e c).2]; exact h2)
    rw [TwoAngle.run] at this
    rw [this, List.reverse_cons, List.findSome?_append, List.findSome?_append]
    have e0 : (p.apply c).get0 = (Spec.firstWritten c).getD p.get0 := by
      cases c <;> simp [TwoAngle.apply, TwoAngle.get0, TwoAngle.set0, TwoAngle.set1, TwoAngle.set, Spec.firstWritten, unitCast_trans _ _ one_pos,
        unitCast_self _ h1]
    have e1 : (p.apply c).get1 = (Spec.secondWritten c).getD p.get1 := by
      cases c <;> simp [TwoAngle.apply, TwoAngle.get1, TwoAngle.set0, TwoAngle.set1, TwoAngle.set, Spec.secondWritten, unitCast_trans _ _ one_pos,
        unitCast_self _ h2]
    rw [e0, e1]
    congr 1
    · cases List.findSome? Spec.firstWritten cs.reverse with
      | some v => rfl
      | none =>
        simp only [Option.getD_none, Option.none_or, List.findSome?_cons, List.findSome?_nil]
        cases Spec.firstWritten c <;> rfl
    · cases List.findSome? Spec.secondWritten cs.reverse with
      | some v => rfl
      | none =>
        simp only [Option.getD_none, Option.none_or, List.findSome?_cons, List.findSome?_nil]
        cases Spec.secondWritten c <;> rfl

/-- C70: constructing and reading. -/
theorem C70_construct (junk : TwoAngle) (u1 u2 a b : ℝ) (h1 : 0 < u1) (h2 : 0 < u2) : (TwoAngle.make junk u1 u2 a b).get = (a, b) :=
  C70_last_write ⟨junk.c0, junk.c1, u1, u2⟩ h1 h2 [.both a b]

/-! C66 -/

/-- C66: the separation is the angle between the directions whose azimuth is the first coordinate and whose polar angle is the second; NaN when a distance is 0. -/
theorem C66_angle (f g : Frame) (hf : Spec.IsFrame f) (hg : Spec.IsFrame g) :
    f.separation g = if f.dist = 0 ∨ g.dist = 0 then none
      else some (Spec.angularDistance (Real.pi / 2 - f.data.pt.c1) f.data.pt.c0 (Real.pi / 2 - g.data.pt.c1) g.data.pt.c0) := by
  obtain ⟨⟨s, p, u, v, w⟩, mf⟩ := f
  obtain ⟨⟨s', q, u', v', w'⟩, mg⟩ := g
  have hs : s = .spherical := hf.1
  have hs' : s' = .spherical := hg.1
  have hw : 0 < w := hf.2.1.2.2
  have hw' : 0 < w' := hg.2.1.2.2
  clear hf hg
  subst hs hs'
  have hi := inner_direction (Real.pi / 2 - p.c1) p.c0 (Real.pi / 2 - q.c1) q.c0
  have hb := abs_real_inner_le_norm (Spec.direction (Real.pi / 2 - p.c1) p.c0) (Spec.direction (Real.pi / 2 - q.c1) q.c0)
  rw [norm_direction, norm_direction, one_mul, abs_le] at hb
  have hd : (dot ⟨.spherical, p, u, v, w⟩ ⟨.spherical, q, u', v', w'⟩).value =
      p.c2 * q.c2 * inner ℝ (Spec.direction (Real.pi / 2 - p.c1) p.c0) (Spec.direction (Real.pi / 2 - q.c1) q.c0) := by
    rw [hi, Real.sin_pi_div_two_sub, Real.cos_pi_div_two_sub, Real.sin_pi_div_two_sub, Real.cos_pi_div_two_sub, Real.cos_sub]
    simp only [dot, makeCartesian_eq, Spec.axis, Rep.type, unitCast_self _ hw, unitCast_self _ hw', toCart]
    ring
  rw [Spec.angularDistance, InnerProductGeometry.angle, norm_direction, norm_direction, mul_one, div_one]
  simp only [Frame.separation, Frame.dist, Rep.get, magnitude]
  rw [hd]
  by_cases h0 : p.c2 = 0 ∨ q.c2 = 0
  · exact (if_pos (mul_eq_zero.2 h0)).trans (if_pos h0).symm
  · have hne : p.c2 * q.c2 ≠ 0 := fun h => h0 (mul_eq_zero.1 h)
    refine (if_neg hne).trans (Eq.trans ?_ (if_neg h0).symm)
    rw [mul_div_cancel_left₀ _ hne, acos, if_pos hb]

/-- C66: symmetric, 0 from a point to itself, in [0, π], and subject to the triangle inequality. -/
theorem C66_metric (f g h : Frame) (hf : Spec.IsFrame f) (hg : Spec.IsFrame g) (hh : Spec.IsFrame h) (df : f.dist ≠ 0) (dg : g.dist ≠ 0) (dh : h.dist ≠ 0) :
    ∃ fg gh fh : ℝ, f.separation g = some fg ∧ g.separation f = some fg ∧ g.separation h = some gh ∧ f.separation h = some fh ∧
      f.separation f = some 0 ∧ 0 ≤ fg ∧ fg ≤ Real.pi ∧ fh ≤ fg + gh := by
  have nz : ∀ b l, Spec.direction b l ≠ 0 := fun b l h => by
    have := norm_direction b l
    rw [h, _root_.norm_zero] at this
    exact zero_ne_one this
  refine ⟨_, _, _, (C66_angle f g hf hg).trans (if_neg (not_or.2 ⟨df, dg⟩)), ?_, (C66_angle g h hg hh).trans (if_neg (not_or.2 ⟨dg, dh⟩)),
    (C66_angle f h hf hh).trans (if_neg (not_or.2 ⟨df, dh⟩)), ?_, InnerProductGeometry.angle_nonneg _ _, InnerProductGeometry.angle_le_pi _ _,
    InnerProductGeometry.angle_le_angle_add_angle _ _ _⟩
  · rw [C66_angle g f hg hf, if_neg (not_or.2 ⟨dg, df⟩), Spec.angularDistance, InnerProductGeometry.angle_comm]
    rfl
  · rw [C66_angle f f hf hf, if_neg (not_or.2 ⟨df, df⟩), Spec.angularDistance, InnerProductGeometry.angle_self (nz _ _)]

/-- C66: distances do not matter, as long as they are not 0. -/
theorem C66_distance (f g : Frame) (hf : Spec.IsFrame f) (hg : Spec.IsFrame g) (df : f.dist ≠ 0) (v : ℝ) (hv : v ≠ 0) :
    (f.apply (.dist v)).separation g = f.separation g := by
  have hf' := (apply_isFrame hf (c := .dist v) trivial).1
  have e : (f.apply (.dist v)).dist = v := observe_apply hf (.dist v) .dist
  rw [C66_angle _ g hf' hg, C66_angle f g hf hg, e]
  simp only [hv, df, false_or]
  rfl

/-- C66: the separation is that of the frame's latitude and longitude exactly when cos λ cos λ' (1 - cos β cos β') = sin β sin β' (1 - sin λ sin λ'). -/
theorem C66_right_iff (f g : Frame) (hf : Spec.IsFrame f) (hg : Spec.IsFrame g) (df : f.dist ≠ 0) (dg : g.dist ≠ 0) :
    ∀ β l β' l', β = f.data.pt.c0 → l = f.data.pt.c1 → β' = g.data.pt.c0 → l' = g.data.pt.c1 →
      (f.separation g = some (Spec.angularDistance β l β' l') ↔
        Real.cos l * Real.cos l' * (1 - Real.cos β * Real.cos β') = Real.sin β * Real.sin β' * (1 - Real.sin l * Real.sin l')) := by
  rintro β l β' l' rfl rfl rfl rfl
  have hbound : ∀ b l b' l' : ℝ, -1 ≤ Real.sin b * Real.sin b' + Real.cos b * Real.cos b' * Real.cos (l - l') ∧
      Real.sin b * Real.sin b' + Real.cos b * Real.cos b' * Real.cos (l - l') ≤ 1 := by
    intro b l b' l'
    have hb := abs_real_inner_le_norm (Spec.direction b l) (Spec.direction b' l')
    rw [norm_direction, norm_direction, one_mul, abs_le, inner_direction] at hb
    exact hb
  rw [C66_angle f g hf hg, if_neg (not_or.2 ⟨df, dg⟩), Option.some.injEq, angularDistance_eq, angularDistance_eq]
  rw [Real.arccos_injOn.eq_iff (hbound _ _ _ _) (hbound _ _ _ _), Real.sin_pi_div_two_sub, Real.cos_pi_div_two_sub, Real.sin_pi_div_two_sub,
    Real.cos_pi_div_two_sub, Real.cos_sub, Real.cos_sub]
  constructor <;> intro h <;> linear_combination h

/-- C66: all points with longitude 0 (right ascension 0) are 0 apart, whatever their latitudes are. -/
theorem C66_meridian (f g : Frame) (hf : Spec.IsFrame f) (hg : Spec.IsFrame g) (df : f.dist ≠ 0) (dg : g.dist ≠ 0) (lf : f.lon = 0) (lg : g.lon = 0) :
    f.separation g = some 0 := by
  have e : ∀ f : Frame, Spec.IsFrame f → f.lon = 0 → f.data.pt.c1 = 0 := by
    intro f hf h
    have h2 : 0 < f.data.u2 := hf.2.1.2.1
    rw [Frame.lon, isFrame_get hf] at h
    simp only [unitCast] at h
    simpa [h2.ne'] using h
  rw [C66_angle f g hf hg, if_neg (not_or.2 ⟨df, dg⟩), angularDistance_eq, e f hf lf, e g hg lg]
  simp

/-! C67 -/

/-- C67: the positional angle is the bearing of the second point seen from the first. -/
theorem C67_bearing (junk : ℝ) (f g : Frame) (hf : Spec.IsFrame f) (hg : Spec.IsFrame g) (ht : g.data.type = f.data.type) :
    f.positionalAngle junk g = Spec.bearing f.data.pt.c0 f.data.pt.c1 (Spec.direction g.data.pt.c0 g.data.pt.c1) := by
  obtain ⟨⟨s, p, u, v, w⟩, mf⟩ := f
  obtain ⟨⟨s', q, u', v', w'⟩, mg⟩ := g
  simp only [Rep.type, RepType.mk.injEq] at ht
  obtain ⟨rfl, rfl, rfl, rfl⟩ := ht
  have hs : s' = .spherical := hf.1
  subst hs
  have h1 : 0 < u' := hf.2.1.1
  have h2 : 0 < v' := hf.2.1.2.1
  have hdiff : unitCast v' 1 (unitCast 1 v' q.c1 - unitCast 1 v' p.c1) = q.c1 - p.c1 := by
    simp only [unitCast]
    field_simp
  simp only [Frame.positionalAngle, makeAngular, if_pos, Rep.get, unitCast_trans _ _ h1, unitCast_self _ one_pos, hdiff]
  rw [Spec.bearing, atan2]
  congr 1
  apply Complex.ext
  · simp [Spec.north, Spec.direction, PiLp.inner_apply, Fin.sum_univ_three, Real.cos_sub]
    ring
  · simp [Spec.east, Spec.direction, PiLp.inner_apply, Fin.sum_univ_three, Real.sin_sub]
    ring

/-- C67: it is in (-π, π]. -/
theorem C67_range (junk : ℝ) (f g : Frame) : -Real.pi < f.positionalAngle junk g ∧ f.positionalAngle junk g ≤ Real.pi :=
  ⟨Complex.neg_pi_lt_arg _, Complex.arg_le_pi _⟩

theorem positionalAngle_eq (junk : ℝ) (f g : Frame) (hf : Spec.IsFrame f) (hg : Spec.IsFrame g) (ht : g.data.type = f.data.type) :
    f.positionalAngle junk g = Complex.arg ⟨Real.sin g.data.pt.c0 * Real.cos f.data.pt.c0 -
      Real.cos g.data.pt.c0 * Real.sin f.data.pt.c0 * Real.cos (g.data.pt.c1 - f.data.pt.c1),
      Real.sin (g.data.pt.c1 - f.data.pt.c1) * Real.cos g.data.pt.c0⟩ := by
  rw [C67_bearing junk f g hf hg ht, Spec.bearing]
  congr 1
  apply Complex.ext
  · simp [Spec.north, Spec.direction, PiLp.inner_apply, Fin.sum_univ_three, Real.cos_sub]
    ring
  · simp [Spec.east, Spec.direction, PiLp.inner_apply, Fin.sum_univ_three, Real.sin_sub]
    ring

/-- C67: only the difference of the longitudes matters, and whole turns of it do not: a common offset of both longitudes and whole turns of either
leave the angle alone. -/
theorem C67_offset (junk : ℝ) (f g f' g' : Frame) (hf : Spec.IsFrame f) (hg : Spec.IsFrame g) (hf' : Spec.IsFrame f') (hg' : Spec.IsFrame g')
    (ht : g.data.type = f.data.type) (ht' : g'.data.type = f'.data.type) (ef : f'.data.pt.c0 = f.data.pt.c0) (eg : g'.data.pt.c0 = g.data.pt.c0)
    (n : ℤ) (hd : g'.data.pt.c1 - f'.data.pt.c1 = g.data.pt.c1 - f.data.pt.c1 + n * (2 * Real.pi)) :
    f'.positionalAngle junk g' = f.positionalAngle junk g := by
  rw [positionalAngle_eq junk f' g' hf' hg' ht', positionalAngle_eq junk f g hf hg ht, hd, ef, eg, Real.cos_add_int_mul_two_pi, Real.sin_add_int_mul_two_pi]

/-- C67: with the opposite difference of the longitudes it changes its sign, except that π stays π. -/
theorem C67_mirror (junk : ℝ) (f g f' g' : Frame) (hf : Spec.IsFrame f) (hg : Spec.IsFrame g) (hf' : Spec.IsFrame f') (hg' : Spec.IsFrame g')
    (ht : g.data.type = f.data.type) (ht' : g'.data.type = f'.data.type) (ef : f'.data.pt.c0 = f.data.pt.c0) (eg : g'.data.pt.c0 = g.data.pt.c0)
    (hd : g'.data.pt.c1 - f'.data.pt.c1 = -(g.data.pt.c1 - f.data.pt.c1)) :
    f'.positionalAngle junk g' = if f.positionalAngle junk g = Real.pi then Real.pi else -f.positionalAngle junk g := by
  rw [positionalAngle_eq junk f' g' hf' hg' ht', positionalAngle_eq junk f g hf hg ht, hd, ef, eg, Real.cos_neg, Real.sin_neg, ← Complex.arg_conj]
  congr 1
  apply Complex.ext <;> simp

/-- C67: on the same meridian a point to the north is at 0 and a point to the south at π. -/
theorem C67_meridian (junk : ℝ) (f g : Frame) (hf : Spec.IsFrame f) (hg : Spec.IsFrame g) (ht : g.data.type = f.data.type)
    (hl : f.lon = g.lon) (h : |g.data.pt.c0 - f.data.pt.c0| < Real.pi) :
    (f.data.pt.c0 ≤ g.data.pt.c0 → f.positionalAngle junk g = 0) ∧ (g.data.pt.c0 < f.data.pt.c0 → f.positionalAngle junk g = Real.pi) := by
  have hl' : f.data.pt.c1 = g.data.pt.c1 := by
    have h2 : 0 < f.data.u2 := hf.2.1.2.1
    have hu : g.data.u2 = f.data.u2 := congrArg RepType.u2 ht
    rw [Frame.lon, Frame.lon, isFrame_get hf, isFrame_get hg] at hl
    simp only [unitCast, hu] at hl
    exact mul_right_cancel₀ (one_div_pos.2 h2).ne' hl
  rw [positionalAngle_eq junk f g hf hg ht, hl', sub_self, Real.cos_zero, Real.sin_zero, mul_one, zero_mul, ← Real.sin_sub]
  rw [abs_lt] at h
  constructor
  · intro hle
    have : 0 ≤ Real.sin (g.data.pt.c0 - f.data.pt.c0) := Real.sin_nonneg_of_nonneg_of_le_pi (by linarith) (by linarith)
    exact Complex.arg_ofReal_of_nonneg this
  · intro hlt
    have : Real.sin (g.data.pt.c0 - f.data.pt.c0) < 0 := Real.sin_neg_of_neg_of_neg_pi_lt (by linarith) (by linarith)
    exact Complex.arg_ofReal_of_neg this

/-- A frame with degrees and metres, for the examples. -/
noncomputable def exFrame (lat lon dist : ℝ) : Frame :=
  ⟨⟨.spherical, ⟨lat, lon, dist⟩, Real.pi / 180, Real.pi / 180, 1⟩, ⟨⟨1, 1, 1⟩, Real.pi / 180, Real.pi / 180, 1⟩, ⟨.equatorial, ⟨0, 0, 0⟩, 1, 1, 1⟩,
    0, 0, 0, 0, 0⟩

theorem exFrame_isFrame (lat lon dist : ℝ) : Spec.IsFrame (exFrame lat lon dist) :=
  ⟨rfl, ⟨div_pos Real.pi_pos (by norm_num), div_pos Real.pi_pos (by norm_num), one_pos⟩, div_pos Real.pi_pos (by norm_num), div_pos Real.pi_pos (by norm_num),
    one_pos⟩

/-- set_ra(10°), set_dec(20°), set_ra(30°): the right ascension is 30°, the declination 20°. -/
example (f : Frame) (h : Spec.IsFrame f) : (f.run [.lon 10, .lat 20, .lon 30]).lon = 30 ∧ (f.run [.lon 10, .lat 20, .lon 30]).lat = 20 :=
  ⟨C68_last_write f h [.lon 10, .lat 20, .lon 30] (by simp [Spec.Typed]) .lon, C68_last_write f h [.lon 10, .lat 20, .lon 30] (by simp [Spec.Typed]) .lat⟩

/-- (dec 0, ra 0) and (dec 1, ra 0) are 0 apart; the true separation is 1. -/
example : (exFrame 0 0 1).separation (exFrame 1 0 1) = some 0 ∧ Spec.angularDistance 0 0 1 0 = 1 := by
  have hl : ∀ lat, (exFrame lat 0 1).lon = 0 := fun lat => by simp [exFrame, Frame.lon, Rep.get, unitCast]
  have hd : ∀ lat, (exFrame lat 0 1).dist ≠ 0 := fun lat => by simp [exFrame, Frame.dist, Rep.get]
  refine ⟨C66_meridian _ _ (exFrame_isFrame _ _ _) (exFrame_isFrame _ _ _) (hd _) (hd _) (hl _) (hl _), ?_⟩
  rw [angularDistance_eq]
  simp only [Real.sin_zero, Real.cos_zero, zero_mul, one_mul, sub_self, mul_one, zero_add]
  exact Real.arccos_cos (by norm_num) (by linarith [Real.pi_gt_three])

/-- Seen from (0, 0) a point at (0, 1) is due east. -/
example (junk : ℝ) : (exFrame 0 0 1).positionalAngle junk (exFrame 0 1 1) = Real.pi / 2 := by
  rw [positionalAngle_eq junk _ _ (exFrame_isFrame 0 0 1) (exFrame_isFrame 0 1 1) rfl]
  have h : 0 < Real.sin 1 := Real.sin_pos_of_pos_of_lt_pi one_pos (by linarith [Real.pi_gt_three])
  simp only [exFrame, Real.sin_zero, Real.cos_zero, zero_mul, mul_zero, mul_one, sub_zero]
  generalize Real.sin 1 = s at h
  have : (⟨0, s⟩ : ℂ) = (s : ℂ) * Complex.I := by apply Complex.ext <;> simp
  rw [this, Complex.arg_real_mul _ h, Complex.arg_I]

/-- A proper motion of 1 rad in a frame of degrees: get_proper_motion says 1 degree. -/
example : (exFrame 0 0 1).properMotion.1 = 1 ∧ (exFrame 0 0 1).pmLat = 180 / Real.pi := by
  simp [exFrame, Frame.properMotion, Frame.pmLat, CosLat.get, unitCast]

/-- Altitude in degrees, azimuth in radians. -/
example (junk : TwoAngle) : (TwoAngle.make junk (Real.pi / 180) 1 45 2).get = (45, 2) :=
  C70_construct junk _ _ _ _ (div_pos Real.pi_pos (by norm_num)) one_pos

/-- A position and a motion given in degrees are read back in degrees. -/
example : (Frame.ofQuantities6 (exFrame 0 0 0) 10 20 3 0.1 0.2 4).latLonDist = ⟨10, 20, 3⟩ ∧ (Frame.ofQuantities6 (exFrame 0 0 0) 10 20 3 0.1 0.2 4).pm = ⟨0.1, 0.2, 4⟩ :=
  (C68_construct _ (exFrame_isFrame 0 0 0) 10 20 3 0.1 0.2 4).2

/-- A frame in degrees and metres, made from (1 km, 2 km, 3 km). -/
example (junk : ℝ) : Spec.vec (Frame.ofRep junk (exFrame 0 0 0) ⟨.cartesian, ⟨1, 2, 3⟩, 1000, 1000, 1000⟩).data = ![1000, 2000, 3000] := by
  rw [(C68_convert junk _ (exFrame_isFrame 0 0 0) ⟨.cartesian, ⟨1, 2, 3⟩, 1000, 1000, 1000⟩ ⟨by norm_num [Rep.type], by norm_num [Rep.type], by norm_num [Rep.type]⟩).1,
    vec_cartesian]
  norm_num

/-- A copy of an alt_az object has its pressure. -/
example : (Frame.copyAltAz (exFrame 1 2 3) ((exFrame 4 5 6).apply (.pressure 101325))).pressure = 101325 := rfl

/-- Three places: the separations satisfy the triangle inequality. -/
example : ∃ fg gh fh : ℝ, (exFrame 0.1 0.2 1).separation (exFrame 0.3 0.4 2) = some fg ∧ (exFrame 0.3 0.4 2).separation (exFrame 0.5 0.6 (-3)) = some gh ∧
    (exFrame 0.1 0.2 1).separation (exFrame 0.5 0.6 (-3)) = some fh ∧ fh ≤ fg + gh := by
  have hd : ∀ a b c, c ≠ 0 → (exFrame a b c).dist ≠ 0 := fun a b c h => by simpa [exFrame, Frame.dist, Rep.get] using h
  obtain ⟨fg, gh, fh, h1, -, h2, h3, -, -, -, h4⟩ := C66_metric _ _ _ (exFrame_isFrame 0.1 0.2 1) (exFrame_isFrame 0.3 0.4 2) (exFrame_isFrame 0.5 0.6 (-3))
    (hd _ _ _ one_ne_zero) (hd _ _ _ two_ne_zero) (hd _ _ _ (by norm_num))
  exact ⟨fg, gh, fh, h1, h2, h3, h4⟩

/-- Southwards along a meridian, and the same from a longitude a full turn further. -/
example (junk : ℝ) : (exFrame 0.5 0.2 1).positionalAngle junk (exFrame 0.1 0.2 1) = Real.pi ∧
    (exFrame 0.5 0.2 1).positionalAngle junk (exFrame 0.1 (0.2 + 2 * Real.pi) 1) = Real.pi := by
  have h : (exFrame 0.5 0.2 1).positionalAngle junk (exFrame 0.1 0.2 1) = Real.pi := by
    refine (C67_meridian junk _ _ (exFrame_isFrame 0.5 0.2 1) (exFrame_isFrame 0.1 0.2 1) rfl rfl ?_).2 ?_
    · show |(0.1 : ℝ) - 0.5| < Real.pi
      have := Real.pi_gt_three
      rw [abs_lt]
      constructor <;> linarith
    · show (0.1 : ℝ) < 0.5
      norm_num
  refine ⟨h, Eq.trans ?_ h⟩
  refine C67_offset junk _ _ _ _ (exFrame_isFrame _ _ _) (exFrame_isFrame _ _ _) (exFrame_isFrame _ _ _) (exFrame_isFrame _ _ _) rfl rfl rfl rfl 1 ?_
  show (0.2 + 2 * Real.pi : ℝ) - 0.2 = 0.2 - 0.2 + ((1 : ℤ) : ℝ) * (2 * Real.pi)
  push_cast
  ring

end Astro
