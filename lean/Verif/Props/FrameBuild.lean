import Verif.Props.Diff
import Verif.Props.Frame

/-
Frames and points in the sky built from a position and a motion (C93).
-/

namespace Astro

open Astro.Coord Matrix

/-- C93: the position is the given vector and the attributes are left alone, whatever the motion is. -/
theorem C93_position (junk : ℝ) (f : Frame) (h : Spec.IsFrame f) (r : Rep) (d : Frame.Motion) (hr : Spec.Units r.type) :
    Spec.vec (Frame.ofRepDiff junk f r d).data = Spec.vec r ∧ (Frame.ofRepDiff junk f r d).data.type = f.data.type ∧
    (Frame.ofRepDiff junk f r d).location = f.location ∧ (Frame.ofRepDiff junk f r d).pressure = f.pressure ∧
    (Frame.ofRepDiff junk f r d).temperature = f.temperature ∧ (Frame.ofRepDiff junk f r d).obsTime = f.obsTime ∧
    (Frame.ofRepDiff junk f r d).humidity = f.humidity ∧ (Frame.ofRepDiff junk f r d).equinox = f.equinox :=
  ⟨(C68_convert junk f h r hr).1, (C68_convert junk f h r hr).2, rfl, rfl, rfl, rfl, rfl, rfl⟩

/-- C93: a coslat differential keeps its three quantities, expressed in the frame's units. -/
theorem C93_coslat (junk : ℝ) (f : Frame) (h : Spec.IsFrame f) (r : Rep) (a : CosLat) (h1 : 0 < a.u1) (h2 : 0 < a.u2) :
    ∀ g, g = Frame.ofRepDiff junk f r (.coslat a) →
      g.motion.u1 = f.motion.u1 ∧ g.motion.u2 = f.motion.u2 ∧ g.motion.u3 = f.motion.u3 ∧
      g.pmLat * f.motion.u1 = a.get.c0 * a.u1 ∧ g.pmLon * f.motion.u2 = a.get.c1 * a.u2 ∧ g.radial * f.motion.u3 = a.get.c2 * a.u3 := by
  rintro g rfl
  obtain ⟨-, -, m1, m2, m3⟩ := h
  refine ⟨rfl, rfl, rfl, ?_, ?_, ?_⟩ <;>
    simp only [Frame.ofRepDiff, CosLat.makeUnits, Frame.pmLat, Frame.pmLon, Frame.radial, CosLat.get, CosLat.ofQuantities, unitCast] <;>
    field_simp

/-- C93: of a spherical differential the frame stores dlon·cos(dlat): the weight comes from the motion, not from the latitude of the position. -/
theorem C93_spherical (junk : ℝ) (f : Frame) (h : Spec.IsFrame f) (r d : Rep) (hs : d.sys = .spherical) (hd : Spec.Units d.type)
    (hp : Spec.Principal d) (hc : 0 < Real.cos d.pt.c0) :
    ∀ g, g = Frame.ofRepDiff junk f r (.plain d) →
      g.pmLat * f.motion.u1 = d.get.c0 * d.u1 ∧ g.pmLon * f.motion.u2 = d.get.c1 * d.u2 * Real.cos (d.get.c0 * d.u1) ∧
      g.radial * f.motion.u3 = d.get.c2 * d.u3 := by
  rintro g rfl
  obtain ⟨-, -, m1, m2, m3⟩ := h
  have h1 : 0 < d.u1 := hd.1
  have h2 : 0 < d.u2 := hd.2.1
  have h3 : 0 < d.u3 := hd.2.2
  have e : d.get.c0 * d.u1 = d.pt.c0 := by
    simp only [Rep.get, hs, unitCast]
    field_simp
  rw [e]
  simp only [Frame.ofRepDiff, Frame.pmLat, Frame.pmLon, Frame.radial, C65_components junk d hs hd hp hc]
  simp only [CosLat.changeUnits, CosLat.makeUnits, CosLat.get, CosLat.ofQuantities, unitCast, Rep.get, hs]
  refine ⟨?_, ?_, ?_⟩ <;> field_simp

/-- C93: so the frame's pm_lon_coslat is the proper motion times the cosine of the position's latitude exactly when that cosine is the cosine of dlat. -/
theorem C93_weight (junk : ℝ) (f : Frame) (h : Spec.IsFrame f) (r d : Rep) (hs : d.sys = .spherical) (hd : Spec.Units d.type)
    (hp : Spec.Principal d) (hc : 0 < Real.cos d.pt.c0) :
    ∀ g, g = Frame.ofRepDiff junk f r (.plain d) →
      (g.pmLon * f.motion.u2 = d.get.c1 * d.u2 * Real.cos (g.lat * f.data.u1) ↔ Real.cos (d.get.c0 * d.u1) = Real.cos (g.lat * f.data.u1)) := by
  intro g hg
  rw [(C93_spherical junk f h r d hs hd hp hc g hg).2.1]
  have h2 : 0 < d.u2 := hd.2.1
  have e : d.get.c1 * d.u2 = d.pt.c1 := by
    simp only [Rep.get, hs, unitCast]
    field_simp
  have hpos : 0 < d.pt.c1 := by
    simp only [Spec.Principal, hs] at hp
    exact hp.2.2.1
  rw [e]
  exact ⟨fun h => mul_left_cancel₀ hpos.ne' h, fun h => by rw [h]⟩

/-- C93: the motion does not depend on the position at all. -/
theorem C93_independent (junk : ℝ) (f : Frame) (r r' : Rep) (d : Frame.Motion) :
    (Frame.ofRepDiff junk f r d).motion = (Frame.ofRepDiff junk f r' d).motion := rfl

/-- C93: taking a frame's position and motion out and building a frame of the same type from them gives a frame with the same values. -/
theorem C93_rebuild (junk : ℝ) (f f' : Frame) (h : Spec.IsFrame f) (ht : f'.data.type = f.data.type) (h1 : f'.motion.u1 = f.motion.u1)
    (h2 : f'.motion.u2 = f.motion.u2) (h3 : f'.motion.u3 = f.motion.u3) :
    (Frame.ofRepDiff junk f' f.data (.coslat f.motion)).data = f.data ∧ (Frame.ofRepDiff junk f' f.data (.coslat f.motion)).motion = f.motion := by
  obtain ⟨hs, ⟨u1, u2, u3⟩, m1, m2, m3⟩ := h
  obtain ⟨⟨s, p, u, v, w⟩, ⟨q, u', v', w'⟩, l, pr, te, o, hu, eq⟩ := f
  simp only [Rep.type] at hs u1 u2 u3 m1 m2 m3 h1 h2 h3 ht
  subst hs
  simp only [Frame.ofRepDiff, Frame.ofRep, if_pos, Rep.type, ht, h1, h2, h3, changeUnits, CosLat.makeUnits, Rep.get, CosLat.get, Rep.ofQuantities,
    CosLat.ofQuantities]
  have hc : ∀ u : ℝ, 0 < u → ∀ v, unitCast u 1 (unitCast u u (unitCast 1 u v)) = v := fun u hu v => by
    rw [unitCast_self _ hu, unitCast_trans _ _ hu, unitCast_self _ one_pos]
  rw [hc u u1, hc v u2, unitCast_self _ u3, hc u' m1, hc v' m2, unitCast_self _ m3]
  exact ⟨rfl, rfl⟩

/-- C93: copies of galactic and supergalactic frames have the position and the motion of the original. -/
theorem C93_copy (f other : Frame) :
    (Frame.copyGalactic f other).latLonDist = other.latLonDist ∧ (Frame.copyGalactic f other).pm = other.pm := ⟨rfl, rfl⟩

/-- C93: a sky_point holds the frame its constructor made or the last frame it was given, and its separation is that of the frames. -/
theorem C93_sky_point (junk : ℝ) (f : Frame) (h : Spec.IsFrame f) (r : Rep) (d : Frame.Motion) (a b c x y z : ℝ) (p : SkyPoint) (fs : List Frame) :
    (SkyPoint.ofFrame f).getPoint = f ∧ (SkyPoint.ofRepDiff junk f r d).getPoint = Frame.ofRepDiff junk f r d ∧
    (SkyPoint.ofQuantities f a b c).getPoint.latLonDist = ⟨a, b, c⟩ ∧ (SkyPoint.ofQuantities6 f a b c x y z).getPoint.latLonDist = ⟨a, b, c⟩ ∧
    (SkyPoint.ofQuantities6 f a b c x y z).getPoint.pm = ⟨x, y, z⟩ ∧
    (fs.foldl SkyPoint.setPoint p).getPoint = fs.getLast?.getD p.getPoint ∧
    p.separation (SkyPoint.ofFrame f) = p.getPoint.separation f := by
  obtain ⟨c1, c2, c3⟩ := C68_construct f h a b c x y z
  refine ⟨rfl, rfl, c1, c2, c3, ?_, rfl⟩
  induction fs generalizing p with
  | nil => rfl
  | cons g gs ih =>
    rw [List.foldl_cons, ih]
    cases gs with
    | nil => rfl
    | cons k ks => rw [List.getLast?_cons_cons]; simp [List.getLast?_cons]

/-- A motion of (60°, 1 rad, 1) at latitude 0: the longitude motion is stored as 1/2, not as 1. -/
example (junk : ℝ) : ∀ g, g = Frame.ofRepDiff junk (exFrame 5 5 5) ⟨.spherical, ⟨0, 1, 1⟩, 1, 1, 1⟩ (.plain ⟨.spherical, ⟨Real.pi / 3, 1, 1⟩, 1, 1, 1⟩) →
    g.pmLon * (Real.pi / 180) = 1 / 2 := by
  intro g hg
  have := Real.pi_gt_three
  have e := (C93_spherical junk (exFrame 5 5 5) (exFrame_isFrame _ _ _) ⟨.spherical, ⟨0, 1, 1⟩, 1, 1, 1⟩ ⟨.spherical, ⟨Real.pi / 3, 1, 1⟩, 1, 1, 1⟩ rfl
    ⟨one_pos, one_pos, one_pos⟩ ⟨by simp only; linarith, by simp only; linarith, one_pos, by simp only; linarith, one_pos⟩
    (by simp [Real.cos_pi_div_three]) g hg).2.1
  simpa [exFrame, Rep.get, unitCast, Real.cos_pi_div_three] using e

end Astro
