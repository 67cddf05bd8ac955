import Verif.Lemmas.CosLatDouble

/-
C130: coslat differentials in double arithmetic.
-/

set_option exponentiation.threshold 3000

namespace Astro

open Spec Time

attribute [local irreducible] FloatFmt.nearest FloatFmt.value Dbl.round

/-- **C130.** A coslat differential made of a spherical one with azimuth `a`, polar angle `b` and length `r`: it stands for the azimuth `a`, the polar angle
`b cos a` and the length `r`, within 2^-23, within 2^-45 away from the polar axis. -/
theorem C130_spherical {T : Trig} {I : InverseTrig} (hT : Accurate T) (hI : AccurateInverse I) (junk : Dbl) (a b r : ℚ) (da : IsDouble a) (dr : IsDouble r)
    (hb : |(b : ℝ)| ≤ 4) (lo : (2 : ℝ) ^ (-460 : ℤ) ≤ |(r : ℝ)|) (hi : |(r : ℝ)| ≤ 2 ^ (480 : ℤ)) :
    ∃ z, Stands3 .spherical (DSph.cosLatMake T I junk .spherical ⟨.num a, .num b, .num r⟩) z ∧
      chord z (position .spherical a (b * Real.cos a) r) ≤ |(r : ℝ)| * 2 ^ (-23 : ℤ) ∧
      (1 / 3 ≤ |Real.sin (b * Real.cos a)| → chord z (position .spherical a (b * Real.cos a) r) ≤ |(r : ℝ)| * 2 ^ (-45 : ℤ)) :=
  cosLat_stored hT hI junk da dr hb lo hi

/-- A coslat differential of the vector `d`, which is nearly `W`. -/
theorem cosLat_near {T : Trig} {I : InverseTrig} (hT : Accurate T) (hI : AccurateInverse I) (junk : Dbl) {d : DVec} {x y z : ℚ} (h : Coords d x y z) {W : Coord.Vec}
    (hE : chord (vec x y z) W ≤ size W * (50 * unit53)) (hW : Between 400 W) :
    ∃ a b r : ℚ, (0 ≤ (r : ℝ) ∧ -2 ^ (-52 : ℤ) ≤ (b : ℝ) ∧ (b : ℝ) ≤ Real.pi + 2 ^ (-52 : ℤ)) ∧ chord (position .spherical a b r) W ≤ size W * 2 ^ (-22 : ℤ) ∧
      (size W / 3 ≤ √(W 0 ^ 2 + W 1 ^ 2) → chord (position .spherical a b r) W ≤ size W * 2 ^ (-44 : ℤ)) ∧
      ∃ z, Stands3 .spherical (DSph.ofPoint T I junk .spherical .spherical ⟨(d.makeAngular T I junk .spherical).c0,
        (d.makeAngular T I junk .spherical).c1.mul (T.cos (d.makeAngular T I junk .spherical).c0), (d.makeAngular T I junk .spherical).c2⟩) z ∧
        chord z (position .spherical a (b * Real.cos a) r) ≤ size W * 2 ^ (-22 : ℤ) ∧
        (1 / 3 ≤ |Real.sin (b * Real.cos a)| → chord z (position .spherical a (b * Real.cos a) r) ≤ size W * 2 ^ (-44 : ℤ)) := by
  have u0 := unit53_pos
  have W0 : 0 < size W := lt_of_lt_of_le (by positivity) hW.1
  obtain ⟨a, b, r, e, da, db, dr, r0, b1, b2, c1, c2⟩ := made_near hT hI junk h hE (le_trans (by norm_num) hW.1) (hW.2.trans (by norm_num))
  have hb : |(b : ℝ)| ≤ 4 := by
    have p := Real.pi_lt_d2
    have s : (2 : ℝ) ^ (-52 : ℤ) ≤ 1 / 100 := by norm_num
    rw [abs_le]
    norm_num at p
    clear hE c1 c2 hW
    generalize (2 : ℝ) ^ (-52 : ℤ) = ε at *
    constructor <;> linarith
  have s1 := size_sub (position .spherical a b r) W
  have s2 := size_sub W (position .spherical a b r)
  rw [chord_comm] at s2
  rw [position_size .spherical (by decide)] at s1 s2
  have t := mul_le_mul_of_nonneg_left (show (2 : ℝ) ^ (-22 : ℤ) ≤ 1 / 1000 by norm_num) W0.le
  have ch := c1.trans t
  have r1 : |(r : ℝ)| ≤ 2 * size W := by
    clear c1 c2 t b1 b2 hE
    linarith
  have r2 : size W / 2 ≤ |(r : ℝ)| := by
    clear c1 c2 t b1 b2 hE
    linarith
  obtain ⟨z, hz, z1, z2⟩ := cosLat_stored hT hI junk da dr hb (by
      refine le_trans ?_ r2
      have t1 : (2 : ℝ) ^ (-460 : ℤ) ≤ 2 ^ (-400 : ℤ) / 2 := by norm_num
      exact t1.trans (div_le_div_of_nonneg_right hW.1 (by norm_num))) (r1.trans (by
      have t1 : 2 * (2 : ℝ) ^ (400 : ℤ) ≤ 2 ^ (480 : ℤ) := by norm_num
      exact (mul_le_mul_of_nonneg_left hW.2 (by norm_num)).trans t1))
  rw [e]
  refine ⟨a, b, r, ⟨r0, b1, b2⟩, c1, fun h => (c2 h).trans ?_, z, hz, z1.trans ?_, fun h => (z2 h).trans ?_⟩
  · exact mul_le_mul_of_nonneg_left (by norm_num [unit53]) W0.le
  · have := mul_le_mul_of_nonneg_right r1 (show (0 : ℝ) ≤ 2 ^ (-23 : ℤ) by positivity)
    refine this.trans (le_of_eq ?_)
    rw [show (2 : ℝ) ^ (-22 : ℤ) = 2 * 2 ^ (-23 : ℤ) by norm_num]
    ring
  · have := mul_le_mul_of_nonneg_right r1 (show (0 : ℝ) ≤ 2 ^ (-45 : ℤ) by positivity)
    refine this.trans (le_of_eq ?_)
    rw [show (2 : ℝ) ^ (-44 : ℤ) = 2 * 2 ^ (-45 : ℤ) by norm_num]
    ring

/-- **C130.** A coslat differential made of one that is Cartesian or equatorial and stands for `v`: there are a polar angle `b` in the usual range, an azimuth `a` and
a length `r` that stand for `v` within 2^-22 (2^-44 away from the axis), and the result stands for `a`, `b cos a`, `r` within the same bounds. -/
theorem C130_make {T : Trig} {I : InverseTrig} (hT : Accurate T) (hI : AccurateInverse I) (junk : Dbl) (s : Coord.System) (hs : s ≠ .spherical) (p : DSph)
    (v : Coord.Vec) (hp : Stands3 s p v) (hv : Between 400 v) :
    ∃ a b r : ℚ, (0 ≤ (r : ℝ) ∧ -2 ^ (-52 : ℤ) ≤ (b : ℝ) ∧ (b : ℝ) ≤ Real.pi + 2 ^ (-52 : ℤ)) ∧ chord (position .spherical a b r) v ≤ size v * 2 ^ (-22 : ℤ) ∧
      (size v / 3 ≤ √(v 0 ^ 2 + v 1 ^ 2) → chord (position .spherical a b r) v ≤ size v * 2 ^ (-44 : ℤ)) ∧
      ∃ z, Stands3 .spherical (p.cosLatMake T I junk s) z ∧ chord z (position .spherical a (b * Real.cos a) r) ≤ size v * 2 ^ (-22 : ℤ) ∧
        (1 / 3 ≤ |Real.sin (b * Real.cos a)| → chord z (position .spherical a (b * Real.cos a) r) ≤ size v * 2 ^ (-44 : ℤ)) := by
  obtain ⟨w1, w2⟩ := between_wide (by norm_num) hv
  obtain ⟨x, y, z, hc, ec⟩ := cartesian_chord hT hp w1 w2
  have := cosLat_near hT hI junk hc (W := v) (ec.trans (mul_le_mul_of_nonneg_left (by have := unit53_pos; linarith) (size_nonneg v))) hv
  cases s with
  | spherical => exact absurd rfl hs
  | cartesian => exact this
  | equatorial => exact this

/-- **C130.** A coslat differential plus another differential that is not coslat: the stored numbers of the first operand are read as azimuth and polar angle,
and the sum is made coslat as in `C130_make`. -/
theorem C130_plus {T : Trig} {I : InverseTrig} (hT : Accurate T) (hI : AccurateInverse I) (junk : Dbl) (s : Coord.System) (p q : DSph) (v w : Coord.Vec)
    (hp : Stands3 .spherical p v) (hq : Stands3 s q w) (hv : Between 300 v) (hw : Between 300 w) (hc : size v + size w ≤ 4 * size (v + w)) :
    ∃ a b r : ℚ, (0 ≤ (r : ℝ) ∧ -2 ^ (-52 : ℤ) ≤ (b : ℝ) ∧ (b : ℝ) ≤ Real.pi + 2 ^ (-52 : ℤ)) ∧ chord (position .spherical a b r) (v + w) ≤ size (v + w) * 2 ^ (-22 : ℤ) ∧
      (size (v + w) / 3 ≤ √((v + w) 0 ^ 2 + (v + w) 1 ^ 2) → chord (position .spherical a b r) (v + w) ≤ size (v + w) * 2 ^ (-44 : ℤ)) ∧
      ∃ z, Stands3 .spherical (DSph.cosLatPlus T I junk s p q) z ∧ chord z (position .spherical a (b * Real.cos a) r) ≤ size (v + w) * 2 ^ (-22 : ℤ) ∧
        (1 / 3 ≤ |Real.sin (b * Real.cos a)| → chord z (position .spherical a (b * Real.cos a) r) ≤ size (v + w) * 2 ^ (-44 : ℤ)) := by
  have u0 := unit53_pos
  obtain ⟨v1, v2⟩ := between_wide (by norm_num) hv
  obtain ⟨w1, w2⟩ := between_wide (by norm_num) hw
  obtain ⟨⟨x, y, z, h, hE⟩, -⟩ := sum_coords hT hp hq v1 v2 w1 w2
  have m := mul_le_mul_of_nonneg_right hc (show 0 ≤ 7 * unit53 by positivity)
  have m0 := mul_nonneg (size_nonneg (v + w)) u0.le
  have tri : size (v + w) ≤ size v + size w := size_add v w
  refine cosLat_near hT hI junk h (by linarith) ⟨?_, ?_⟩
  · have t1 : (2 : ℝ) ^ (-400 : ℤ) ≤ 2 ^ (-300 : ℤ) / 4 := by norm_num
    have t2 : size v / 4 ≤ size (v + w) := by
      clear hE m
      linarith [size_nonneg w]
    exact t1.trans ((div_le_div_of_nonneg_right hv.1 (by norm_num)).trans t2)
  · have t1 : (2 : ℝ) ^ (300 : ℤ) + 2 ^ (300 : ℤ) ≤ 2 ^ (400 : ℤ) := by norm_num
    exact tri.trans ((add_le_add hv.2 hw.2).trans t1)

/-- **C130.** A coslat differential times a number: its stored numbers read as a spherical differential are those of the product within 2^-23 (2^-45). -/
theorem C130_times {T : Trig} {I : InverseTrig} (hT : Accurate T) (hI : AccurateInverse I) (junk : Dbl) (p : DSph) (v : Coord.Vec) (k : ℚ)
    (hp : Stands3 .spherical p v) (hv : Between 300 v) (hk : 2 ^ (-100 : ℤ) ≤ |(k : ℝ)|) (hk' : |(k : ℝ)| ≤ 2 ^ (100 : ℤ)) :
    ∃ z, Stands3 .spherical (p.cosLatTimes T I junk (.num k)) z ∧ chord z ((k : ℝ) • v) ≤ size ((k : ℝ) • v) * 2 ^ (-23 : ℤ) ∧
      (size v / 3 ≤ √(v 0 ^ 2 + v 1 ^ 2) → chord z ((k : ℝ) • v) ≤ size ((k : ℝ) • v) * 2 ^ (-45 : ℤ)) :=
  C128_times hT hI junk .spherical p v k hp hv hk hk'

theorem first_le_chord (v w : Coord.Vec) : |v 0 - w 0| ≤ chord v w := by
  unfold chord
  apply Real.abs_le_sqrt
  nlinarith [sq_nonneg (v 0 - w 0), sq_nonneg (v 1 - w 1), sq_nonneg (v 2 - w 2)]

/-- A polar angle near a right angle and an azimuth near a right angle. -/
theorem pole_near {r s c t b : ℝ} (hsc : s ^ 2 + c ^ 2 = 1) (r1 : 99 / 100 ≤ r) (h0 : |r * s * t| ≤ 74 / 1000) (h2 : |r * c| ≤ 74 / 1000) (hb : |b| ≤ 4) :
    95 / 100 ≤ Real.cos (b * t) := by
  have r0 : 0 < r := by linarith
  rw [abs_mul, abs_of_pos r0] at h2
  rw [abs_mul, abs_mul, abs_of_pos r0] at h0
  have c1 : |c| ≤ 75 / 1000 := by
    by_contra hc
    have := mul_lt_mul'' (lt_of_lt_of_le (by norm_num) r1 : (98 / 100 : ℝ) < r) (lt_of_not_ge hc) (by norm_num) (by norm_num)
    nlinarith [mul_le_mul r1 (le_of_lt (lt_of_not_ge hc)) (by norm_num) r0.le]
  have cc : c ^ 2 ≤ (75 / 1000) ^ 2 := by
    rw [← sq_abs]
    exact pow_le_pow_left₀ (abs_nonneg _) c1 2
  have s1 : 99 / 100 ≤ |s| := by
    apply le_of_sq_le_sq _ (abs_nonneg _)
    rw [sq_abs]
    nlinarith
  have t1 : |t| ≤ 77 / 1000 := by
    have h3 : 98 / 100 ≤ r * |s| := by
      have := mul_le_mul r1 s1 (by norm_num) r0.le
      linarith
    by_contra ht
    have := mul_le_mul h3 (le_of_lt (lt_of_not_ge ht)) (by norm_num) (by positivity)
    linarith
  have bt : (b * t) ^ 2 ≤ (308 / 1000) ^ 2 := by
    rw [← sq_abs, abs_mul]
    have := mul_le_mul hb t1 (abs_nonneg _) (by norm_num)
    exact pow_le_pow_left₀ (by positivity) (by linarith) 2
  have := Real.one_sub_sq_div_two_le_cos (x := b * t)
  linarith

/-- **C130.** Adding next to nothing is not nothing: the stored polar angle has its cosine already, but is multiplied by it once more.  With azimuth and polar
angle 1.5 and length 1, close to the equator, the result is close to the pole. -/
theorem C130_turns {T : Trig} {I : InverseTrig} (hT : Accurate T) (hI : AccurateInverse I) (junk : Dbl) (s : Coord.System) (q : DSph) (w : Coord.Vec)
    (hq : Stands3 s q w) (hw : Between 300 w) (small : size w ≤ 2 ^ (-20 : ℤ)) :
    ∃ z, Stands3 .spherical (DSph.cosLatPlus T I junk s ⟨.num (3 / 2), .num (3 / 2), .num 1⟩ q) z ∧
      9 / 10 ≤ z 2 ∧ |(position .spherical (3 / 2) (3 / 2) 1 + w) 2| ≤ 1 / 10 := by
  have d32 : IsDouble (3 / 2) := ⟨3, -1, by norm_num, by norm_num, by norm_num, by norm_num⟩
  have d1 : IsDouble 1 := ⟨1, 0, by norm_num, by norm_num, by norm_num, by norm_num⟩
  generalize hv : position .spherical (3 / 2) (3 / 2) 1 = v
  have hp : Stands3 .spherical ⟨.num (3 / 2), .num (3 / 2), .num 1⟩ v := ⟨3 / 2, 3 / 2, 1, rfl, d32, d32, d1, by rw [← hv]; norm_num⟩
  have V1 : size v = 1 := by
    rw [← hv, position_size .spherical (by decide)]
    norm_num
  have cosb : 0 ≤ Real.cos (3 / 2) ∧ Real.cos (3 / 2) ≤ 71 / 1000 := by
    have p := Real.pi_lt_d4
    have p' := Real.pi_gt_d4
    norm_num at p p'
    constructor
    · exact Real.cos_nonneg_of_mem_Icc ⟨by linarith, by linarith⟩
    · rw [← Real.sin_pi_div_two_sub]
      exact (Real.sin_le (by linarith)).trans (by linarith)
  have sw : size w ≤ 1 / 100000 := small.trans (by norm_num)
  have sum1 := size_sub (v + w) v
  have sum2 := size_sub v (v + w)
  have dif : chord (v + w) v = size w := by
    unfold size chord
    simp
  rw [chord_comm v] at sum2
  rw [dif, V1] at sum1 sum2
  obtain ⟨a, b, r, ⟨r0, b1, b2⟩, c1, -, z, hz, z1, -⟩ := C130_plus hT hI junk s _ q v w hp hq
    (by rw [Between, V1]; constructor <;> norm_num) hw (by linarith [size_nonneg w])
  refine ⟨z, hz, ?_⟩
  obtain ⟨w0, w1, w2⟩ := coord_le_size w
  have v0 : |v 0| ≤ 71 / 1000 := by
    have e : v 0 = Real.sin (3 / 2) * Real.cos (3 / 2) := by rw [← hv]; simp [position]
    rw [e, abs_mul, abs_of_nonneg cosb.1]
    have := mul_le_mul_of_nonneg_right (Real.abs_sin_le_one (3 / 2)) cosb.1
    linarith
  have v2 : |v 2| ≤ 71 / 1000 := by
    have e : v 2 = Real.cos (3 / 2) := by rw [← hv]; simp [position]
    rw [e, abs_of_nonneg cosb.1]
    exact cosb.2
  have vw0 : |(v + w) 0| ≤ 72 / 1000 := (abs_add_le (v 0) (w 0)).trans (by linarith)
  have vw2 : |(v + w) 2| ≤ 72 / 1000 := (abs_add_le (v 2) (w 2)).trans (by linarith)
  refine ⟨?_, vw2.trans (by norm_num)⟩
  have bound : size (v + w) * 2 ^ (-22 : ℤ) ≤ 1 / 1000 := by
    have := mul_le_mul_of_nonneg_right sum1 (show (0 : ℝ) ≤ 2 ^ (-22 : ℤ) by positivity)
    have e : (2 : ℝ) ^ (-22 : ℤ) ≤ 1 / 2000 := by norm_num
    nlinarith
  have near := c1.trans bound
  have near' := z1.trans bound
  have g0 := (first_le_chord (position .spherical a b r) (v + w)).trans near
  have g2 := (third_le_chord (position .spherical a b r) (v + w)).trans near
  have g := (third_le_chord z (position .spherical a (b * Real.cos a) r)).trans near'
  have r1 := size_sub (position .spherical a b r) (v + w)
  have r2 := size_sub (v + w) (position .spherical a b r)
  rw [chord_comm (v + w)] at r2
  rw [position_size .spherical (by decide)] at r1 r2
  have e0 : (position .spherical a b r) 0 = r * Real.sin b * Real.cos a := by simp [position]
  have e2 : (position .spherical a b r) 2 = r * Real.cos b := by simp [position]
  have e3 : (position .spherical a (b * Real.cos a) r) 2 = r * Real.cos (b * Real.cos a) := by simp [position]
  rw [e0] at g0
  rw [e2] at g2
  rw [e3] at g
  have bb : |(b : ℝ)| ≤ 4 := by
    have p := Real.pi_lt_d2
    have t : (2 : ℝ) ^ (-52 : ℤ) ≤ 1 / 100 := by norm_num
    norm_num at p
    clear hw small hz z1 c1 bound
    rw [abs_le]
    generalize (2 : ℝ) ^ (-52 : ℤ) = ε at *
    constructor <;> linarith
  rw [abs_of_nonneg r0] at r1 r2
  have rr : 99 / 100 ≤ (r : ℝ) := by
    clear hw small hz z1 c1 bound b1 b2
    linarith
  have k0 : |(r : ℝ) * Real.sin b * Real.cos a| ≤ 74 / 1000 := by
    have := abs_sub_abs_le_abs_sub ((r : ℝ) * Real.sin b * Real.cos a) ((v + w) 0)
    clear hw small hz z1 c1 bound b1 b2
    linarith
  have k2 : |(r : ℝ) * Real.cos b| ≤ 74 / 1000 := by
    have := abs_sub_abs_le_abs_sub ((r : ℝ) * Real.cos b) ((v + w) 2)
    clear hw small hz z1 c1 bound b1 b2
    linarith
  have top := pole_near (Real.sin_sq_add_cos_sq (b : ℝ)) rr k0 k2 bb
  have low := mul_le_mul rr top (by norm_num) r0
  have := (abs_le.1 g).1
  clear hw small hz z1 c1 bound b1 b2
  norm_num at low
  linarith

/-- The coslat differential of (1, 1/2, 2): it exists, and its polar angle is that of `cos 1 / 2`. -/
example : ∃ (T : Trig) (I : InverseTrig), ∀ junk, ∃ z, Stands3 .spherical (DSph.cosLatMake T I junk .spherical ⟨.num 1, .num (1 / 2), .num 2⟩) z ∧
    chord z (position .spherical 1 (1 / 2 * Real.cos 1) 2) ≤ 2 * 2 ^ (-23 : ℤ) := by
  obtain ⟨T, hT⟩ : ∃ T, Accurate T := best_exists.imp fun _ => best_accurate
  obtain ⟨I, hI⟩ := inverse_exists
  refine ⟨T, I, fun junk => ?_⟩
  obtain ⟨z, hz, h, -⟩ := C130_spherical hT hI junk 1 (1 / 2) 2 ⟨1, 0, by norm_num, by norm_num, by norm_num, by norm_num⟩
    ⟨1, 1, by norm_num, by norm_num, by norm_num, by norm_num⟩ (by norm_num [abs_of_pos]) (by norm_num) (by norm_num)
  refine ⟨z, hz, ?_⟩
  simpa using h

end Astro
