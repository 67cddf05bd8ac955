import Verif.Props.SepConvert
import Verif.Props.SepDegrees
import Verif.Props.UnitChain

/-
C147: the angular separation of two places given in degrees, computed after conversions of their coordinates, in double arithmetic.
-/

namespace Astro

open Spec Matrix Coord Time

/-- The rotations by the angles as stored. -/
theorem stored_numbers (T : Trig) (steps : List (Conversion × DAngle)) (hs : ∀ s ∈ steps, ∃ q, s.2.radians = .num q ∧ IsDouble q) :
    ∃ l : List (Rotation T), l.map (·.computed) = steps.map (fun s => s.1.matrix T s.2) ∧ l.length = steps.length := by
  induction steps with
  | nil => exact ⟨[], rfl, rfl⟩
  | cons s steps ih =>
    obtain ⟨l, h1, h2⟩ := ih fun t ht => hs t (List.mem_cons_of_mem _ ht)
    obtain ⟨q, hq, dq⟩ := hs s List.mem_cons_self
    refine ⟨storedRotation T s.1 q dq :: l, ?_, by rw [List.length_cons, List.length_cons, h2]⟩
    rw [List.map_cons, List.map_cons, h1]
    congr 1
    obtain ⟨c, a⟩ := s
    have ha : a.radians = .num q := hq
    cases c <;> simp [storedRotation, Conversion.matrix, ha]

theorem angularDistance_cosBetween (u v u' v' : ℝ) : Real.arccos (cosBetween .equatorial u v u' v') = angularDistance v u v' u' := (C119_meaning u v u' v').1

/-- **C147.** Two places whose angles are stored within `e` of what they should be are converted by the same N conversions.  The separation computed afterwards is
within (4 N + 1) 2^-23 + 8 e of the exact separation of the exact places; how accurately the angles of the conversions are stored does not matter. -/
theorem C147_chain {T : Trig} {I : InverseTrig} (hT : Accurate T) (hI : AccurateInverse I) (hP : PassesNaN T) (steps : List (Conversion × DAngle))
    (hs : ∀ s ∈ steps, ∃ q, s.2.radians = .num q ∧ IsDouble q) {e : ℝ} (u v u' v' : DAngle) (α β α' β' : ℝ) (hu : Near u.radians α e) (hv : Near v.radians β e)
    (hu' : Near u'.radians α' e) (hv' : Near v'.radians β' e) (r r' : ℚ)
    (h1 : 2 ^ (-400 : ℤ) ≤ |r|) (h2 : |r| ≤ 2 ^ (400 : ℤ)) (h1' : 2 ^ (-400 : ℤ) ≤ |r'|) (h2' : |r'| ≤ 2 ^ (400 : ℤ))
    (p q : Dbl × Dbl) (hp : Conversion.chain T I steps u v = p) (hq : Conversion.chain T I steps u' v' = q)
    (np : p.2 ≠ .nan) (nq : q.2 ≠ .nan) (d : Dbl) (hd : d = DSph.separation T I .equatorial ⟨p.1, p.2, .num r⟩ ⟨q.1, q.2, .num r'⟩)
    (t : ℝ) (ht : t = angularDistance β α β' α') (E : ℝ) (hE : E = (4 * steps.length + 1) * 2 ^ (-23 : ℤ) + 8 * e) :
    Near d t E ∨ (d = .nan ∧ (t ≤ E ∨ Real.pi - E ≤ t)) := by
  obtain ⟨l, hl, hlen⟩ := stored_numbers T steps hs
  obtain ⟨x, hx, dx, ex⟩ := hu
  obtain ⟨y, hy, dy, ey⟩ := hv
  obtain ⟨x', hx', dx', ex'⟩ := hu'
  obtain ⟨y', hy', dy', ey'⟩ := hv'
  have k := stored_separation ex ey ex' ey'
  rw [angularDistance_cosBetween, angularDistance_cosBetween, ← ht] at k
  unfold Conversion.chain at hp hq
  rw [← hl, hx, hy] at hp
  rw [← hl, hx', hy'] at hq
  have c := C133_chain hT hI hP l x y x' y' r r' dx dy dx' dy' h1 h2 h1' h2' p q hp hq np nq d hd _ rfl _ rfl
  rw [hlen] at c
  rw [hE]
  generalize (4 * (steps.length : ℝ) + 1) * 2 ^ (-23 : ℤ) = E₀ at *
  obtain ⟨k1, k2⟩ := abs_le.1 k
  rcases c with ⟨w, hw, dw, ew⟩ | ⟨hn, hr⟩
  · exact .inl ⟨w, hw, dw, (abs_sub_le _ _ _).trans (add_le_add ew k)⟩
  · refine .inr ⟨hn, hr.imp (fun h => ?_) fun h => ?_⟩ <;> linarith

/-- **C147.** All angles in degrees, up to a full turn: (4 N + 1) 2^-23 + 2^-37. -/
theorem C147_degrees {T : Trig} {I : InverseTrig} (hT : Accurate T) (hI : AccurateInverse I) (hP : PassesNaN T) (steps : List (Conversion × ℚ))
    (hs : ∀ s ∈ steps, |s.2| ≤ 360) (u v u' v' : ℚ) (hu : |u| ≤ 360) (hv : |v| ≤ 360) (hu' : |u'| ≤ 360) (hv' : |v'| ≤ 360) (r r' : ℚ)
    (h1 : 2 ^ (-400 : ℤ) ≤ |r|) (h2 : |r| ≤ 2 ^ (400 : ℤ)) (h1' : 2 ^ (-400 : ℤ) ≤ |r'|) (h2' : |r'| ≤ 2 ^ (400 : ℤ))
    (p q : Dbl × Dbl) (hp : Conversion.chain T I (steps.map fun s => (s.1, inDegrees s.2)) (inDegrees u) (inDegrees v) = p)
    (hq : Conversion.chain T I (steps.map fun s => (s.1, inDegrees s.2)) (inDegrees u') (inDegrees v') = q)
    (np : p.2 ≠ .nan) (nq : q.2 ≠ .nan) (d : Dbl) (hd : d = DSph.separation T I .equatorial ⟨p.1, p.2, .num r⟩ ⟨q.1, q.2, .num r'⟩)
    (t : ℝ) (ht : t = angularDistance (degree v) (degree u) (degree v') (degree u')) (E : ℝ) (hE : E = (4 * steps.length + 1) * 2 ^ (-23 : ℤ) + 2 ^ (-37 : ℤ)) :
    Near d t E ∨ (d = .nan ∧ (t ≤ E ∨ Real.pi - E ≤ t)) := by
  refine C147_chain hT hI hP (steps.map fun s => (s.1, inDegrees s.2)) ?_ (e := 2 ^ (-40 : ℤ)) _ _ _ _ _ _ _ _ (degrees_near u hu) (degrees_near v hv)
    (degrees_near u' hu') (degrees_near v' hv') r r' h1 h2 h1' h2' p q hp hq np nq d hd t ht E ?_
  · intro s h
    obtain ⟨s', h', rfl⟩ := List.mem_map.1 h
    obtain ⟨w, hw, dw, -⟩ := degrees_near s'.2 (hs s' h')
    exact ⟨w, hw, dw⟩
  · rw [hE, List.length_map]
    congr 1
    norm_num

/-- **C147.** All angles in degrees, places that stay within 48° of the equators on the way and are between 45° and 135° apart: no NaN, and the result is within
(4 N + 1) 2^-45 + 2^-37 of the exact separation. -/
theorem C147_moderate {T : Trig} {I : InverseTrig} (hT : Accurate T) (hI : AccurateInverse I) (steps : List (Conversion × ℚ))
    (hs : ∀ s ∈ steps, |s.2| ≤ 360) (hlen : steps.length ≤ 2 ^ 32) (u v u' v' : ℚ) (hu : |u| ≤ 360) (hv : |v| ≤ 360) (hu' : |u'| ≤ 360) (hv' : |v'| ≤ 360)
    (r r' : ℚ) (h1 : 2 ^ (-400 : ℤ) ≤ |r|) (h2 : |r| ≤ 2 ^ (400 : ℤ)) (h1' : 2 ^ (-400 : ℤ) ≤ |r'|) (h2' : |r'| ≤ 2 ^ (400 : ℤ))
    (hm : ∀ l, l <+: steps → l ≠ [] → |turned (l.map fun s => (s.1, degree s.2)) (columnVector (degree u) (degree v)) 2| ≤ 3 / 4 ∧
      |turned (l.map fun s => (s.1, degree s.2)) (columnVector (degree u') (degree v')) 2| ≤ 3 / 4)
    (p q : Dbl × Dbl) (hp : Conversion.chain T I (steps.map fun s => (s.1, inDegrees s.2)) (inDegrees u) (inDegrees v) = p)
    (hq : Conversion.chain T I (steps.map fun s => (s.1, inDegrees s.2)) (inDegrees u') (inDegrees v') = q)
    (t : ℝ) (ht : t = angularDistance (degree v) (degree u) (degree v') (degree u')) (hmid : |t - Real.pi / 2| ≤ 8 / 10) :
    Near (DSph.separation T I .equatorial ⟨p.1, p.2, .num r⟩ ⟨q.1, q.2, .num r'⟩) t ((4 * steps.length + 1) * 2 ^ (-45 : ℤ) + 2 ^ (-37 : ℤ)) := by
  have near : ∀ s ∈ steps.map (fun s => (s.1, inDegrees s.2, degree s.2)), Near s.2.1.radians s.2.2 (2 ^ (-40 : ℤ)) := by
    intro s h
    obtain ⟨s', h', rfl⟩ := List.mem_map.1 h
    exact degrees_near _ (hs s' h')
  obtain ⟨l, hf⟩ := stored_list T (steps.map fun s => (s.1, inDegrees s.2, degree s.2)) near
  have hl := stored_computed hf
  have hlen' : l.length = steps.length := by rw [hf.length_eq, List.length_map]
  have hl' : l.map (·.computed) = (steps.map fun s => (s.1, inDegrees s.2)).map fun s => s.1.matrix T s.2 := by
    rw [hl, List.map_map, List.map_map]
    rfl
  have small : (steps.length : ℝ) * 2 ^ (-40 : ℤ) ≤ 1 / 100 := by
    have : (steps.length : ℝ) ≤ 2 ^ 32 := by exact_mod_cast hlen
    refine (mul_le_mul_of_nonneg_right this (by positivity)).trans ?_
    norm_num
  have tiny : 2 * (2 : ℝ) ^ (-40 : ℤ) ≤ 1 / 100 := by norm_num
  -- the stored places stay away from the poles as well
  have stay : ∀ {u v : ℚ} {x y : ℝ}, |x - degree u| ≤ 2 ^ (-40 : ℤ) → |y - degree v| ≤ 2 ^ (-40 : ℤ) →
      (∀ l, l <+: steps → l ≠ [] → |turned (l.map fun s => (s.1, degree s.2)) (columnVector (degree u) (degree v)) 2| ≤ 3 / 4) →
      ∀ k, k <+: l → k ≠ [] → |rotated k (columnVector x y) 2| ≤ 4 / 5 := by
    intro u v x y ex ey hm k hk hne
    have hk' := List.prefix_iff_eq_take.1 hk
    have hf' : List.Forall₂ (StoredAs (2 ^ (-40 : ℤ))) k ((steps.take k.length).map fun s => (s.1, inDegrees s.2, degree s.2)) := by
      have := List.forall₂_take k.length hf
      rwa [← hk', ← List.map_take] at this
    have hne' : steps.take k.length ≠ [] := by
      intro h
      rw [h] at hf'
      exact hne (List.forall₂_nil_right_iff.1 hf')
    have b := hm _ (List.take_prefix _ _) hne'
    have c := stored_chord hf' (columnVector x y) (columnVector (degree u) (degree v)) (column_size _ _)
    rw [List.map_map, List.length_map] at c
    have d := third_le_chord (rotated k (columnVector x y)) (turned ((steps.take k.length).map fun s => (s.1, degree s.2)) (columnVector (degree u) (degree v)))
    have f := abs_sub_abs_le_abs_sub (rotated k (columnVector x y) 2) (turned ((steps.take k.length).map fun s => (s.1, degree s.2)) (columnVector (degree u) (degree v)) 2)
    have g : ((steps.take k.length).length : ℝ) * 2 ^ (-40 : ℤ) ≤ steps.length * 2 ^ (-40 : ℤ) :=
      mul_le_mul_of_nonneg_right (by exact_mod_cast (List.length_take_le' _ _)) (by positivity)
    have h := column_close x y (degree u) (degree v)
    generalize (2 : ℝ) ^ (-40 : ℤ) = ε at *
    have c' : chord (rotated k (columnVector x y)) (turned ((steps.take k.length).map fun s => (s.1, degree s.2)) (columnVector (degree u) (degree v))) ≤ _ := c
    linarith
  obtain ⟨x, hx, dx, ex⟩ := degrees_near u hu
  obtain ⟨y, hy, dy, ey⟩ := degrees_near v hv
  obtain ⟨x', hx', dx', ex'⟩ := degrees_near u' hu'
  obtain ⟨y', hy', dy', ey'⟩ := degrees_near v' hv'
  have k := stored_separation ex ey ex' ey'
  rw [angularDistance_cosBetween, angularDistance_cosBetween, ← ht] at k
  unfold Conversion.chain at hp hq
  rw [← hl', hx, hy] at hp
  rw [← hl', hx', hy'] at hq
  have e8 : 8 * (2 : ℝ) ^ (-40 : ℤ) = 2 ^ (-37 : ℤ) := by norm_num
  have e37 : (2 : ℝ) ^ (-37 : ℤ) ≤ 1 / 100 := by norm_num
  rw [e8] at k
  obtain ⟨w, hw, dw, ew⟩ := C133_moderate hT hI l (by omega) x y x' y' r r' dx dy dx' dy' h1 h2 h1' h2'
    (fun k hk hne => ⟨stay ex ey (fun l h h' => (hm l h h').1) k hk hne, stay ex' ey' (fun l h h' => (hm l h h').2) k hk hne⟩) p q hp hq _ rfl
    ((abs_sub_le _ t _).trans ((add_le_add (k.trans e37) hmid).trans (by norm_num)))
  rw [hlen'] at ew
  exact ⟨w, hw, dw, (abs_sub_le _ _ _).trans (add_le_add ew k)⟩

/-- The points 0° and 90° of the ecliptic in equatorial coordinates, for an obliquity of 23°: the computed separation is a right angle within 5 2^-45 + 2^-37. -/
example : ∃ (T : Trig) (I : InverseTrig), Accurate T ∧ AccurateInverse I ∧ ∃ p q : Dbl × Dbl,
    Conversion.chain T I [(.fromEcliptic, inDegrees 23)] (inDegrees 0) (inDegrees 0) = p ∧
      Conversion.chain T I [(.fromEcliptic, inDegrees 23)] (inDegrees 90) (inDegrees 0) = q ∧
      Near (DSph.separation T I .equatorial ⟨p.1, p.2, .num 1⟩ ⟨q.1, q.2, .num 1⟩) (Real.pi / 2) (5 * 2 ^ (-45 : ℤ) + 2 ^ (-37 : ℤ)) := by
  obtain ⟨T, hT⟩ := best_exists
  obtain ⟨I, hI⟩ := inverse_exists
  have p2 := Real.pi_lt_d4
  have p0 := Real.pi_pos
  norm_num at p2
  have low : (2 : ℚ) ^ (-400 : ℤ) ≤ |1| := by rw [abs_one]; exact zpow_le_one_of_nonpos₀ (by norm_num) (by norm_num)
  have high : |(1 : ℚ)| ≤ 2 ^ (400 : ℤ) := by rw [abs_one]; exact one_le_zpow₀ (by norm_num) (by norm_num)
  have e0 : degree 0 = 0 := by simp [degree]
  have e90 : degree 90 = Real.pi / 2 := by simp [degree]; ring
  have e : Real.pi / 2 = angularDistance (degree 0) (degree 0) (degree 0) (degree 90) := by
    rw [angularDistance_eq, e0, e90]
    simp
  have z : ∀ u : ℝ, |turned [(.fromEcliptic, degree 23)] (columnVector u (degree 0)) 2| ≤ 3 / 4 := by
    intro u
    have e23 : degree 23 ≤ 1 / 2 := by
      simp only [degree]
      push_cast
      linarith
    have n23 : 0 ≤ degree 23 := by simp only [degree]; positivity
    have h1 : Real.sin (degree 23) ≤ 1 / 2 := (Real.sin_le n23).trans e23
    have h2 : 0 ≤ Real.sin (degree 23) := Real.sin_nonneg_of_nonneg_of_le_pi n23 (by linarith [Real.pi_gt_three])
    have h3 := Real.abs_sin_le_one u
    simp [turned, exactMatrix, e0, eclipticToRaDec, columnVector, Fin.sum_univ_three]
    rw [abs_of_nonneg h2]
    nlinarith [abs_nonneg (Real.sin u)]
  refine ⟨T, I, best_accurate hT, hI, _, _, rfl, rfl, ?_⟩
  have := C147_moderate (best_accurate hT) hI [(.fromEcliptic, 23)] (by simp; norm_num) (by norm_num) 0 0 90 0 (by norm_num) (by norm_num) (by norm_num) (by norm_num)
    1 1 low high low high (by
      intro l hl hne
      have hl' : l = [(.fromEcliptic, 23)] := by
        obtain ⟨t, ht⟩ := hl
        cases l with
        | nil => exact absurd rfl hne
        | cons a l =>
          simp only [List.cons_append, List.cons.injEq, List.append_eq_nil_iff] at ht
          rw [ht.1, ht.2.1]
      subst hl'
      exact ⟨z _, z _⟩) _ _ rfl rfl _ rfl (by rw [← e]; norm_num)
  rw [← e] at this
  simpa [show (4 + 1 : ℝ) = 5 by norm_num] using this

end Astro
