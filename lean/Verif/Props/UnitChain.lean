import Verif.Lemmas.UnitChain
import Verif.Props.ChainDouble
import Verif.Props.Obliquity

/-
C131: conversions by angles in degrees, and by the obliquity of a date, in doubles.
-/

set_option exponentiation.threshold 3000

namespace Astro

open Spec Time Matrix

attribute [local irreducible] FloatFmt.nearest FloatFmt.value Dbl.round

/-- **C131.** If every angle is stored within `e` of what it should be, `n` conversions one after the other give a direction that is off by at most
`n` times 2^-23 rad plus `e` for each of the `n + 2` angles, unless the latitude is NaN. -/
theorem C131_chain {T : Trig} {I : InverseTrig} (hT : Accurate T) (hI : AccurateInverse I) (hP : PassesNaN T) {e : ℝ}
    (steps : List (Conversion × DAngle × ℝ)) (hs : ∀ s ∈ steps, Near s.2.1.radians s.2.2 e) (u v : DAngle) (α β : ℝ) (hu : Near u.radians α e)
    (hv : Near v.radians β e) (p : Dbl × Dbl) (hp : Conversion.chain T I (steps.map fun s => (s.1, s.2.1)) u v = p) (hn : p.2 ≠ .nan) :
    ∃ u' v' : ℚ, p = (.num u', .num v') ∧
      chord (Coord.columnVector u' v') (turned (steps.map fun s => (s.1, s.2.2)) (Coord.columnVector α β)) ≤
        steps.length * 2 ^ (-23 : ℤ) + (steps.length + 2) * e := by
  obtain ⟨l, hf⟩ := stored_list T steps hs
  have hl := stored_computed hf
  obtain ⟨x, hx, dx, ex⟩ := hu
  obtain ⟨y, hy, dy, ey⟩ := hv
  have hlen : l.length = steps.length := hf.length_eq
  have hp' : DMat.chain T I (l.map (·.computed)) (.num x, .num y) = p := by
    rw [hl, ← hx, ← hy, ← hp]
    unfold Conversion.chain
    rw [List.map_map]
    rfl
  obtain ⟨u', v', e1, -, -, e2⟩ := C121_chain hT hI hP l x y dx dy p hp' hn
  refine ⟨u', v', e1, ?_⟩
  have h1 := stored_chord hf (Coord.columnVector x y) (Coord.columnVector α β) (column_size _ _)
  have h2 := column_close x y α β
  have h3 := chord_triangle (Coord.columnVector u' v') (rotated l (Coord.columnVector x y)) (turned (steps.map fun s => (s.1, s.2.2)) (Coord.columnVector α β))
  rw [hlen] at e2
  linarith

/-- **C131.** If moreover all exact directions on the way keep a latitude of at most 48°, the latitude is not NaN and each conversion costs 2^-45 rad only. -/
theorem C131_moderate {T : Trig} {I : InverseTrig} (hT : Accurate T) (hI : AccurateInverse I) {e : ℝ}
    (steps : List (Conversion × DAngle × ℝ)) (hs : ∀ s ∈ steps, Near s.2.1.radians s.2.2 e) (u v : DAngle) (α β : ℝ) (hu : Near u.radians α e)
    (hv : Near v.radians β e) (hlen : steps.length ≤ 2 ^ 32) (he : (steps.length + 2) * e ≤ 1 / 20)
    (hm : ∀ l, l <+: steps → l ≠ [] → |turned (l.map fun s => (s.1, s.2.2)) (Coord.columnVector α β) 2| ≤ 3 / 4) :
    ∃ u' v' : ℚ, Conversion.chain T I (steps.map fun s => (s.1, s.2.1)) u v = (.num u', .num v') ∧
      chord (Coord.columnVector u' v') (turned (steps.map fun s => (s.1, s.2.2)) (Coord.columnVector α β)) ≤
        steps.length * 2 ^ (-45 : ℤ) + (steps.length + 2) * e := by
  obtain ⟨l, hf⟩ := stored_list T steps hs
  have hl := stored_computed hf
  obtain ⟨x, hx, dx, ex⟩ := hu
  obtain ⟨y, hy, dy, ey⟩ := hv
  have e0 : 0 ≤ e := (abs_nonneg _).trans ex
  have hlen' : l.length = steps.length := hf.length_eq
  have h2 := column_close x y α β
  have hchain : DMat.chain T I (l.map (·.computed)) (.num x, .num y) = Conversion.chain T I (steps.map fun s => (s.1, s.2.1)) u v := by
    rw [hl, ← hx, ← hy]
    unfold Conversion.chain
    rw [List.map_map]
    rfl
  obtain ⟨u', v', e1, -, -, e2⟩ := C121_moderate hT hI l x y dx dy (by omega) (by
    intro k hk hne
    have hk' := List.prefix_iff_eq_take.1 hk
    have hf' : List.Forall₂ (StoredAs e) k (steps.take k.length) := by
      have := List.forall₂_take k.length hf
      rwa [← hk'] at this
    have hne' : steps.take k.length ≠ [] := by
      intro h
      rw [h] at hf'
      exact hne (List.forall₂_nil_right_iff.1 hf')
    have b := hm _ (List.take_prefix _ _) hne'
    have c := stored_chord hf' (Coord.columnVector x y) (Coord.columnVector α β) (column_size _ _)
    have d := third_le_chord (rotated k (Coord.columnVector x y)) (turned ((steps.take k.length).map fun s => (s.1, s.2.2)) (Coord.columnVector α β))
    have f := abs_sub_abs_le_abs_sub (rotated k (Coord.columnVector x y) 2) (turned ((steps.take k.length).map fun s => (s.1, s.2.2)) (Coord.columnVector α β) 2)
    have g : ((steps.take k.length).length : ℝ) * e ≤ steps.length * e :=
      mul_le_mul_of_nonneg_right (by exact_mod_cast (List.length_take_le' _ _)) e0
    linarith)
  refine ⟨u', v', hchain ▸ e1, ?_⟩
  have h1 := stored_chord hf (Coord.columnVector x y) (Coord.columnVector α β) (column_size _ _)
  have h3 := chord_triangle (Coord.columnVector u' v') (rotated l (Coord.columnVector x y)) (turned (steps.map fun s => (s.1, s.2.2)) (Coord.columnVector α β))
  rw [hlen'] at e2
  linarith

/-- **C131.** Conversions with all angles in degrees, up to a full turn each: the direction is off by at most 2^-23 rad for each conversion and 2^-40 rad
for each angle, unless the latitude is NaN. -/
theorem C131_degrees {T : Trig} {I : InverseTrig} (hT : Accurate T) (hI : AccurateInverse I) (hP : PassesNaN T) (steps : List (Conversion × ℚ))
    (hs : ∀ s ∈ steps, |s.2| ≤ 360) (u v : ℚ) (hu : |u| ≤ 360) (hv : |v| ≤ 360) (p : Dbl × Dbl)
    (hp : Conversion.chain T I (steps.map fun s => (s.1, inDegrees s.2)) (inDegrees u) (inDegrees v) = p) (hn : p.2 ≠ .nan) :
    ∃ u' v' : ℚ, p = (.num u', .num v') ∧
      chord (Coord.columnVector u' v') (turned (steps.map fun s => (s.1, degree s.2)) (Coord.columnVector (degree u) (degree v))) ≤
        steps.length * 2 ^ (-23 : ℤ) + (steps.length + 2) * 2 ^ (-40 : ℤ) := by
  have := C131_chain hT hI hP (e := 2 ^ (-40 : ℤ)) (steps.map fun s => (s.1, inDegrees s.2, degree s.2)) (by
    intro s h
    obtain ⟨t, ht, rfl⟩ := List.mem_map.1 h
    exact degrees_near _ (hs t ht)) (inDegrees u) (inDegrees v) (degree u) (degree v) (degrees_near u hu) (degrees_near v hv) p
    (by rw [List.map_map]; exact hp) hn
  rw [List.map_map, List.length_map] at this
  exact this

/-- **C131.** The same away from the poles: 2^-45 rad for each conversion and 2^-40 rad for each angle; what the user loses is lost to the twelve digits
of π in boost::units. -/
theorem C131_degrees_moderate {T : Trig} {I : InverseTrig} (hT : Accurate T) (hI : AccurateInverse I) (steps : List (Conversion × ℚ))
    (hs : ∀ s ∈ steps, |s.2| ≤ 360) (hlen : steps.length ≤ 2 ^ 32) (u v : ℚ) (hu : |u| ≤ 360) (hv : |v| ≤ 360)
    (hm : ∀ l, l <+: steps → l ≠ [] → |turned (l.map fun s => (s.1, degree s.2)) (Coord.columnVector (degree u) (degree v)) 2| ≤ 3 / 4) :
    ∃ u' v' : ℚ, Conversion.chain T I (steps.map fun s => (s.1, inDegrees s.2)) (inDegrees u) (inDegrees v) = (.num u', .num v') ∧
      chord (Coord.columnVector u' v') (turned (steps.map fun s => (s.1, degree s.2)) (Coord.columnVector (degree u) (degree v))) ≤
        steps.length * 2 ^ (-45 : ℤ) + (steps.length + 2) * 2 ^ (-40 : ℤ) := by
  have := C131_moderate hT hI (e := 2 ^ (-40 : ℤ)) (steps.map fun s => (s.1, inDegrees s.2, degree s.2)) (by
    intro s h
    obtain ⟨t, ht, rfl⟩ := List.mem_map.1 h
    exact degrees_near _ (hs t ht)) (inDegrees u) (inDegrees v) (degree u) (degree v) (degrees_near u hu) (degrees_near v hv)
    (by rw [List.length_map]; exact hlen)
    (by
      rw [List.length_map]
      have h1 : (steps.length : ℝ) ≤ 2 ^ 32 := by exact_mod_cast hlen
      have h2 : (steps.length + 2 : ℝ) ≤ 2 ^ 33 := by linarith [show (2 : ℝ) ^ 33 = 2 ^ 32 + 2 ^ 32 by norm_num, show (2 : ℝ) ≤ 2 ^ 32 by norm_num]
      refine (mul_le_mul_of_nonneg_right h2 (by positivity)).trans ?_
      norm_num)
    (by
      intro l hl hne
      obtain ⟨k, hk, rfl⟩ : ∃ k, k <+: steps ∧ l = k.map fun s => (s.1, inDegrees s.2, degree s.2) := by
        rw [List.prefix_iff_eq_take, ← List.map_take] at hl
        exact ⟨_, List.take_prefix _ _, hl⟩
      rw [List.map_map]
      exact hm k hk (by rintro rfl; exact hne rfl))
  rw [List.map_map, List.map_map, List.length_map] at this
  exact this

/-- **C131.** The obliquity of the date used for the conversion of ecliptic coordinates in radians, for every date `boost::gregorian` has: the direction is
off by at most 2^-23 + 2^-49 rad unless the latitude is NaN, away from the poles by 2^-45 + 2^-49 rad. -/
theorem C131_obliquity {T : Trig} {I : InverseTrig} (hT : Accurate T) (hI : AccurateInverse I) (hP : PassesNaN T) {ext : ℚ → ℚ} (h : AtLeastDouble ext)
    (jd : ℤ) (h1 : 2232400 ≤ jd) (h2 : jd ≤ 5373484) (u v : ℚ) (du : IsDouble u) (dv : IsDouble v) (c : Conversion) :
    (∀ p, Conversion.chain T I [(c, ⟨.num 1, Obliquity.radians ext jd⟩)] ⟨.num 1, .num u⟩ ⟨.num 1, .num v⟩ = p → p.2 ≠ .nan → ∃ u' v' : ℚ, p = (.num u', .num v') ∧
      chord (Coord.columnVector u' v') (exactMatrix c (Coord.obliquity jd) *ᵥ Coord.columnVector u v) ≤ 2 ^ (-23 : ℤ) + 2 ^ (-49 : ℤ)) ∧
    (|(exactMatrix c (Coord.obliquity jd) *ᵥ Coord.columnVector u v) 2| ≤ 3 / 4 → ∃ u' v' : ℚ,
      Conversion.chain T I [(c, ⟨.num 1, Obliquity.radians ext jd⟩)] ⟨.num 1, .num u⟩ ⟨.num 1, .num v⟩ = (.num u', .num v') ∧
      chord (Coord.columnVector u' v') (exactMatrix c (Coord.obliquity jd) *ᵥ Coord.columnVector u v) ≤ 2 ^ (-45 : ℤ) + 2 ^ (-49 : ℤ)) := by
  have near : ∀ x : ℚ, IsDouble x → Near (DAngle.radians ⟨.num 1, .num x⟩) x (2 ^ (-51 : ℤ)) := fun x hx =>
    ⟨x, (C126_radian hx).1, hx, by rw [sub_self, abs_zero]; positivity⟩
  have hob : Near (DAngle.radians ⟨.num 1, Obliquity.radians ext jd⟩) (Coord.obliquity jd) (2 ^ (-51 : ℤ)) := by
    obtain ⟨q, hq, dq, eq⟩ := C116_radians h jd h1 h2
    refine ⟨q, ?_, dq, eq⟩
    rw [hq]
    exact (C126_radian dq).1
  have hs : ∀ s ∈ [(c, (⟨.num 1, Obliquity.radians ext jd⟩ : DAngle), Coord.obliquity jd)], Near s.2.1.radians s.2.2 (2 ^ (-51 : ℤ)) := by
    intro s hs
    rw [List.mem_singleton.1 hs]
    exact hob
  constructor
  · intro p hp hn
    obtain ⟨u', v', e1, e2⟩ := C131_chain hT hI hP _ hs _ _ u v (near u du) (near v dv) p hp hn
    refine ⟨u', v', e1, e2.trans ?_⟩
    rw [List.length_singleton]
    norm_num
  · intro hm
    obtain ⟨u', v', e1, e2⟩ := C131_moderate hT hI _ hs ⟨.num 1, .num u⟩ ⟨.num 1, .num v⟩ u v (near u du) (near v dv) (by norm_num)
      (by rw [List.length_singleton]; norm_num) (by
        intro l hl hne
        have : l = [(c, (⟨.num 1, Obliquity.radians ext jd⟩ : DAngle), Coord.obliquity jd)] := by
          obtain ⟨t, ht⟩ := hl
          match l, hne, ht with
          | [a], _, ht => simp at ht; simp [ht.1]
          | a :: b :: d, _, ht => simp at ht
        rw [this]
        exact hm)
    refine ⟨u', v', e1, e2.trans ?_⟩
    rw [List.length_singleton]
    norm_num

/-- The hypotheses can be met: a star at hour angle 90°, declination 0°, seen from latitude 30°, stands where the western horizon is, and the computed
direction differs by less than 2^-38. -/
example : ∃ (T : Trig) (I : InverseTrig), Accurate T ∧ AccurateInverse I ∧ ∃ u' v' : ℚ,
    Conversion.chain T I [(.horizon, inDegrees 30)] (inDegrees 90) (inDegrees 0) = (.num u', .num v') ∧
      chord (Coord.columnVector u' v') ![0, -1, 0] ≤ 2 ^ (-38 : ℤ) := by
  obtain ⟨T, hB⟩ := best_exists
  obtain ⟨I, hI⟩ := inverse_exists
  have hT := best_accurate hB
  have e90 : degree 90 = Real.pi / 2 := by unfold degree; push_cast; ring
  have e0 : degree 0 = 0 := by unfold degree; simp
  have west : turned [(Conversion.horizon, degree 30)] (Coord.columnVector (degree 90) (degree 0)) = ![0, -1, 0] := by
    rw [e90, e0]
    ext i
    fin_cases i <;> simp [turned, exactMatrix, Coord.haDecHorizon, Coord.columnVector]
  refine ⟨T, I, hT, hI, ?_⟩
  obtain ⟨u', v', e1, e2⟩ := C131_degrees_moderate hT hI [(.horizon, 30)] (by simp; norm_num [abs_le]) (by norm_num) 90 0 (by norm_num [abs_le]) (by norm_num) (by
    intro l hl hne
    have : l = [(Conversion.horizon, (30 : ℚ))] := by
      obtain ⟨t, ht⟩ := hl
      match l, hne, ht with
      | [a], _, ht => simp at ht; simp [ht.1]
      | a :: b :: d, _, ht => simp at ht
    rw [this, List.map_cons, List.map_nil, west]
    show |(0 : ℝ)| ≤ 3 / 4
    norm_num)
  refine ⟨u', v', e1, ?_⟩
  rw [List.map_cons, List.map_nil, west] at e2
  refine e2.trans ?_
  norm_num

end Astro
