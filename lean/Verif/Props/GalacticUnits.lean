import Verif.Lemmas.GalacticUnits
import Verif.Props.GalacticChain
import Verif.Props.UnitChain

/-
C145: conversions in degrees, the galactic ones included, in doubles.
-/

set_option exponentiation.threshold 3000

namespace Astro

open Spec Time Matrix

attribute [local irreducible] FloatFmt.nearest FloatFmt.value Dbl.round

/-- **C145.** If every angle is stored within `e` of what it should be, conversions one after the other give a direction that is off by at most 2^-23 rad
for each of them, 1/2000 rad more for each galactic one and `e` for each angle, times 1.0000001 for each galactic one, unless the latitude is NaN. -/
theorem C145_chain {T : Trig} {I : InverseTrig} (hT : Accurate T) (hI : AccurateInverse I) (hP : PassesNaN T) {e : ℝ}
    (steps : List (Step (DAngle × ℝ))) (hs : AnglesNear e steps) (u v : DAngle) (α β : ℝ) (hu : Near u.radians α e)
    (hv : Near v.radians β e) (p : Dbl × Dbl) (hp : Step.chain T I (steps.map (Step.map Prod.fst)) u v = p) (hn : p.2 ≠ .nan) :
    ∃ u' v' : ℚ, p = (.num u', .num v') ∧
      chord (Coord.columnVector u' v') (travelled (steps.map (Step.map Prod.snd)) (Coord.columnVector α β)) ≤
        (1 + 1 / 10 ^ 7) ^ galacticSteps steps * (steps.length * 2 ^ (-23 : ℤ) + galacticSteps steps / 2000 + (steps.length + 2) * e) := by
  obtain ⟨l, hf⟩ := legs_list T steps hs
  have hl := legs_computed hf
  have hg := legs_galactic hf
  obtain ⟨x, hx, dx, ex⟩ := hu
  obtain ⟨y, hy, dy, ey⟩ := hv
  have e0 : 0 ≤ e := (abs_nonneg _).trans ex
  have hlen : l.length = steps.length := hf.length_eq
  have hp' : DMat.chain T I (l.map (·.computed)) (.num x, .num y) = p := by
    rw [hl, ← hx, ← hy, ← hp]
    unfold Step.chain
    rw [List.map_map]
    rfl
  obtain ⟨u', v', e1, -, -, e2⟩ := C143_chain hT hI hP l x y dx dy p hp' hn
  refine ⟨u', v', e1, ?_⟩
  have h1 := legs_chord e0 hf (Coord.columnVector x y) (Coord.columnVector α β)
  have h2 := column_close x y α β
  have h3 := chord_triangle (Coord.columnVector u' v') (followed l (Coord.columnVector x y)) (travelled (steps.map (Step.map Prod.snd)) (Coord.columnVector α β))
  rw [hlen, hg] at e2
  rw [column_size, mul_one] at h1
  have hp0 : (0 : ℝ) ≤ (1 + 1 / 10 ^ 7) ^ galacticSteps steps := by positivity
  have h4 := mul_le_mul_of_nonneg_left (add_le_add_left (h2.trans (add_le_add ex ey)) (steps.length * e)) hp0
  linarith

/-- **C145.** If moreover all exact directions on the way keep a latitude of at most 48°, the latitude is not NaN, each conversion costs 2^-45 rad only and
each galactic one 2·10^-7 rad (0.04 arc seconds) more. -/
theorem C145_moderate {T : Trig} {I : InverseTrig} (hT : Accurate T) (hI : AccurateInverse I) {e : ℝ}
    (steps : List (Step (DAngle × ℝ))) (hs : AnglesNear e steps) (u v : DAngle) (α β : ℝ) (hu : Near u.radians α e)
    (hv : Near v.radians β e) (hlen : steps.length ≤ 2 ^ 32) (hgal : galacticSteps steps ≤ 10 ^ 4) (he : (steps.length + 2) * e ≤ 1 / 25)
    (hm : ∀ l, l <+: steps → l ≠ [] → |travelled (l.map (Step.map Prod.snd)) (Coord.columnVector α β) 2| ≤ 3 / 4) :
    ∃ u' v' : ℚ, Step.chain T I (steps.map (Step.map Prod.fst)) u v = (.num u', .num v') ∧
      chord (Coord.columnVector u' v') (travelled (steps.map (Step.map Prod.snd)) (Coord.columnVector α β)) ≤
        (1 + 1 / 10 ^ 7) ^ galacticSteps steps * (steps.length * 2 ^ (-45 : ℤ) + galacticSteps steps * (2 / 10 ^ 7) + (steps.length + 2) * e) := by
  obtain ⟨l, hf⟩ := legs_list T steps hs
  have hl := legs_computed hf
  have hg := legs_galactic hf
  obtain ⟨x, hx, dx, ex⟩ := hu
  obtain ⟨y, hy, dy, ey⟩ := hv
  have e0 : 0 ≤ e := (abs_nonneg _).trans ex
  have hlen' : l.length = steps.length := hf.length_eq
  have h2 := (column_close x y α β).trans (add_le_add ex ey)
  have hchain : DMat.chain T I (l.map (·.computed)) (.num x, .num y) = Step.chain T I (steps.map (Step.map Prod.fst)) u v := by
    rw [hl, ← hx, ← hy]
    unfold Step.chain
    rw [List.map_map]
    rfl
  obtain ⟨u', v', e1, -, -, e2⟩ := C143_moderate hT hI l x y dx dy (by omega) (by omega) (by
    intro k hk hne
    have hk' := List.prefix_iff_eq_take.1 hk
    have hf' : List.Forall₂ (LegAs e) k (steps.take k.length) := by
      have := List.forall₂_take k.length hf
      rwa [← hk'] at this
    have hne' : steps.take k.length ≠ [] := by
      intro h
      rw [h] at hf'
      exact hne (List.forall₂_nil_right_iff.1 hf')
    have b := hm _ (List.take_prefix _ _) hne'
    have c := legs_chord e0 hf' (Coord.columnVector x y) (Coord.columnVector α β)
    have d := third_le_chord (followed k (Coord.columnVector x y)) (travelled ((steps.take k.length).map (Step.map Prod.snd)) (Coord.columnVector α β))
    have f := abs_sub_abs_le_abs_sub (followed k (Coord.columnVector x y) 2) (travelled ((steps.take k.length).map (Step.map Prod.snd)) (Coord.columnVector α β) 2)
    have g : ((steps.take k.length).length : ℝ) * e ≤ steps.length * e :=
      mul_le_mul_of_nonneg_right (by exact_mod_cast (List.length_take_le' _ _)) e0
    have gk : galacticSteps (steps.take k.length) ≤ 10 ^ 4 := le_trans (List.Sublist.countP_le (List.take_sublist _ _)) hgal
    rw [column_size, mul_one] at c
    have m := mul_le_mul (galactic_pow gk) (show chord (Coord.columnVector x y) (Coord.columnVector α β) + (steps.take k.length).length * e ≤ 1 / 25 by linarith)
      (add_nonneg (chord_nonneg _ _) (by positivity)) (by norm_num)
    have m' := (c.trans m).trans (show (11 / 10 * (1 / 25) : ℝ) ≤ 1 / 20 by norm_num)
    linarith)
  refine ⟨u', v', hchain ▸ e1, ?_⟩
  have h1 := legs_chord e0 hf (Coord.columnVector x y) (Coord.columnVector α β)
  have h3 := chord_triangle (Coord.columnVector u' v') (followed l (Coord.columnVector x y)) (travelled (steps.map (Step.map Prod.snd)) (Coord.columnVector α β))
  rw [hlen', hg] at e2
  rw [column_size, mul_one] at h1
  have hp0 : (0 : ℝ) ≤ (1 + 1 / 10 ^ 7) ^ galacticSteps steps := by positivity
  have h4 := mul_le_mul_of_nonneg_left (add_le_add_left h2 (steps.length * e)) hp0
  linarith

theorem steps_mapped {α β γ : Type} (f : α → β) (g : β → γ) (l : List (Step α)) : (l.map (Step.map f)).map (Step.map g) = l.map (Step.map (g ∘ f)) := by
  rw [List.map_map]
  congr 1
  funext s
  cases s <;> rfl

theorem galactic_mapped {α β : Type} (f : α → β) (l : List (Step α)) : galacticSteps (l.map (Step.map f)) = galacticSteps l := by
  unfold galacticSteps
  rw [List.countP_map]
  congr 1
  funext s
  cases s <;> rfl

theorem degrees_angles {l : List (Step ℚ)} (h : FullTurn l) : AnglesNear (2 ^ (-40 : ℤ)) (l.map (Step.map fun x => (inDegrees x, degree x))) := by
  intro c a ha
  obtain ⟨s, hs, e⟩ := List.mem_map.1 ha
  cases s with
  | toGalactic => cases e
  | fromGalactic => cases e
  | turn c' x =>
    cases e
    exact degrees_near _ (h _ _ hs)

/-- **C145.** Conversions with all angles in degrees, up to a full turn each. -/
theorem C145_degrees {T : Trig} {I : InverseTrig} (hT : Accurate T) (hI : AccurateInverse I) (hP : PassesNaN T) (steps : List (Step ℚ)) (hs : FullTurn steps)
    (u v : ℚ) (hu : |u| ≤ 360) (hv : |v| ≤ 360) (p : Dbl × Dbl) (hp : Step.chain T I (steps.map (Step.map inDegrees)) (inDegrees u) (inDegrees v) = p)
    (hn : p.2 ≠ .nan) :
    ∃ u' v' : ℚ, p = (.num u', .num v') ∧
      chord (Coord.columnVector u' v') (travelled (steps.map (Step.map degree)) (Coord.columnVector (degree u) (degree v))) ≤
        (1 + 1 / 10 ^ 7) ^ galacticSteps steps * (steps.length * 2 ^ (-23 : ℤ) + galacticSteps steps / 2000 + (steps.length + 2) * 2 ^ (-40 : ℤ)) := by
  have := C145_chain hT hI hP (steps.map (Step.map fun x => (inDegrees x, degree x))) (degrees_angles hs) (inDegrees u) (inDegrees v) (degree u) (degree v)
    (degrees_near u hu) (degrees_near v hv) p (by rw [steps_mapped]; exact hp) hn
  rw [steps_mapped, galactic_mapped, List.length_map] at this
  exact this

/-- **C145.** The same away from the poles. -/
theorem C145_degrees_moderate {T : Trig} {I : InverseTrig} (hT : Accurate T) (hI : AccurateInverse I) (steps : List (Step ℚ)) (hs : FullTurn steps)
    (hlen : steps.length ≤ 2 ^ 32) (hgal : galacticSteps steps ≤ 10 ^ 4) (u v : ℚ) (hu : |u| ≤ 360) (hv : |v| ≤ 360)
    (hm : ∀ l, l <+: steps → l ≠ [] → |travelled (l.map (Step.map degree)) (Coord.columnVector (degree u) (degree v)) 2| ≤ 3 / 4) :
    ∃ u' v' : ℚ, Step.chain T I (steps.map (Step.map inDegrees)) (inDegrees u) (inDegrees v) = (.num u', .num v') ∧
      chord (Coord.columnVector u' v') (travelled (steps.map (Step.map degree)) (Coord.columnVector (degree u) (degree v))) ≤
        (1 + 1 / 10 ^ 7) ^ galacticSteps steps * (steps.length * 2 ^ (-45 : ℤ) + galacticSteps steps * (2 / 10 ^ 7) + (steps.length + 2) * 2 ^ (-40 : ℤ)) := by
  have := C145_moderate hT hI (steps.map (Step.map fun x => (inDegrees x, degree x))) (degrees_angles hs) (inDegrees u) (inDegrees v) (degree u) (degree v)
    (degrees_near u hu) (degrees_near v hv) (by rw [List.length_map]; exact hlen) (by rw [galactic_mapped]; exact hgal)
    (by
      rw [List.length_map]
      have h1 : (steps.length : ℝ) ≤ 2 ^ 32 := by exact_mod_cast hlen
      have h2 : (steps.length + 2 : ℝ) ≤ 2 ^ 33 := by linarith [show (2 : ℝ) ^ 33 = 2 ^ 32 + 2 ^ 32 by norm_num, show (2 : ℝ) ≤ 2 ^ 32 by norm_num]
      refine (mul_le_mul_of_nonneg_right h2 (by positivity)).trans ?_
      norm_num)
    (by
      intro l hl hne
      obtain ⟨k, hk, rfl⟩ : ∃ k, k <+: steps ∧ l = k.map (Step.map fun x => (inDegrees x, degree x)) := by
        rw [List.prefix_iff_eq_take, ← List.map_take] at hl
        exact ⟨_, List.take_prefix _ _, hl⟩
      rw [steps_mapped]
      exact hm k hk (by rintro rfl; exact hne rfl))
  rw [steps_mapped, steps_mapped, galactic_mapped, List.length_map] at this
  exact this

/-- The hypotheses can be met: ecliptic longitude 90°, latitude 0° (where the sun stands in June) to right ascension and declination with an obliquity of
23.5°, and from there to galactic coordinates: 0.05 arc seconds. -/
example : ∃ (T : Trig) (I : InverseTrig), Accurate T ∧ AccurateInverse I ∧ ∃ u' v' : ℚ,
    Step.chain T I [.turn .fromEcliptic (inDegrees (47 / 2)), .toGalactic] (inDegrees 90) (inDegrees 0) = (.num u', .num v') ∧
      chord (Coord.columnVector u' v') (Coord.raDecToGalactic *ᵥ ![0, Real.cos (degree (47 / 2)), Real.sin (degree (47 / 2))]) ≤ 21 / 10 ^ 8 := by
  obtain ⟨T, hB⟩ := best_exists
  obtain ⟨I, hI⟩ := inverse_exists
  have hT := best_accurate hB
  have e90 : degree 90 = Real.pi / 2 := by unfold degree; push_cast; ring
  have e0 : degree 0 = 0 := by unfold degree; simp
  have june : exactMatrix .fromEcliptic (degree (47 / 2)) *ᵥ Coord.columnVector (degree 90) (degree 0) =
      ![0, Real.cos (degree (47 / 2)), Real.sin (degree (47 / 2))] := by
    rw [e90, e0]
    ext i
    fin_cases i <;> simp [exactMatrix, Coord.eclipticToRaDec, Coord.columnVector, mulVec, dotProduct, Fin.sum_univ_three]
  have s0 : 0 ≤ degree (47 / 2) := by unfold degree; have := Real.pi_pos; positivity
  have s1 : degree (47 / 2) ≤ 1 / 2 := by unfold degree; have := Real.pi_lt_d2; push_cast; linarith
  have b1 := (Real.sin_le s0).trans s1
  have b2 := Real.sin_nonneg_of_nonneg_of_le_pi s0 (by linarith [Real.pi_gt_three])
  have b3 := Real.cos_le_one (degree (47 / 2))
  have b4 := Real.cos_nonneg_of_mem_Icc (x := degree (47 / 2)) ⟨by linarith [Real.pi_gt_three], by linarith [Real.pi_gt_three]⟩
  refine ⟨T, I, hT, hI, ?_⟩
  obtain ⟨u', v', e1, e2⟩ := C145_degrees_moderate hT hI [.turn .fromEcliptic (47 / 2), .toGalactic] (by
    intro c x hx
    simp only [List.mem_cons, List.not_mem_nil, or_false, reduceCtorEq, Step.turn.injEq] at hx
    rw [hx.2]
    norm_num [abs_le]) (by norm_num) (by show 1 ≤ 10 ^ 4; norm_num) 90 0 (by norm_num [abs_le]) (by norm_num) (by
    intro l hl hne
    have : l = [.turn .fromEcliptic (47 / 2)] ∨ l = [.turn .fromEcliptic (47 / 2), .toGalactic] := by
      obtain ⟨t, ht⟩ := hl
      match l, hne, ht with
      | [a], _, ht => simp at ht; simp [ht.1]
      | [a, b], _, ht => simp at ht; simp [ht.1, ht.2.1]
      | a :: b :: c :: d, _, ht => simp at ht
    rcases this with rfl | rfl
    · show |(exactMatrix .fromEcliptic (degree (47 / 2)) *ᵥ Coord.columnVector (degree 90) (degree 0)) 2| ≤ _
      rw [june]
      show |Real.sin (degree (47 / 2))| ≤ 3 / 4
      rw [abs_of_nonneg b2]
      linarith
    · show |(Coord.raDecToGalactic *ᵥ (exactMatrix .fromEcliptic (degree (47 / 2)) *ᵥ Coord.columnVector (degree 90) (degree 0))) 2| ≤ _
      rw [june]
      have : (Coord.raDecToGalactic *ᵥ ![0, Real.cos (degree (47 / 2)), Real.sin (degree (47 / 2))]) 2 =
          -0.8676008 * 0 + -0.1883746 * Real.cos (degree (47 / 2)) + 0.4601998 * Real.sin (degree (47 / 2)) := by
        simp only [Coord.raDecToGalactic, mulVec, dotProduct, Fin.sum_univ_three]
        rfl
      rw [this, abs_le]
      norm_num at *
      constructor <;> linarith)
  refine ⟨u', v', e1, ?_⟩
  have e3 : travelled ([.turn .fromEcliptic (47 / 2), .toGalactic].map (Step.map degree)) (Coord.columnVector (degree 90) (degree 0)) =
      Coord.raDecToGalactic *ᵥ ![0, Real.cos (degree (47 / 2)), Real.sin (degree (47 / 2))] := by
    rw [← june]
    rfl
  rw [e3] at e2
  refine e2.trans ?_
  show (1 + 1 / 10 ^ 7) ^ 1 * (((2 : ℕ) : ℝ) * 2 ^ (-45 : ℤ) + ((1 : ℕ) : ℝ) * (2 / 10 ^ 7) + (((2 : ℕ) : ℝ) + 2) * 2 ^ (-40 : ℤ)) ≤ (21 / 10 ^ 8 : ℝ)
  norm_num

end Astro
