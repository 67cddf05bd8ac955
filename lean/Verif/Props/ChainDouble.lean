import Verif.Lemmas.ChainDouble

/-
C121: chains of conversions in doubles.
-/

set_option exponentiation.threshold 3000

namespace Astro

open Spec Time Matrix

attribute [local irreducible] FloatFmt.nearest FloatFmt.value Dbl.round

/-- **C121.** After any number of conversions one after the other the direction is off by at most 2^-23 rad (0.025 arc seconds) for each of them, unless the
latitude is NaN. -/
theorem C121_chain {T : Trig} {I : InverseTrig} (hT : Accurate T) (hI : AccurateInverse I) (hP : PassesNaN T) (steps : List (Rotation T)) (u v : ℚ)
    (hu : IsDouble u) (hv : IsDouble v) (p : Dbl × Dbl) (hp : DMat.chain T I (steps.map (·.computed)) (.num u, .num v) = p) (hn : p.2 ≠ .nan) :
    ∃ u' v' : ℚ, p = (.num u', .num v') ∧ IsDouble u' ∧ IsDouble v' ∧
      chord (Coord.columnVector u' v') (rotated steps (Coord.columnVector u v)) ≤ steps.length * 2 ^ (-23 : ℤ) := by
  induction steps generalizing u v with
  | nil => exact ⟨u, v, hp.symm, hu, hv, by simp [rotated, chord_self]⟩
  | cons r l ih =>
    have hp' : DMat.chain T I (l.map (·.computed)) (r.computed.convert T I (.num u, .num v)) = p := hp
    have h2 : (r.computed.convert T I (.num u, .num v)).2 ≠ .nan := by
      intro h
      have e : r.computed.convert T I (.num u, .num v) = ((r.computed.convert T I (.num u, .num v)).1, .nan) := Prod.ext rfl h
      rw [e] at hp'
      exact hn (hp' ▸ chain_nan I hP _ _)
    obtain ⟨u₁, v₁, q, h1, d1, d2, hq, eq, hc⟩ := convert_step hT hI r hu hv h2
    rw [h1] at hp'
    obtain ⟨u', v', e, du, dv, hc'⟩ := ih u₁ v₁ d1 d2 hp'
    refine ⟨u', v', e, du, dv, ?_⟩
    have tri := chord_triangle (Coord.columnVector u' v') (rotated l (Coord.columnVector u₁ v₁)) (rotated l (r.exact *ᵥ Coord.columnVector u v))
    rw [chord_rotated] at tri
    have hr : rotated (r :: l) (Coord.columnVector u v) = rotated l (r.exact *ᵥ Coord.columnVector u v) := rfl
    rw [hr]
    have hs := (root_spread hq (third_le r.same u v) eq).1
    have hs' : |√(1 - q * q) - √(1 - (r.exact *ᵥ Coord.columnVector u v) 2 * (r.exact *ᵥ Coord.columnVector u v) 2)| ≤ 2 ^ (-24 : ℤ) := by
      apply abs_le_of_sq_le_sq _ (by positivity)
      refine hs.trans (le_of_eq ?_)
      norm_num
    have e23 : (2 : ℝ) ^ (-24 : ℤ) + 6 * 2 ^ (-49 : ℤ) ≤ 2 ^ (-23 : ℤ) := by norm_num
    rw [List.length_cons]
    push_cast
    rw [add_mul, one_mul]
    linarith

/-- **C121.** If all the exact directions on the way keep a latitude of at most 53°, each conversion costs at most 2^-45 rad. -/
theorem C121_moderate {T : Trig} {I : InverseTrig} (hT : Accurate T) (hI : AccurateInverse I) (steps : List (Rotation T)) (u v : ℚ)
    (hu : IsDouble u) (hv : IsDouble v) (hlen : steps.length ≤ 2 ^ 32) (hm : ∀ l, l <+: steps → l ≠ [] → |rotated l (Coord.columnVector u v) 2| ≤ 4 / 5) :
    ∃ u' v' : ℚ, DMat.chain T I (steps.map (·.computed)) (.num u, .num v) = (.num u', .num v') ∧ IsDouble u' ∧ IsDouble v' ∧
      chord (Coord.columnVector u' v') (rotated steps (Coord.columnVector u v)) ≤ steps.length * 2 ^ (-45 : ℤ) := by
  induction steps using List.reverseRecOn with
  | nil => exact ⟨u, v, rfl, hu, hv, by simp [rotated, chord_self]⟩
  | append_singleton l r ih =>
    rw [List.length_append, List.length_singleton] at hlen ⊢
    obtain ⟨u₁, v₁, h1, d1, d2, hc⟩ := ih (by omega) (fun k hk => hm k (hk.trans (List.prefix_append _ _)))
    have hr : rotated (l ++ [r]) (Coord.columnVector u v) = r.exact *ᵥ rotated l (Coord.columnVector u v) := by
      unfold rotated
      rw [List.foldl_append]
      rfl
    have hstep : DMat.chain T I ((l ++ [r]).map (·.computed)) (.num u, .num v) = r.computed.convert T I (.num u₁, .num v₁) := by
      unfold DMat.chain at *
      rw [List.map_append, List.foldl_append, h1]
      rfl
    have hz := hm (l ++ [r]) (List.prefix_refl _) (by simp)
    have hfar : (l.length : ℝ) * 2 ^ (-45 : ℤ) ≤ 1 / 100 := by
      have : (l.length : ℝ) ≤ 2 ^ 32 := by exact_mod_cast (by omega : l.length ≤ 2 ^ 32)
      refine (mul_le_mul_of_nonneg_right this (by positivity)).trans ?_
      norm_num
    have hrot := chord_rotate r.rotates (Coord.columnVector u₁ v₁) (rotated l (Coord.columnVector u v))
    rw [hr] at hz ⊢
    have h81 : |(r.exact *ᵥ Coord.columnVector u₁ v₁) 2| ≤ 81 / 100 := by
      have h3 := third_le_chord (r.exact *ᵥ Coord.columnVector u₁ v₁) (r.exact *ᵥ rotated l (Coord.columnVector u v))
      have h4 := abs_sub_abs_le_abs_sub ((r.exact *ᵥ Coord.columnVector u₁ v₁) 2) ((r.exact *ᵥ rotated l (Coord.columnVector u v)) 2)
      generalize (2 : ℝ) ^ (-45 : ℤ) = ε at *
      linarith
    obtain ⟨u', v', q, h2, d1', d2', hq, eq, hc'⟩ := convert_step hT hI r d1 d2 (convert_exists hT hI r d1 d2 (h81.trans (by norm_num)))
    refine ⟨u', v', hstep.trans h2, d1', d2', ?_⟩
    have hs := (root_spread hq (third_le r.same u₁ v₁) eq).2
    have tri := chord_triangle (Coord.columnVector u' v') (r.exact *ᵥ Coord.columnVector u₁ v₁) (r.exact *ᵥ rotated l (Coord.columnVector u v))
    rw [hrot] at tri
    generalize (r.exact *ᵥ Coord.columnVector u₁ v₁) 2 = t at *
    have ht : 1 / 2 ≤ √(1 - t * t) := by
      apply Real.le_sqrt_of_sq_le
      have := mul_le_mul h81 h81 (abs_nonneg _) (by norm_num)
      rw [abs_mul_abs_self] at this
      linarith
    have hs' : |√(1 - q * q) - √(1 - t * t)| ≤ 4 * 2 ^ (-49 : ℤ) := by
      have := (mul_le_mul_of_nonneg_left ht (abs_nonneg (√(1 - (q : ℝ) * q) - √(1 - t * t)))).trans hs
      generalize (2 : ℝ) ^ (-49 : ℤ) = ε at *
      linarith
    have e45 : (2 : ℝ) ^ (-45 : ℤ) = 16 * 2 ^ (-49 : ℤ) := by norm_num
    push_cast
    rw [add_mul, one_mul]
    rw [e45] at hc ⊢
    have e49 : (0 : ℝ) < 2 ^ (-49 : ℤ) := by positivity
    generalize (2 : ℝ) ^ (-49 : ℤ) = ε at *
    linarith

theorem back_exact {T : Trig} {r s : Rotation T} (h : ThereAndBack r s) (z : Coord.Vec) : rotated [r, s] z = z := by
  cases h with
  | horizon a => exact C54_horizon a z
  | hourAngle a => exact C54_ra a z
  | fromEcliptic a => exact (C55_ecliptic a z).1
  | toEcliptic a => exact (C55_ecliptic a z).2

/-- **C121.** There and back again: the direction is within 2^-22 of where it was, unless the latitude is NaN. -/
theorem C121_round_trip {T : Trig} {I : InverseTrig} (hT : Accurate T) (hI : AccurateInverse I) (hP : PassesNaN T) {r s : Rotation T} (h : ThereAndBack r s)
    (u v : ℚ) (hu : IsDouble u) (hv : IsDouble v) (p : Dbl × Dbl) (hp : s.computed.convert T I (r.computed.convert T I (.num u, .num v)) = p)
    (hn : p.2 ≠ .nan) :
    ∃ u' v' : ℚ, p = (.num u', .num v') ∧ chord (Coord.columnVector u' v') (Coord.columnVector u v) ≤ 2 ^ (-22 : ℤ) := by
  obtain ⟨u', v', e, -, -, hc⟩ := C121_chain hT hI hP [r, s] u v hu hv p hp hn
  rw [back_exact h] at hc
  refine ⟨u', v', e, hc.trans (le_of_eq ?_)⟩
  norm_num

/-- **C121.** Away from the poles of both systems the direction is within 2^-44, and the latitude is not NaN. -/
theorem C121_round_trip_moderate {T : Trig} {I : InverseTrig} (hT : Accurate T) (hI : AccurateInverse I) {r s : Rotation T}
    (h : ThereAndBack r s) (u v : ℚ) (hu : IsDouble u) (hv : IsDouble v) (h1 : |Real.sin v| ≤ 4 / 5) (h2 : |(r.exact *ᵥ Coord.columnVector u v) 2| ≤ 4 / 5) :
    ∃ u' v' : ℚ, s.computed.convert T I (r.computed.convert T I (.num u, .num v)) = (.num u', .num v') ∧
      chord (Coord.columnVector u' v') (Coord.columnVector u v) ≤ 2 ^ (-44 : ℤ) := by
  obtain ⟨u', v', e, -, -, hc⟩ := C121_moderate hT hI [r, s] u v hu hv (by norm_num) (by
    intro l hl hne
    have : l = [r] ∨ l = [r, s] := by
      obtain ⟨t, ht⟩ := hl
      match l, hne, ht with
      | [a], _, ht => simp at ht; simp [ht.1]
      | [a, b], _, ht => simp at ht; simp [ht.1, ht.2.1]
      | a :: b :: c :: d, _, ht => simp at ht
    rcases this with rfl | rfl
    · exact h2
    · rw [back_exact h]
      exact h1)
  rw [back_exact h] at hc
  refine ⟨u', v', e, hc.trans (le_of_eq ?_)⟩
  norm_num

/-- **C121.** Once the latitude is NaN it stays NaN, whatever conversions follow. -/
theorem C121_nan {T : Trig} (I : InverseTrig) (hP : PassesNaN T) (steps : List DMat) (u : Dbl) : (DMat.chain T I steps (u, .nan)).2 = .nan :=
  chain_nan I hP steps u

/-- **C121.** What the distance means: twice the sine of half the angle between the two directions. -/
theorem C121_meaning (u v u' v' : ℝ) : chord (Coord.columnVector u v) (Coord.columnVector u' v') =
    2 * Real.sin (Real.arccos (Coord.columnVector u v ⬝ᵥ Coord.columnVector u' v') / 2) := by
  have h1 : (Coord.columnVector u v 0) ^ 2 + (Coord.columnVector u v 1) ^ 2 + (Coord.columnVector u v 2) ^ 2 = 1 := by
    simp [Coord.columnVector]
    nlinarith [Real.sin_sq_add_cos_sq u, Real.sin_sq_add_cos_sq v]
  have h2 : (Coord.columnVector u' v' 0) ^ 2 + (Coord.columnVector u' v' 1) ^ 2 + (Coord.columnVector u' v' 2) ^ 2 = 1 := by
    simp [Coord.columnVector]
    nlinarith [Real.sin_sq_add_cos_sq u', Real.sin_sq_add_cos_sq v']
  unfold chord
  generalize Coord.columnVector u v = a at *
  generalize Coord.columnVector u' v' = b at *
  have hd : a ⬝ᵥ b = a 0 * b 0 + a 1 * b 1 + a 2 * b 2 := by simp [dotProduct, Fin.sum_univ_three]
  have hl : -1 ≤ a ⬝ᵥ b := by rw [hd]; nlinarith [sq_nonneg (a 0 + b 0), sq_nonneg (a 1 + b 1), sq_nonneg (a 2 + b 2)]
  have hu : a ⬝ᵥ b ≤ 1 := by rw [hd]; nlinarith [sq_nonneg (a 0 - b 0), sq_nonneg (a 1 - b 1), sq_nonneg (a 2 - b 2)]
  have h0 := Real.arccos_nonneg (a ⬝ᵥ b)
  have hp := Real.arccos_le_pi (a ⬝ᵥ b)
  have hs : 0 ≤ Real.sin (Real.arccos (a ⬝ᵥ b) / 2) := Real.sin_nonneg_of_nonneg_of_le_pi (by linarith) (by linarith)
  rw [Real.sqrt_eq_iff_mul_self_eq (by positivity) (by positivity)]
  have hc : Real.cos (2 * (Real.arccos (a ⬝ᵥ b) / 2)) = a ⬝ᵥ b := by rw [mul_div_cancel₀ _ (two_ne_zero), Real.cos_arccos hl hu]
  rw [Real.cos_two_mul, Real.cos_sq'] at hc
  nlinarith

/-- The hypotheses can be met: a library as required exists, and from ecliptic longitude 1, latitude 0 to the equator and back nothing much is lost. -/
example : ∃ (T : Trig) (I : InverseTrig), Accurate T ∧ AccurateInverse I ∧ PassesNaN T ∧ ∃ u' v' : ℚ,
    DMat.convert T I (DMat.raDecToEcliptic T (.num (1 / 2))) (DMat.convert T I (DMat.eclipticToRaDec T (.num (1 / 2))) (.num 1, .num 0)) = (.num u', .num v') ∧
      chord (Coord.columnVector u' v') (Coord.columnVector 1 0) ≤ 2 ^ (-44 : ℤ) := by
  obtain ⟨B, hB⟩ := best_exists
  obtain ⟨I, hI⟩ := inverse_exists
  have hA := best_accurate hB
  let T : Trig := ⟨fun d => match d with | .num x => B.sin (.num x) | _ => .nan, fun d => match d with | .num x => B.cos (.num x) | _ => .nan⟩
  have hT : Accurate T := hA
  have hP : PassesNaN T := ⟨rfl, rfl⟩
  have half : IsDouble (1 / 2) := ⟨1, -1, by norm_num, by norm_num, by norm_num, by norm_num⟩
  refine ⟨T, I, hT, hI, hP, ?_⟩
  have := C121_round_trip_moderate hT hI
    (.fromEcliptic (1 / 2) half ⟨_, .inr (.inr (.inl rfl))⟩ ⟨_, .inr (.inr (.inr rfl))⟩) 1 0 isDouble_one isDouble_zero (by norm_num) (by
      have h1 : Real.sin (1 / 2) ≤ 1 / 2 := Real.sin_le (by norm_num)
      have h2 : 0 ≤ Real.sin (1 / 2) := Real.sin_nonneg_of_nonneg_of_le_pi (by norm_num) (by linarith [Real.pi_gt_three])
      have h3 := Real.abs_sin_le_one 1
      simp [Coord.eclipticToRaDec, Coord.columnVector, Matrix.mulVec, dotProduct, Fin.sum_univ_three]
      rw [one_div] at h1 h2
      rw [abs_of_nonneg h2]
      nlinarith [abs_nonneg (Real.sin 1)])
  simpa using this

end Astro
