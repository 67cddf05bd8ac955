import Verif.Lemmas.GalacticChain
import Verif.Props.ChainDouble

/-
C143: chains of conversions that go through galactic coordinates, in doubles.
-/

set_option exponentiation.threshold 3000

namespace Astro

open Spec Time Matrix

attribute [local irreducible] FloatFmt.nearest FloatFmt.value Dbl.round

/-- **C143.** After any number of conversions, of which `galacticLegs steps` use a galactic matrix, the direction is off by at most 2^-23 rad for each of them
and 1/2000 rad (1.8 arc minutes) more for each galactic one, unless the latitude is NaN. -/
theorem C143_chain {T : Trig} {I : InverseTrig} (hT : Accurate T) (hI : AccurateInverse I) (hP : PassesNaN T) (steps : List (Leg T)) (u v : ℚ)
    (hu : IsDouble u) (hv : IsDouble v) (p : Dbl × Dbl) (hp : DMat.chain T I (steps.map (·.computed)) (.num u, .num v) = p) (hn : p.2 ≠ .nan) :
    ∃ u' v' : ℚ, p = (.num u', .num v') ∧ IsDouble u' ∧ IsDouble v' ∧
      chord (Coord.columnVector u' v') (followed steps (Coord.columnVector u v)) ≤
        (1 + 1 / 10 ^ 7) ^ galacticLegs steps * (steps.length * 2 ^ (-23 : ℤ) + galacticLegs steps / 2000) := by
  induction steps generalizing u v with
  | nil => exact ⟨u, v, hp.symm, hu, hv, by simp [followed, chord_self, galacticLegs]⟩
  | cons g l ih =>
    have hp' : DMat.chain T I (l.map (·.computed)) (g.computed.convert T I (.num u, .num v)) = p := hp
    have h2 : (g.computed.convert T I (.num u, .num v)).2 ≠ .nan := by
      intro h
      have e : g.computed.convert T I (.num u, .num v) = ((g.computed.convert T I (.num u, .num v)).1, .nan) := Prod.ext rfl h
      rw [e] at hp'
      exact hn (hp' ▸ chain_nan I hP _ _)
    obtain ⟨u₁, v₁, q, h1, d1, d2, hq, eq, hc⟩ := leg_step hT hI g hu hv h2
    have one : chord (Coord.columnVector u₁ v₁) (g.exact *ᵥ Coord.columnVector u v) ≤ 2 ^ (-23 : ℤ) + (if g.galactic then 1 / 2000 else 0) :=
      leg_cost g hq eq hc
    rw [h1] at hp'
    obtain ⟨u', v', e, du, dv, hc'⟩ := ih u₁ v₁ d1 d2 hp'
    refine ⟨u', v', e, du, dv, ?_⟩
    have tri := chord_triangle (Coord.columnVector u' v') (followed l (Coord.columnVector u₁ v₁)) (followed l (g.exact *ᵥ Coord.columnVector u v))
    have far := chord_followed l (Coord.columnVector u₁ v₁) (g.exact *ᵥ Coord.columnVector u v)
    have hr : followed (g :: l) (Coord.columnVector u v) = followed l (g.exact *ᵥ Coord.columnVector u v) := rfl
    rw [hr, List.length_cons]
    have hk : galacticLegs (g :: l) = galacticLegs l + if g.galactic then 1 else 0 := List.countP_cons
    rw [hk]
    have mono : ((1 : ℝ) + 1 / 10 ^ 7) ^ galacticLegs l ≤ (1 + 1 / 10 ^ 7) ^ (galacticLegs l + if g.galactic then 1 else 0) :=
      pow_le_pow_right₀ (by norm_num) (by omega)
    refine (tri.trans (add_le_add hc' (far.trans (mul_le_mul_of_nonneg_left one (by positivity))))).trans ?_
    rw [← mul_add]
    refine (mul_le_mul_of_nonneg_right mono (by split <;> positivity)).trans (mul_le_mul_of_nonneg_left (le_of_eq ?_) (by positivity))
    push_cast
    split <;> ring

/-- **C143.** Galactic conversions give a latitude for every direction, however many of them follow each other. -/
theorem C143_defined {T : Trig} {I : InverseTrig} (hT : Accurate T) (hI : AccurateInverse I) (steps : List (Leg T)) (hg : ∀ g ∈ steps, g.galactic = true)
    (u v : ℚ) (hu : IsDouble u) (hv : IsDouble v) : (DMat.chain T I (steps.map (·.computed)) (.num u, .num v)).2 ≠ .nan := by
  induction steps generalizing u v with
  | nil => exact Dbl.noConfusion
  | cons g l ih =>
    have hl : (g.computed.prod (DVec.column T (.num u) (.num v))).latitude ≠ none := by
      have h := hg g List.mem_cons_self
      cases g with
      | turn r => exact absurd h Bool.false_ne_true
      | toGalactic => exact (C113_galactic hT hu hv).2
      | fromGalactic => exact (C113_galactic hT hu hv).1
    obtain ⟨a, da, same⟩ := leg_same g
    obtain ⟨-, -, ⟨q, hq, dq, -⟩⟩ := C112_error hT da hu hv same
    have h2 : (g.computed.convert T I (.num u, .num v)).2 ≠ .nan := by
      unfold DVec.latitude at hl
      unfold DMat.convert DVec.extract
      dsimp only
      rw [hq] at hl ⊢
      dsimp only at hl
      by_cases hin : -1 ≤ q ∧ q ≤ 1
      · obtain ⟨v', hv', -⟩ := hI.asin q dq (abs_le.2 hin)
        have ha : I.asinOf (.num q) = I.asin (.num q) := if_pos hin
        rw [ha, hv']
        exact Dbl.noConfusion
      · exact absurd (if_neg hin) hl
    obtain ⟨u₁, v₁, -, h1, d1, d2, -⟩ := leg_step hT hI g hu hv h2
    show (DMat.chain T I (l.map (·.computed)) (g.computed.convert T I (.num u, .num v))).2 ≠ .nan
    rw [h1]
    exact ih (fun g' h' => hg g' (List.mem_cons_of_mem _ h')) u₁ v₁ d1 d2

/-- **C143.** If all the exact directions on the way keep a latitude of at most 53°, each conversion costs at most 2^-45 rad, and each galactic one
2·10^-7 rad (0.04 arc seconds) more; the latitude is not NaN. -/
theorem C143_moderate {T : Trig} {I : InverseTrig} (hT : Accurate T) (hI : AccurateInverse I) (steps : List (Leg T)) (u v : ℚ)
    (hu : IsDouble u) (hv : IsDouble v) (hlen : steps.length ≤ 2 ^ 32) (hgal : galacticLegs steps ≤ 10 ^ 4)
    (hm : ∀ l, l <+: steps → l ≠ [] → |followed l (Coord.columnVector u v) 2| ≤ 4 / 5) :
    ∃ u' v' : ℚ, DMat.chain T I (steps.map (·.computed)) (.num u, .num v) = (.num u', .num v') ∧ IsDouble u' ∧ IsDouble v' ∧
      chord (Coord.columnVector u' v') (followed steps (Coord.columnVector u v)) ≤
        (1 + 1 / 10 ^ 7) ^ galacticLegs steps * (steps.length * 2 ^ (-45 : ℤ) + galacticLegs steps * (2 / 10 ^ 7)) := by
  induction steps using List.reverseRecOn with
  | nil => exact ⟨u, v, rfl, hu, hv, by simp [followed, chord_self, galacticLegs]⟩
  | append_singleton l g ih =>
    have hk : galacticLegs (l ++ [g]) = galacticLegs l + if g.galactic then 1 else 0 := by
      unfold galacticLegs
      rw [List.countP_append, List.countP_cons, List.countP_nil, zero_add]
    rw [List.length_append, List.length_singleton] at hlen ⊢
    rw [hk] at hgal ⊢
    obtain ⟨u₁, v₁, h1, d1, d2, hc⟩ := ih (by omega) (by omega) (fun k hk => hm k (hk.trans (List.prefix_append _ _)))
    have hr : followed (l ++ [g]) (Coord.columnVector u v) = g.exact *ᵥ followed l (Coord.columnVector u v) := by
      unfold followed
      rw [List.foldl_append]
      rfl
    have hstep : DMat.chain T I ((l ++ [g]).map (·.computed)) (.num u, .num v) = g.computed.convert T I (.num u₁, .num v₁) := by
      unfold DMat.chain at *
      rw [List.map_append, List.foldl_append, h1]
      rfl
    have hz := hm (l ++ [g]) (List.prefix_refl _) (by simp)
    have hpow : ((1 : ℝ) + 1 / 10 ^ 7) ^ galacticLegs l ≤ 2 := by
      refine (pow_le_pow_right₀ (by norm_num) (by omega : galacticLegs l ≤ 10 ^ 4)).trans ?_
      have : ((1 : ℝ) + 1 / 10 ^ 7) ^ 10 ^ 4 ≤ Real.exp (1 / 10 ^ 7) ^ 10 ^ 4 := by
        refine pow_le_pow_left₀ (by norm_num) ?_ _
        have := Real.add_one_le_exp ((1 : ℝ) / 10 ^ 7)
        linarith
      refine this.trans ?_
      rw [← Real.exp_nat_mul]
      have e1 : ((10 ^ 4 : ℕ) : ℝ) * (1 / 10 ^ 7) = 1 / 1000 := by norm_num
      rw [e1]
      have h3 := Real.one_sub_le_exp_neg (1 / 1000 : ℝ)
      have h4 : Real.exp (1 / 1000) * Real.exp (-(1 / 1000)) = 1 := by rw [← Real.exp_add, add_neg_cancel, Real.exp_zero]
      have h5 := mul_le_mul_of_nonneg_left h3 (Real.exp_pos (1 / 1000)).le
      rw [h4] at h5
      linarith
    have hsum : (l.length : ℝ) * 2 ^ (-45 : ℤ) + galacticLegs l * (2 / 10 ^ 7) ≤ 3 / 1000 := by
      have a1 : (l.length : ℝ) ≤ 2 ^ 32 := by exact_mod_cast (by omega : l.length ≤ 2 ^ 32)
      have a2 : (galacticLegs l : ℝ) ≤ 10 ^ 4 := by exact_mod_cast (by omega : galacticLegs l ≤ 10 ^ 4)
      refine (add_le_add (mul_le_mul_of_nonneg_right a1 (by positivity)) (mul_le_mul_of_nonneg_right a2 (by positivity))).trans ?_
      norm_num
    have hfar : chord (Coord.columnVector u₁ v₁) (followed l (Coord.columnVector u v)) ≤ 6 / 1000 := by
      refine hc.trans ((mul_le_mul hpow hsum (by positivity) (by norm_num)).trans (le_of_eq ?_))
      norm_num
    have hrot := chord_leg g (Coord.columnVector u₁ v₁) (followed l (Coord.columnVector u v))
    have hst : stretch g ≤ 1 + 1 / 10 ^ 7 := by
      unfold stretch
      split <;> norm_num
    have hst0 : 0 ≤ stretch g := by
      unfold stretch
      split <;> norm_num
    rw [hr] at hz ⊢
    have h81 : |(g.exact *ᵥ Coord.columnVector u₁ v₁) 2| ≤ 81 / 100 := by
      have h3 := third_le_chord (g.exact *ᵥ Coord.columnVector u₁ v₁) (g.exact *ᵥ followed l (Coord.columnVector u v))
      have h4 := abs_sub_abs_le_abs_sub ((g.exact *ᵥ Coord.columnVector u₁ v₁) 2) ((g.exact *ᵥ followed l (Coord.columnVector u v)) 2)
      have h5 := mul_le_mul hst hfar (chord_nonneg _ _) (by norm_num)
      norm_num at h5
      linarith
    obtain ⟨u', v', q, h2, d1', d2', hq, eq, hc'⟩ := leg_step hT hI g d1 d2 (leg_exists hT hI g d1 d2 (h81.trans (by norm_num)))
    refine ⟨u', v', hstep.trans h2, d1', d2', ?_⟩
    have one := leg_cost_moderate g hq eq h81 hc'
    have tri := chord_triangle (Coord.columnVector u' v') (g.exact *ᵥ Coord.columnVector u₁ v₁) (g.exact *ᵥ followed l (Coord.columnVector u v))
    have h6 := mul_le_mul_of_nonneg_left hc hst0
    have hpw : stretch g * ((1 : ℝ) + 1 / 10 ^ 7) ^ galacticLegs l = (1 + 1 / 10 ^ 7) ^ (galacticLegs l + if g.galactic then 1 else 0) := by
      unfold stretch
      split
      · ring
      · rw [add_zero, one_mul]
    rw [← mul_assoc, hpw] at h6
    have big : (1 : ℝ) ≤ (1 + 1 / 10 ^ 7) ^ (galacticLegs l + if g.galactic then 1 else 0) := one_le_pow₀ (by norm_num)
    have cost0 : (0 : ℝ) ≤ 2 ^ (-45 : ℤ) + (if g.galactic then 2 / 10 ^ 7 else 0) := by split <;> positivity
    have h7 := le_mul_of_one_le_left cost0 big
    refine (tri.trans (add_le_add (one.trans h7) (hrot.trans h6))).trans (le_of_eq ?_)
    rw [← mul_add]
    congr 1
    push_cast
    split <;> ring

/-- **C143.** To galactic coordinates and back, in doubles: the vernal equinox comes back, but at more than half a radian from where it was. -/
theorem C143_not_back {T : Trig} {I : InverseTrig} (hT : Accurate T) (hI : AccurateInverse I) :
    ∃ u' v' : ℚ, DMat.chain T I [DMat.raDecToGalactic, DMat.galacticToRaDec] (.num 0, .num 0) = (.num u', .num v') ∧
      1 / 2 < chord (Coord.columnVector u' v') (Coord.columnVector 0 0) := by
  have c0 : Coord.columnVector ((0 : ℚ) : ℝ) ((0 : ℚ) : ℝ) = ![1, 0, 0] := by
    ext i
    fin_cases i <;> simp [Coord.columnVector]
  have c0' : Coord.columnVector 0 0 = ![1, 0, 0] := by
    ext i
    fin_cases i <;> simp [Coord.columnVector]
  have m1 : (Leg.toGalactic : Leg T).exact = Coord.raDecToGalactic := rfl
  have m2 : (Leg.fromGalactic : Leg T).exact = Coord.galacticToRaDec := rfl
  have t1 : |((Leg.toGalactic : Leg T).exact *ᵥ Coord.columnVector ((0 : ℚ) : ℝ) ((0 : ℚ) : ℝ)) 2| ≤ 9 / 10 := by
    rw [c0, m1]
    simp [Coord.raDecToGalactic, mulVec, dotProduct, Fin.sum_univ_three, abs_le]
    norm_num
  obtain ⟨u₁, v₁, q₁, h1, d1, d2, hq₁, eq₁, hc₁⟩ := leg_step hT hI .toGalactic isDouble_zero isDouble_zero (leg_exists hT hI _ isDouble_zero isDouble_zero t1)
  have k₁ : _ ≤ (2 : ℝ) ^ (-23 : ℤ) + 1 / 2000 := leg_cost .toGalactic hq₁ eq₁ hc₁
  have far := chord_leg (.fromGalactic : Leg T) (Coord.columnVector u₁ v₁) ((Leg.toGalactic : Leg T).exact *ᵥ Coord.columnVector ((0 : ℚ) : ℝ) ((0 : ℚ) : ℝ))
  have hst : stretch (.fromGalactic : Leg T) = 1 + 1 / 10 ^ 7 := rfl
  have e23 : (2 : ℝ) ^ (-23 : ℤ) ≤ 1 / 10 ^ 6 := by norm_num
  have far' := far.trans (mul_le_mul_of_nonneg_left (k₁.trans (add_le_add_left e23 _)) (by rw [hst]; norm_num))
  rw [hst] at far'
  have hw : (Leg.fromGalactic : Leg T).exact *ᵥ ((Leg.toGalactic : Leg T).exact *ᵥ Coord.columnVector ((0 : ℚ) : ℝ) ((0 : ℚ) : ℝ)) =
      ![0.85403787859911, 0.45711063450613, -0.24833273083278] := by
    rw [c0, m1, m2]
    ext i
    fin_cases i <;> simp [Coord.raDecToGalactic, Coord.galacticToRaDec, mulVec, dotProduct, Fin.sum_univ_three] <;> norm_num
  rw [hw] at far'
  have t2 : |((Leg.fromGalactic : Leg T).exact *ᵥ Coord.columnVector u₁ v₁) 2| ≤ 9 / 10 := by
    have h3 := (third_le_chord _ _).trans far'
    have e : (![0.85403787859911, 0.45711063450613, -0.24833273083278] : Coord.Vec) 2 = -0.24833273083278 := rfl
    rw [e] at h3
    rw [abs_le] at h3 ⊢
    norm_num at h3 ⊢
    constructor <;> linarith
  obtain ⟨u', v', q₂, h2, d3, d4, hq₂, eq₂, hc₂⟩ := leg_step hT hI .fromGalactic d1 d2 (leg_exists hT hI _ d1 d2 t2)
  have k₂ : _ ≤ (2 : ℝ) ^ (-23 : ℤ) + 1 / 2000 := leg_cost .fromGalactic hq₂ eq₂ hc₂
  refine ⟨u', v', ?_, ?_⟩
  · unfold DMat.chain
    rw [List.foldl_cons, List.foldl_cons, List.foldl_nil]
    have h1' : DMat.raDecToGalactic.convert T I (.num 0, .num 0) = (.num u₁, .num v₁) := h1
    rw [h1']
    exact h2
  · have tri := chord_triangle (Coord.columnVector u' v') ((Leg.fromGalactic : Leg T).exact *ᵥ Coord.columnVector u₁ v₁)
      ![0.85403787859911, 0.45711063450613, -0.24833273083278]
    have tri' := chord_triangle ![0.85403787859911, 0.45711063450613, -0.24833273083278] (Coord.columnVector u' v') (Coord.columnVector 0 0)
    have hbig : 54 / 100 ≤ chord ![0.85403787859911, 0.45711063450613, -0.24833273083278] (Coord.columnVector 0 0) := by
      rw [c0']
      unfold chord
      apply Real.le_sqrt_of_sq_le
      simp only [Matrix.cons_val]
      norm_num
    have cc : chord ![0.85403787859911, 0.45711063450613, -0.24833273083278] (Coord.columnVector u' v') =
        chord (Coord.columnVector u' v') ![0.85403787859911, 0.45711063450613, -0.24833273083278] := by rw [chord_dist, dist_comm, ← chord_dist]
    rw [cc] at tri'
    have k₂' := k₂.trans (add_le_add_left e23 _)
    norm_num at far' k₂'
    linarith

/-- From ecliptic coordinates to the equator and on to galactic ones, with an obliquity of 1/2 rad: 0.04 arc seconds. -/
example : ∃ (T : Trig) (I : InverseTrig), Accurate T ∧ AccurateInverse I ∧ ∃ u' v' : ℚ,
    DMat.convert T I DMat.raDecToGalactic (DMat.convert T I (DMat.eclipticToRaDec T (.num (1 / 2))) (.num 1, .num 0)) = (.num u', .num v') ∧
      chord (Coord.columnVector u' v') (Coord.raDecToGalactic *ᵥ (Coord.eclipticToRaDec (1 / 2) *ᵥ Coord.columnVector 1 0)) ≤ 201 / 10 ^ 9 := by
  obtain ⟨T, hB⟩ := best_exists
  obtain ⟨I, hI⟩ := inverse_exists
  have hT : Accurate T := best_accurate hB
  have half : IsDouble (1 / 2) := ⟨1, -1, by norm_num, by norm_num, by norm_num, by norm_num⟩
  refine ⟨T, I, hT, hI, ?_⟩
  let r : Rotation T := ⟨1 / 2, DMat.eclipticToRaDec T (.num (1 / 2)), Coord.eclipticToRaDec ((1 / 2 : ℚ) : ℝ), half, .fromEcliptic, ⟨_, .inr (.inr (.inl rfl))⟩⟩
  have e1 : (Leg.turn r).exact *ᵥ Coord.columnVector ((1 : ℚ) : ℝ) ((0 : ℚ) : ℝ) =
      ![Real.cos 1, Real.sin 1 * Real.cos (1 / 2), Real.sin 1 * Real.sin (1 / 2)] := by
    show Coord.eclipticToRaDec ((1 / 2 : ℚ) : ℝ) *ᵥ _ = _
    ext i
    fin_cases i <;> simp [Coord.eclipticToRaDec, Coord.columnVector, mulVec, dotProduct, Fin.sum_univ_three] <;> ring
  have b1 : 0 ≤ Real.cos 1 := Real.cos_one_pos.le
  have b2 : Real.cos 1 ≤ 2 / 3 := by have := Real.cos_one_le; linarith
  have b3 : 0 ≤ Real.sin 1 := Real.sin_nonneg_of_nonneg_of_le_pi (by norm_num) (by linarith [Real.pi_gt_three])
  have b4 := Real.sin_le_one 1
  have b5 : 0 ≤ Real.sin (1 / 2) := Real.sin_nonneg_of_nonneg_of_le_pi (by norm_num) (by linarith [Real.pi_gt_three])
  have b6 : Real.sin (1 / 2) ≤ 1 / 2 := Real.sin_le (by norm_num)
  have b7 : 0 ≤ Real.cos (1 / 2) := Real.cos_nonneg_of_mem_Icc ⟨by linarith [Real.pi_gt_three], by linarith [Real.pi_gt_three]⟩
  have b8 := Real.cos_le_one (1 / 2)
  have s1 : 0 ≤ Real.sin 1 * Real.sin (1 / 2) := mul_nonneg b3 b5
  have s2 : Real.sin 1 * Real.sin (1 / 2) ≤ 1 * (1 / 2) := mul_le_mul b4 b6 b5 zero_le_one
  have s3 : 0 ≤ Real.sin 1 * Real.cos (1 / 2) := mul_nonneg b3 b7
  have s4 : Real.sin 1 * Real.cos (1 / 2) ≤ 1 * 1 := mul_le_mul b4 b8 b7 zero_le_one
  have e2 : (Coord.raDecToGalactic *ᵥ ![Real.cos 1, Real.sin 1 * Real.cos (1 / 2), Real.sin 1 * Real.sin (1 / 2)]) 2 =
      -0.8676008 * Real.cos 1 + -0.1883746 * (Real.sin 1 * Real.cos (1 / 2)) + 0.4601998 * (Real.sin 1 * Real.sin (1 / 2)) := by
    simp only [Coord.raDecToGalactic, mulVec, dotProduct, Fin.sum_univ_three]
    rfl
  obtain ⟨u', v', h, -, -, hc⟩ := C143_moderate hT hI [.turn r, .toGalactic] 1 0 isDouble_one isDouble_zero (by norm_num) (by show 1 ≤ 10 ^ 4; norm_num) (by
    intro l hl hne
    have : l = [.turn r] ∨ l = [.turn r, .toGalactic] := by
      obtain ⟨t, ht⟩ := hl
      match l, hne, ht with
      | [a], _, ht => simp at ht; simp [ht.1]
      | [a, b], _, ht => simp at ht; simp [ht.1, ht.2.1]
      | a :: b :: c :: d, _, ht => simp at ht
    rcases this with rfl | rfl
    · show |((Leg.turn r).exact *ᵥ Coord.columnVector ((1 : ℚ) : ℝ) ((0 : ℚ) : ℝ)) 2| ≤ _
      rw [e1]
      show |Real.sin 1 * Real.sin (1 / 2)| ≤ _
      rw [abs_of_nonneg s1]
      linarith
    · show |(Coord.raDecToGalactic *ᵥ ((Leg.turn r).exact *ᵥ Coord.columnVector ((1 : ℚ) : ℝ) ((0 : ℚ) : ℝ))) 2| ≤ _
      rw [e1, e2, abs_le]
      norm_num
      constructor <;> linarith)
  refine ⟨u', v', h, ?_⟩
  have e3 : followed [.turn r, .toGalactic] (Coord.columnVector ((1 : ℚ) : ℝ) ((0 : ℚ) : ℝ)) =
      Coord.raDecToGalactic *ᵥ (Coord.eclipticToRaDec (1 / 2) *ᵥ Coord.columnVector 1 0) := by
    show Coord.raDecToGalactic *ᵥ (Coord.eclipticToRaDec ((1 / 2 : ℚ) : ℝ) *ᵥ Coord.columnVector ((1 : ℚ) : ℝ) ((0 : ℚ) : ℝ)) = _
    push_cast
    rfl
  rw [e3] at hc
  have e4 : galacticLegs [.turn r, .toGalactic] = 1 := rfl
  rw [e4] at hc
  refine hc.trans ?_
  norm_num

end Astro
