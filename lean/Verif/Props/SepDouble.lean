import Verif.Lemmas.SepDouble
import Verif.Lemmas.Frame

/-
C119: angular separation in doubles.
-/

set_option exponentiation.threshold 3000

namespace Astro

open Spec Time

attribute [local irreducible] FloatFmt.nearest FloatFmt.value Dbl.round

/-- What the exact separation below is: the angle between two directions, of which the second angle is a latitude (equatorial) or a polar angle. -/
theorem C119_meaning (a b a' b' : ℝ) : Real.arccos (cosBetween .equatorial a b a' b') = angularDistance b a b' a' ∧
    Real.arccos (cosBetween .spherical a b a' b') = angularDistance (Real.pi / 2 - b) a (Real.pi / 2 - b') a' := by
  rw [angularDistance_eq, angularDistance_eq, Real.sin_pi_div_two_sub, Real.sin_pi_div_two_sub, Real.cos_pi_div_two_sub, Real.cos_pi_div_two_sub]
  unfold cosBetween
  exact ⟨congrArg _ (add_comm _ _), congrArg _ (add_comm _ _)⟩

/-- **C119.** The number given to the arc cosine is within 2^-48 of the cosine of the angle between the directions. -/
theorem C119_cosine {T : Trig} (hT : Accurate T) (s : Coord.System) (hs : s ≠ .cartesian) (a b r a' b' r' : ℚ) (da : IsDouble a) (db : IsDouble b)
    (da' : IsDouble a') (db' : IsDouble b') (h1 : 2 ^ (-400 : ℤ) ≤ |r|) (h2 : |r| ≤ 2 ^ (400 : ℤ)) (h1' : 2 ^ (-400 : ℤ) ≤ |r'|) (h2' : |r'| ≤ 2 ^ (400 : ℤ)) :
    Near (DSph.cosSeparation T s ⟨.num a, .num b, .num r⟩ ⟨.num a', .num b', .num r'⟩) (cosBetween s a b a' b') (2 ^ (-48 : ℤ)) :=
  near_mono (separation_near hT hs da db ⟨h1, h2⟩ da' db' ⟨h1', h2'⟩).1 (by norm_num [unit53])

/-- **C119.** The separation is within 2^-23 rad of the exact one; only for directions that nearly coincide or are nearly opposite it can be NaN instead. -/
theorem C119_error {T : Trig} {I : InverseTrig} (hT : Accurate T) (hI : AccurateInverse I) (s : Coord.System) (hs : s ≠ .cartesian) (a b r a' b' r' : ℚ)
    (da : IsDouble a) (db : IsDouble b) (da' : IsDouble a') (db' : IsDouble b') (h1 : 2 ^ (-400 : ℤ) ≤ |r|) (h2 : |r| ≤ 2 ^ (400 : ℤ))
    (h1' : 2 ^ (-400 : ℤ) ≤ |r'|) (h2' : |r'| ≤ 2 ^ (400 : ℤ)) (d : Dbl) (hd : d = DSph.separation T I s ⟨.num a, .num b, .num r⟩ ⟨.num a', .num b', .num r'⟩)
    (t : ℝ) (ht : t = Real.arccos (cosBetween s a b a' b')) :
    Near d t (2 ^ (-23 : ℤ)) ∨ (d = .nan ∧ (t ≤ 2 ^ (-23 : ℤ) ∨ Real.pi - 2 ^ (-23 : ℤ) ≤ t)) := by
  obtain ⟨⟨c, hc, dc, ec⟩, hC⟩ := separation_near hT hs da db ⟨h1, h2⟩ da' db' ⟨h1', h2'⟩
  unfold DSph.separation at hd
  rw [hc] at hd
  generalize cosBetween s a b a' b' = C at *
  by_cases hin : -1 ≤ c ∧ c ≤ 1
  · left
    have hc1 : |(c : ℝ)| ≤ 1 := by exact_mod_cast abs_le.2 hin
    obtain ⟨q, hq, dq, eq⟩ := hI.acos c dc (abs_le.2 hin)
    refine ⟨q, ?_, dq, ?_⟩
    · rw [hd]
      exact (acosOf_in I hin).trans hq
    · have key := arccos_close hc1 hC ec
      have e : (q : ℝ) - t = (q - Real.arccos c) + (Real.arccos c - Real.arccos C) := by rw [ht]; ring
      rw [e]
      refine (abs_add_le _ _).trans ((add_le_add eq key).trans ?_)
      norm_num
  · right
    constructor
    · rw [hd]
      exact acosOf_out I hin
    · have small : (99 / 100 : ℝ) * 2 ^ (-23 : ℤ) ≤ 2 ^ (-23 : ℤ) := by norm_num
      obtain ⟨C1, C2⟩ := abs_le.1 hC
      obtain ⟨e1, e2⟩ := abs_le.1 ec
      rcases not_and_or.1 hin with h | h
      · right
        have h' : (c : ℝ) < -1 := by exact_mod_cast not_le.1 h
        have := arccos_close (a := -1) (by norm_num) hC (by rw [abs_of_nonpos (by linarith)]; linarith)
        rw [Real.arccos_neg_one, ← ht] at this
        have := (abs_le.1 this).2
        generalize (2 : ℝ) ^ (-23 : ℤ) = w at *
        linarith
      · left
        have h' : (1 : ℝ) < c := by exact_mod_cast not_le.1 h
        have := arccos_close (a := 1) (by norm_num) hC (by rw [abs_of_nonneg (by linarith)]; linarith)
        rw [Real.arccos_one, ← ht] at this
        have := (abs_le.1 this).1
        generalize (2 : ℝ) ^ (-23 : ℤ) = w at *
        linarith

/-- **C119.** Separations that differ from a right angle by at most 1 rad are accurate to 2^-46. -/
theorem C119_moderate {T : Trig} {I : InverseTrig} (hT : Accurate T) (hI : AccurateInverse I) (s : Coord.System) (hs : s ≠ .cartesian) (a b r a' b' r' : ℚ)
    (da : IsDouble a) (db : IsDouble b) (da' : IsDouble a') (db' : IsDouble b') (h1 : 2 ^ (-400 : ℤ) ≤ |r|) (h2 : |r| ≤ 2 ^ (400 : ℤ))
    (h1' : 2 ^ (-400 : ℤ) ≤ |r'|) (h2' : |r'| ≤ 2 ^ (400 : ℤ)) (t : ℝ) (ht : t = Real.arccos (cosBetween s a b a' b')) (hm : |t - Real.pi / 2| ≤ 1) :
    Near (DSph.separation T I s ⟨.num a, .num b, .num r⟩ ⟨.num a', .num b', .num r'⟩) t (2 ^ (-46 : ℤ)) := by
  obtain ⟨⟨c, hc, dc, ec⟩, hC⟩ := separation_near hT hs da db ⟨h1, h2⟩ da' db' ⟨h1', h2'⟩
  unfold DSph.separation
  rw [hc]
  generalize cosBetween s a b a' b' = C at *
  have u0 := unit53_pos
  have u1 := unit53_small
  have pi1 := Real.pi_gt_d4
  have pi2 := Real.pi_lt_d4
  norm_num at pi1 pi2
  rw [ht, Real.arccos, show Real.pi / 2 - Real.arcsin C - Real.pi / 2 = -Real.arcsin C by ring, abs_neg] at hm
  obtain ⟨m1, m2⟩ := abs_le.1 hm
  have half : (99 / 100 : ℝ) * 2 ^ (-23 : ℤ) ≤ 1 / 100 := by norm_num
  have hin : -1 ≤ c ∧ c ≤ 1 := by
    by_contra hin
    obtain ⟨C1, C2⟩ := abs_le.1 hC
    obtain ⟨e1, e2⟩ := abs_le.1 ec
    rcases not_and_or.1 hin with h | h
    · have h' : (c : ℝ) < -1 := by exact_mod_cast not_le.1 h
      have := arccos_close (a := -1) (by norm_num) hC (by rw [abs_of_nonpos (by linarith)]; linarith)
      rw [Real.arccos_neg_one, Real.arccos] at this
      have := (abs_le.1 (this.trans half)).2
      linarith
    · have h' : (1 : ℝ) < c := by exact_mod_cast not_le.1 h
      have := arccos_close (a := 1) (by norm_num) hC (by rw [abs_of_nonneg (by linarith)]; linarith)
      rw [Real.arccos_one, Real.arccos] at this
      have := (abs_le.1 (this.trans half)).1
      linarith
  have hc1 : |(c : ℝ)| ≤ 1 := by exact_mod_cast abs_le.2 hin
  have hcC := (arccos_close hc1 hC ec).trans half
  rw [Real.arccos, Real.arccos, show Real.pi / 2 - Real.arcsin c - (Real.pi / 2 - Real.arcsin C) = Real.arcsin C - Real.arcsin c by ring] at hcC
  obtain ⟨k1, k2⟩ := abs_le.1 hcC
  have hcs : |Real.arcsin c| ≤ Real.pi / 3 := abs_le.2 ⟨by linarith, by linarith⟩
  have hCs : |Real.arcsin C| ≤ Real.pi / 3 := hm.trans (by linarith)
  have key : |Real.arcsin C - Real.arcsin c| ≤ Real.pi * (25 * unit53) := by
    rcases le_total C c with h0 | h0
    · rw [abs_sub_comm, abs_of_nonneg (sub_nonneg.2 (Real.arcsin_le_arcsin h0))]
      refine (arcsin_moderate hc1 hC h0 hcs hCs).trans (mul_le_mul_of_nonneg_left ?_ Real.pi_pos.le)
      exact (le_abs_self _).trans ec
    · rw [abs_of_nonneg (sub_nonneg.2 (Real.arcsin_le_arcsin h0))]
      refine (arcsin_moderate hC hc1 h0 hCs hcs).trans (mul_le_mul_of_nonneg_left ?_ Real.pi_pos.le)
      rw [abs_sub_comm] at ec
      exact (le_abs_self _).trans ec
  obtain ⟨q, hq, dq, eq⟩ := hI.acos c dc (abs_le.2 hin)
  refine ⟨q, (acosOf_in I hin).trans hq, dq, ?_⟩
  have e : (q : ℝ) - t = (q - Real.arccos c) + (Real.arcsin C - Real.arcsin c) := by rw [ht, Real.arccos, Real.arccos]; ring
  rw [e]
  refine (abs_add_le _ _).trans ((add_le_add eq key).trans ?_)
  have e1 : (2 : ℝ) ^ (-52 : ℤ) = 2 * unit53 := by norm_num [unit53]
  have e2 : (2 : ℝ) ^ (-46 : ℤ) = 128 * unit53 := by norm_num [unit53]
  rw [e1, e2]
  have : Real.pi * (25 * unit53) ≤ 4 * (25 * unit53) := mul_le_mul_of_nonneg_right (by linarith) (by linarith)
  linarith

/-- **C119.** What comes out is NaN, or at most 2^-52, or at least 2^-27: nothing in between, although directions can be arbitrarily close. -/
theorem C119_resolution {T : Trig} {I : InverseTrig} (hT : Accurate T) (hI : AccurateInverse I) (s : Coord.System) (hs : s ≠ .cartesian) (a b r a' b' r' : ℚ)
    (da : IsDouble a) (db : IsDouble b) (da' : IsDouble a') (db' : IsDouble b') (h1 : 2 ^ (-400 : ℤ) ≤ |r|) (h2 : |r| ≤ 2 ^ (400 : ℤ))
    (h1' : 2 ^ (-400 : ℤ) ≤ |r'|) (h2' : |r'| ≤ 2 ^ (400 : ℤ)) (q : ℚ)
    (hq : DSph.separation T I s ⟨.num a, .num b, .num r⟩ ⟨.num a', .num b', .num r'⟩ = .num q) : q ≤ 2 ^ (-52 : ℤ) ∨ 2 ^ (-27 : ℤ) ≤ q := by
  obtain ⟨⟨c, hc, dc, -⟩, -⟩ := separation_near hT hs da db ⟨h1, h2⟩ da' db' ⟨h1', h2'⟩
  unfold DSph.separation at hq
  rw [hc] at hq
  by_cases hin : -1 ≤ c ∧ c ≤ 1
  · rw [acosOf_in I hin] at hq
    obtain ⟨q', hq', -, eq⟩ := hI.acos c dc (abs_le.2 hin)
    rw [hq'] at hq
    cases hq
    obtain ⟨e1, e2⟩ := abs_le.1 eq
    rcases pole_or_less dc hin.1 hin.2 with (rfl | rfl) | hp
    · left
      rw [Rat.cast_one, Real.arccos_one] at e2
      have : ((q : ℚ) : ℝ) ≤ ((2 ^ (-52 : ℤ) : ℚ) : ℝ) := by
        rw [Rat.cast_zpow, Rat.cast_ofNat]
        linarith
      exact (Rat.cast_le (K := ℝ)).1 this
    · right
      rw [Rat.cast_neg, Rat.cast_one, Real.arccos_neg_one] at e1
      have p3 := Real.pi_gt_d4
      norm_num at p3
      have : ((2 ^ (-27 : ℤ) : ℚ) : ℝ) ≤ ((q : ℚ) : ℝ) := by
        rw [Rat.cast_zpow, Rat.cast_ofNat]
        have h1 : (2 : ℝ) ^ (-27 : ℤ) ≤ 1 := by norm_num
        have h2 : (2 : ℝ) ^ (-52 : ℤ) ≤ 1 := by norm_num
        linarith
      exact (Rat.cast_le (K := ℝ)).1 this
    · right
      have p3 := Real.pi_gt_d4
      norm_num at p3
      have hcos : |(c : ℝ)| ≤ Real.cos (2 ^ (-26 : ℤ)) := by
        refine hp.trans ?_
        have := Real.one_sub_sq_div_two_le_cos (x := (2 : ℝ) ^ (-26 : ℤ))
        refine le_trans ?_ this
        norm_num [unit53]
      have := (abs_le.1 (arcsin_away (by positivity) (le_trans (by norm_num : (2 : ℝ) ^ (-26 : ℤ) ≤ 1) (by linarith)) hcos)).2
      rw [Real.arccos] at e1
      have : ((2 ^ (-27 : ℤ) : ℚ) : ℝ) ≤ ((q : ℚ) : ℝ) := by
        rw [Rat.cast_zpow, Rat.cast_ofNat]
        have h1 : (2 : ℝ) ^ (-27 : ℤ) ≤ 2 ^ (-26 : ℤ) - 2 ^ (-52 : ℤ) := by norm_num
        clear hcos
        generalize (2 : ℝ) ^ (-26 : ℤ) = w at *
        generalize (2 : ℝ) ^ (-52 : ℤ) = w' at *
        generalize (2 : ℝ) ^ (-27 : ℤ) = w'' at *
        linarith
      exact (Rat.cast_le (K := ℝ)).1 this
  · rw [acosOf_out I hin] at hq
    cases hq

/-- **C119.** The order of the two frames does not matter, not even in the last digit. -/
theorem C119_symmetric (T : Trig) (I : InverseTrig) (s : Coord.System) (p q : DSph) : p.separation T I s q = q.separation T I s p := by
  unfold DSph.separation DSph.cosSeparation
  rw [C104_comm, dbl_mul_comm]

/-- **C119.** The separation of a point 8° off the pole from itself is NaN, even if sines and cosines are as good as they can be. -/
theorem C119_self {T : Trig} (hT : BestPossible T) (I : InverseTrig) :
    DSph.separation T I .spherical ⟨.num 0, .num eightDegrees, .num 1⟩ ⟨.num 0, .num eightDegrees, .num 1⟩ = .nan := by
  have c0 : T.cos (.num 0) = .num 1 := closest_self (hT 0 isDouble_zero).2 isDouble_one (by simp)
  have s0 : T.sin (.num 0) = .num 0 := closest_self (hT 0 isDouble_zero).1 isDouble_zero (by simp)
  unfold DSph.separation DSph.cosSeparation DSph.makeCartesian DSph.toCartesian
  dsimp only
  rw [eight_sin hT, eight_cos hT, c0, s0]
  have : ∀ d : Dbl, (match d with | .num c => decide (1 < c) | _ => false) = true → I.acosOf d = .nan := by
    intro d hd
    cases d with
    | num c =>
      simp only [decide_eq_true_eq] at hd
      exact acosOf_out I (fun h => absurd h.2 (not_le.2 hd))
    | _ => simp at hd
  apply this
  decide +kernel

/-- The exact separation of such a point from itself is 0. -/
theorem C119_self_exact (s : Coord.System) (a b : ℝ) : Real.arccos (cosBetween s a b a b) = 0 := by
  have h := Real.sin_sq_add_cos_sq b
  have : cosBetween s a b a b = 1 := by
    cases s <;> simp only [cosBetween, sub_self, Real.cos_zero] <;> linarith
  rw [this, Real.arccos_one]

/-- **C119.** A point at distance 0 has no separation from any other. -/
theorem C119_origin {T : Trig} (hT : Accurate T) (I : InverseTrig) (s : Coord.System) (hs : s ≠ .cartesian) (a b a' b' r' : ℚ) (da : IsDouble a) (db : IsDouble b)
    (da' : IsDouble a') (db' : IsDouble b') (h1 : 2 ^ (-400 : ℤ) ≤ |r'|) (h2 : |r'| ≤ 2 ^ (400 : ℤ)) :
    DSph.separation T I s ⟨.num a, .num b, .num 0⟩ ⟨.num a', .num b', .num r'⟩ = .nan := by
  obtain ⟨⟨sa, ha, -⟩, ⟨ca, hca, -⟩⟩ := hT a da
  obtain ⟨⟨sb, hb, -⟩, ⟨cb, hcb, -⟩⟩ := hT b db
  obtain ⟨x, y, z, -, -, ⟨hc, -⟩, -⟩ := direction_parts hT hs da' db' (Middling.moderate ⟨h1, h2⟩)
  have zero : DSph.makeCartesian T s ⟨.num a, .num b, .num 0⟩ = ⟨.num 0, .num 0, .num 0⟩ := by
    cases s with
    | cartesian => exact absurd rfl hs
    | spherical =>
      unfold DSph.makeCartesian DSph.toCartesian
      dsimp only
      simp only [ha, hca, hb, hcb, mul_num, zero_mul, round_zero]
    | equatorial =>
      unfold DSph.makeCartesian DSph.toCartesian
      dsimp only
      simp only [ha, hca, hb, hcb, mul_num, zero_mul, round_zero]
  unfold DSph.separation DSph.cosSeparation
  rw [zero, hc]
  unfold DVec.dot
  dsimp only
  simp only [mul_num, add_num, zero_mul, add_zero, round_zero]
  rfl

/-- A right angle along the equator is within the range of accuracy, and functions as required exist. -/
example : ∃ (T : Trig) (I : InverseTrig), Accurate T ∧ AccurateInverse I ∧
    Near (DSph.separation T I .equatorial ⟨.num 0, .num 0, .num 1⟩ ⟨.num (3 / 2), .num 0, .num 2⟩) (3 / 2) (2 ^ (-46 : ℤ)) := by
  obtain ⟨T, hT⟩ := best_exists
  obtain ⟨I, hI⟩ := inverse_exists
  have d3 : IsDouble (3 / 2) := ⟨3, -1, by norm_num, by norm_num, by norm_num, by norm_num⟩
  have p1 := Real.pi_gt_d4
  have p2 := Real.pi_lt_d4
  norm_num at p1 p2
  have e : (3 / 2 : ℝ) = Real.arccos (cosBetween .equatorial ((0 : ℚ) : ℝ) ((0 : ℚ) : ℝ) ((3 / 2 : ℚ) : ℝ) ((0 : ℚ) : ℝ)) := by
    have : cosBetween .equatorial ((0 : ℚ) : ℝ) ((0 : ℚ) : ℝ) ((3 / 2 : ℚ) : ℝ) ((0 : ℚ) : ℝ) = Real.cos (3 / 2) := by
      simp [cosBetween]
    rw [this, Real.arccos_cos (by norm_num) (by linarith)]
  refine ⟨T, I, best_accurate hT, hI, C119_moderate (best_accurate hT) hI .equatorial (by simp) 0 0 1 (3 / 2) 0 2 isDouble_zero isDouble_zero d3 isDouble_zero
    ?_ ?_ ?_ ?_ _ e ?_⟩
  · rw [abs_one]; exact zpow_le_one_of_nonpos₀ (by norm_num) (by norm_num)
  · rw [abs_one]; exact one_le_zpow₀ (by norm_num) (by norm_num)
  · rw [abs_two]; exact (zpow_le_one_of_nonpos₀ (by norm_num) (by norm_num)).trans (by norm_num)
  · rw [abs_two]; exact le_trans (by norm_num : (2 : ℚ) ≤ 2 ^ (1 : ℤ)) (zpow_le_zpow_right₀ (by norm_num) (by norm_num))
  · exact abs_le.2 ⟨by linarith, by linarith⟩

end Astro
