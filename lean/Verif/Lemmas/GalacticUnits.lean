import Verif.Spec.GalacticUnits
import Verif.Lemmas.GalacticChain
import Verif.Lemmas.UnitChain

/-
Helper lemmas: conversions with the galactic matrices, by angles that are slightly off.
-/

set_option exponentiation.threshold 3000

namespace Astro

open Spec Time Matrix

attribute [local irreducible] FloatFmt.nearest FloatFmt.value Dbl.round

theorem size_galactic {M : Coord.Mat} (h : M = Coord.galacticToRaDec ∨ M = Coord.raDecToGalactic) (v : Coord.Vec) : size (M *ᵥ v) ≤ (1 + 1 / 10 ^ 7) * size v := by
  have := chord_galactic h v 0
  rw [mulVec_zero] at this
  exact this

/-- A leg with the angle as stored, and the conversion it stands for. -/
inductive LegAs {T : Trig} (e : ℝ) : Leg T → Step (DAngle × ℝ) → Prop
  | turn {r : Rotation T} {c : Conversion} {a : DAngle × ℝ} (h : r.computed = c.matrix T a.1)
      (hc : ∀ v w, chord (r.exact *ᵥ v) (exactMatrix c a.2 *ᵥ w) ≤ chord v w + e * size w) : LegAs e (.turn r) (.turn c a)
  | toGalactic : LegAs e .toGalactic .toGalactic
  | fromGalactic : LegAs e .fromGalactic .fromGalactic

theorem legs_list (T : Trig) {e : ℝ} (steps : List (Step (DAngle × ℝ))) (hs : AnglesNear e steps) : ∃ l : List (Leg T), List.Forall₂ (LegAs e) l steps := by
  induction steps with
  | nil => exact ⟨[], .nil⟩
  | cons s steps ih =>
    obtain ⟨l, h1⟩ := ih fun c a h => hs c a (List.mem_cons_of_mem _ h)
    cases s with
    | toGalactic => exact ⟨_, .cons .toGalactic h1⟩
    | fromGalactic => exact ⟨_, .cons .fromGalactic h1⟩
    | turn c a =>
      obtain ⟨q, hq, dq, eq⟩ := hs c a List.mem_cons_self
      refine ⟨.turn (storedRotation T c q dq) :: l, .cons (.turn ?_ ?_) h1⟩
      · cases c <;> simp [storedRotation, Conversion.matrix, hq]
      · intro v w
        have h4 := chord_triangle (exactMatrix c q *ᵥ v) (exactMatrix c q *ᵥ w) (exactMatrix c a.2 *ᵥ w)
        rw [chord_rotate (exact_angle _ _)] at h4
        have h5 := exact_close c q a.2 w
        have h6 : |(q : ℝ) - a.2| * size w ≤ e * size w := mul_le_mul_of_nonneg_right eq (chord_nonneg _ _)
        have e1 : (storedRotation T c q dq).exact = exactMatrix c q := rfl
        rw [e1]
        linarith

theorem legs_computed {T : Trig} {e : ℝ} {l : List (Leg T)} {steps : List (Step (DAngle × ℝ))} (h : List.Forall₂ (LegAs e) l steps) :
    l.map (·.computed) = steps.map (fun s => (s.map Prod.fst).matrix T) := by
  induction h with
  | nil => rfl
  | cons h _ ih =>
    rw [List.map_cons, List.map_cons, ih]
    cases h with
    | turn h _ => rw [show (Leg.turn _).computed = _ from h]; rfl
    | toGalactic => rfl
    | fromGalactic => rfl

theorem legs_galactic {T : Trig} {e : ℝ} {l : List (Leg T)} {steps : List (Step (DAngle × ℝ))} (h : List.Forall₂ (LegAs e) l steps) :
    galacticLegs l = galacticSteps steps := by
  induction h with
  | nil => rfl
  | cons h _ ih =>
    unfold galacticLegs galacticSteps at *
    rw [List.countP_cons, List.countP_cons, ih]
    cases h <;> rfl

theorem legs_chord {T : Trig} {e : ℝ} (he : 0 ≤ e) {l : List (Leg T)} {steps : List (Step (DAngle × ℝ))} (h : List.Forall₂ (LegAs e) l steps)
    (v w : Coord.Vec) : chord (followed l v) (travelled (steps.map (Step.map Prod.snd)) w) ≤
      (1 + 1 / 10 ^ 7) ^ galacticSteps steps * (chord v w + steps.length * (e * size w)) := by
  induction h generalizing v w with
  | nil => simp [followed, travelled, galacticSteps]
  | @cons g s l steps h _ ih =>
    have h3 := ih (g.exact *ᵥ v) (exactStep (s.map Prod.snd) *ᵥ w)
    have e1 : followed (g :: l) v = followed l (g.exact *ᵥ v) := rfl
    have e2 : travelled ((s :: steps).map (Step.map Prod.snd)) w = travelled (steps.map (Step.map Prod.snd)) (exactStep (s.map Prod.snd) *ᵥ w) := rfl
    rw [e1, e2, List.length_cons]
    refine h3.trans ?_
    have hp : (0 : ℝ) ≤ (1 + 1 / 10 ^ 7) ^ galacticSteps steps := by positivity
    have hw : 0 ≤ size w := chord_nonneg _ _
    have galactic {M : Coord.Mat} (hM : M = Coord.galacticToRaDec ∨ M = Coord.raDecToGalactic) :
        (1 + 1 / 10 ^ 7) ^ galacticSteps steps * (chord (M *ᵥ v) (M *ᵥ w) + steps.length * (e * size (M *ᵥ w))) ≤
          (1 + 1 / 10 ^ 7) ^ (galacticSteps steps + 1) * (chord v w + (steps.length + 1 : ℕ) * (e * size w)) := by
      rw [pow_succ (1 + 1 / 10 ^ 7 : ℝ) (galacticSteps steps), mul_assoc]
      refine mul_le_mul_of_nonneg_left ?_ hp
      have a1 := chord_galactic hM v w
      have a2 := mul_le_mul_of_nonneg_left (mul_le_mul_of_nonneg_left (size_galactic hM w) he) (Nat.cast_nonneg (α := ℝ) steps.length)
      have a3 : 0 ≤ (1 + 1 / 10 ^ 7) * (e * size w) := by positivity
      push_cast
      linarith
    cases h with
    | @turn r c a _ hc =>
      have k : galacticSteps (Step.turn c a :: steps) = galacticSteps steps := rfl
      rw [k]
      refine mul_le_mul_of_nonneg_left ?_ hp
      have h4 := hc v w
      have h5 : size (exactMatrix c a.2 *ᵥ w) = size w := size_rotate (exact_angle _ _) w
      show chord (r.exact *ᵥ v) (exactMatrix c a.2 *ᵥ w) + steps.length * (e * size (exactMatrix c a.2 *ᵥ w)) ≤ _
      rw [h5]
      push_cast
      linarith
    | toGalactic =>
      have k : galacticSteps (.toGalactic :: steps) = galacticSteps steps + 1 := List.countP_cons_of_pos rfl
      rw [k]
      exact galactic (.inr rfl)
    | fromGalactic =>
      have k : galacticSteps (.fromGalactic :: steps) = galacticSteps steps + 1 := List.countP_cons_of_pos rfl
      rw [k]
      exact galactic (.inl rfl)

theorem galactic_pow {k : ℕ} (h : k ≤ 10 ^ 4) : ((1 : ℝ) + 1 / 10 ^ 7) ^ k ≤ 11 / 10 := by
  refine (pow_le_pow_right₀ (by norm_num) h).trans ?_
  have : ((1 : ℝ) + 1 / 10 ^ 7) ^ 10 ^ 4 ≤ Real.exp (1 / 10 ^ 7) ^ 10 ^ 4 := by
    refine pow_le_pow_left₀ (by norm_num) ?_ _
    have := Real.add_one_le_exp ((1 : ℝ) / 10 ^ 7)
    linarith
  refine this.trans ?_
  rw [← Real.exp_nat_mul]
  have e1 : ((10 ^ 4 : ℕ) : ℝ) * (1 / 10 ^ 7) = 1 / 1000 := by norm_num
  rw [e1]
  have h3 := Real.one_sub_le_exp_neg (1 / 1000 : ℝ)
  have h4 : Real.exp (1 / 1000) * Real.exp (-(1 / 1000)) = 1 := by rw [← Real.exp_add, add_neg_cancel, Real.exp_zero]
  have h5 := mul_le_mul_of_nonneg_left h3 (Real.exp_pos (1 / 1000)).le
  rw [h4] at h5
  linarith

end Astro
