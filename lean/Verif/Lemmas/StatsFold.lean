import Verif.Lemmas.Pixel

/-
Means and variances: special values, integers, signs.
-/

namespace Astro

open Spec Time FloatFmt

attribute [local irreducible] FloatFmt.nearest FloatFmt.value Dbl.round

theorem add_nan (a : Dbl) : a.add .nan = .nan := by cases a <;> rfl

theorem nan_add (a : Dbl) : Dbl.nan.add a = .nan := rfl

theorem fold_nan (l : List Dbl) : l.foldl Dbl.add .nan = .nan := by
  induction l with
  | nil => rfl
  | cons x t ih => rw [List.foldl_cons, nan_add, ih]

/-- One NaN makes the sum NaN. -/
theorem fold_mem_nan {l : List Dbl} (h : .nan ∈ l) (a : Dbl) : l.foldl Dbl.add a = .nan := by
  obtain ⟨s, t, rfl⟩ := List.append_of_mem h
  rw [List.foldl_append, List.foldl_cons, add_nan, fold_nan]

theorem fold_inf (l : List Dbl) : ∀ neg, l.foldl Dbl.add (.inf neg) = .inf neg ∨ l.foldl Dbl.add (.inf neg) = .nan := by
  induction l with
  | nil => intro neg; exact .inl rfl
  | cons x t ih =>
    intro neg
    rw [List.foldl_cons]
    cases x with
    | num x => exact ih neg
    | inf neg' =>
      by_cases h : neg = neg'
      · have : (Dbl.inf neg).add (.inf neg') = .inf neg := if_pos h
        rw [this]
        exact ih neg
      · have : (Dbl.inf neg).add (.inf neg') = .nan := if_neg h
        rw [this, fold_nan]
        exact .inr rfl
    | nan => exact .inr (by rw [add_nan, fold_nan])

/-- An infinite summand makes the sum that infinity or NaN. -/
theorem fold_mem_inf {l : List Dbl} {neg : Bool} (h : .inf neg ∈ l) (a : Dbl) :
    l.foldl Dbl.add a = .inf neg ∨ l.foldl Dbl.add a = .nan := by
  obtain ⟨s, t, rfl⟩ := List.append_of_mem h
  rw [List.foldl_append, List.foldl_cons]
  cases List.foldl Dbl.add a s with
  | num x => exact fold_inf t neg
  | nan => exact .inr (by rw [nan_add, fold_nan])
  | inf neg' =>
    by_cases h : neg' = neg
    · have : (Dbl.inf neg').add (.inf neg) = .inf neg' := if_pos h
      rw [this, h]
      exact fold_inf t neg
    · have : (Dbl.inf neg').add (.inf neg) = .nan := if_neg h
      rw [this, fold_nan]
      exact .inr rfl

theorem round_cases (q : ℚ) : (∃ x, Dbl.round q = .num x ∧ x = ieee.rnd q) ∨ Dbl.round q = .inf (decide (q < 0)) := by
  cases h : FloatFmt.double.nearest |q| with
  | none => exact .inr (round_none h)
  | some n =>
    refine .inl ⟨_, round_some h, ?_⟩
    rw [ieee_rnd, ieeeRnd_some h]

theorem round_ne_nan (q : ℚ) : Dbl.round q ≠ .nan := by
  rcases round_cases q with ⟨x, h, -⟩ | h <;> rw [h] <;> simp

/-- Finite summands do not make a NaN. -/
theorem fold_finite (l : List ℚ) : ∀ a, a ≠ .nan → l.foldl (fun s x => Dbl.add s (.num x)) a ≠ .nan := by
  induction l with
  | nil => intro a h; exact h
  | cons x t ih =>
    intro a h
    rw [List.foldl_cons]
    apply ih
    cases a with
    | num y => exact round_ne_nan _
    | inf neg => exact fun h => by cases h
    | nan => exact absurd rfl h

/-- Not negative: a number from zero on, or positive infinity. -/
def Dbl.NonNeg : Dbl → Prop
  | .num x => 0 ≤ x
  | .inf neg => neg = false
  | .nan => False

theorem rnd_nonneg {q : ℚ} (h : 0 ≤ q) : 0 ≤ ieee.rnd q := by
  have := near_mono ieee h
  rwa [near_zero] at this

theorem round_nonneg {q : ℚ} (h : 0 ≤ q) : (Dbl.round q).NonNeg := by
  rcases round_cases q with ⟨x, e, hx⟩ | e
  · rw [e]
    show 0 ≤ x
    rw [hx]
    exact rnd_nonneg h
  · rw [e]
    show decide (q < 0) = false
    simpa using h

theorem square_nonneg {a : Dbl} (h : a ≠ .nan) : (a.mul a).NonNeg := by
  cases a with
  | num x => exact round_nonneg (mul_self_nonneg x)
  | inf neg => show (neg != neg) = false; simp
  | nan => exact absurd rfl h

theorem add_nonneg' {a b : Dbl} (ha : a.NonNeg) (hb : b.NonNeg) : (a.add b).NonNeg := by
  cases a with
  | num x =>
    cases b with
    | num y => exact round_nonneg (add_nonneg ha hb)
    | inf neg => exact hb
    | nan => exact absurd hb id
  | inf neg =>
    cases b with
    | num y => exact ha
    | inf neg' =>
      obtain rfl : neg = false := ha
      obtain rfl : neg' = false := hb
      rfl
    | nan => exact absurd hb id
  | nan => exact absurd ha id

theorem fold_nonneg (l : List Dbl) : ∀ a : Dbl, a.NonNeg → (∀ d ∈ l, d.NonNeg) → (l.foldl Dbl.add a).NonNeg := by
  induction l with
  | nil => intro a h _; exact h
  | cons x t ih =>
    intro a h hl
    rw [List.foldl_cons]
    exact ih _ (add_nonneg' h (hl x (by simp))) fun d hd => hl d (by simp [hd])

theorem ofNat_pos {n : Nat} (h0 : 0 < n) (h : n < 2 ^ 64) : ∃ y, Dbl.ofNat n = .num y ∧ 1 ≤ y := by
  refine ⟨ieee.rnd n, ?_, ?_⟩
  · apply round_num
    rw [abs_of_nonneg (by positivity)]
    have : (n : ℚ) < 2 ^ 64 := by exact_mod_cast h
    exact this.le.trans (pow_le_pow_right₀ (by norm_num) (by norm_num))
  · have h1 : ieee.rnd 1 = 1 := near_exact ieee (by simpa using isDouble_int (i := 1) (by norm_num))
    rw [← h1]
    exact near_mono ieee (by exact_mod_cast h0)

theorem div_nonneg' {a : Dbl} {y : ℚ} (h : a.NonNeg) (hy : 1 ≤ y) : (a.div (.num y)).NonNeg := by
  cases a with
  | num x =>
    have : (Dbl.num x).div (.num y) = Dbl.round (x / y) := if_neg (by linarith)
    rw [this]
    exact round_nonneg (div_nonneg h (by linarith))
  | inf neg =>
    obtain rfl : neg = false := h
    show (false != decide (y < 0)) = false
    have : ¬ y < 0 := by linarith
    simp [this]
  | nan => exact absurd h id

theorem div_ne_nan {a : Dbl} {y : ℚ} (h : a ≠ .nan) (hy : 1 ≤ y) : a.div (.num y) ≠ .nan := by
  cases a with
  | num x =>
    have : (Dbl.num x).div (.num y) = Dbl.round (x / y) := if_neg (by linarith)
    rw [this]
    exact round_ne_nan _
  | inf neg => exact fun h => by cases h
  | nan => exact absurd rfl h

theorem nan_div (a : Dbl) : Dbl.nan.div a = .nan := rfl

variable {b : Bitpix}

theorem image_mean_eq (img : Image b) (h : img.data ≠ []) :
    img.mean = ((img.data.map b.number).foldl Dbl.add (.num 0)).div (.ofNat img.data.length) := by
  unfold Image.mean
  rw [if_neg (by simpa using h), List.foldl_map]

theorem image_variance_eq (img : Image b) (h : img.data ≠ []) :
    img.variance = ((img.data.map fun p => ((b.number p).sub img.mean).mul ((b.number p).sub img.mean)).foldl Dbl.add (.num 0)).div
      (.ofNat (img.data.length - 1)) := by
  unfold Image.variance
  rw [if_neg (by simpa using h)]
  simp only [List.map_map]
  rfl

/-- Sum of numbers as a sum of rational numbers. -/
theorem fold_map_num {α : Type} (l : List α) (g : α → Dbl) (f : α → ℚ) (h : ∀ p ∈ l, g p = .num (f p)) (a : Dbl) :
    (l.map g).foldl Dbl.add a = (l.map f).foldl (fun s x => Dbl.add s (.num x)) a := by
  induction l generalizing a with
  | nil => rfl
  | cons x t ih =>
    simp only [List.map_cons, List.foldl_cons]
    rw [h x (by simp), ih fun p hp => h p (by simp [hp])]

theorem values_number {img : Image b} {l : List ℚ} (h : Values img l) : img.data.map b.number = l.map Dbl.num := by
  obtain ⟨data, w, hh⟩ := img
  unfold Values at h
  dsimp only at h ⊢
  induction h with
  | nil => rfl
  | cons h _ ih => rw [List.map_cons, List.map_cons, pixelValue_iff.1 h, ih]

theorem values_length {img : Image b} {l : List ℚ} (h : Values img l) : img.data.length = l.length := List.Forall₂.length_eq h

theorem values_double {img : Image b} {l : List ℚ} (h : Values img l) : ∀ x ∈ l, IsDouble x := by
  intro x hx
  have : Dbl.num x ∈ img.data.map b.number := by rw [values_number h]; exact List.mem_map_of_mem hx
  obtain ⟨p, -, e⟩ := List.mem_map.1 this
  exact number_isDouble e

theorem values_mean {img : Image b} {l : List ℚ} (h : Values img l) (hne : l ≠ []) :
    img.mean = (l.foldl (fun s x => Dbl.add s (.num x)) (.num 0)).div (.ofNat l.length) := by
  have hne' : img.data ≠ [] := by
    intro e
    have := values_length h
    rw [e] at this
    exact hne (List.length_eq_zero_iff.1 this.symm)
  rw [image_mean_eq img hne', values_number h, values_length h, List.foldl_map]

theorem values_variance {img : Image b} {l : List ℚ} (h : Values img l) (hne : l ≠ []) :
    img.variance = ((l.map fun x => (Dbl.sub (.num x) img.mean).mul (Dbl.sub (.num x) img.mean)).foldl Dbl.add (.num 0)).div
      (.ofNat (l.length - 1)) := by
  have hne' : img.data ≠ [] := by
    intro e
    have := values_length h
    rw [e] at this
    exact hne (List.length_eq_zero_iff.1 this.symm)
  rw [image_variance_eq img hne', values_length h]
  have e : ∀ m : Dbl, (img.data.map fun p => ((b.number p).sub m).mul ((b.number p).sub m)) =
      (l.map fun x => (Dbl.sub (.num x) m).mul (Dbl.sub (.num x) m)) := by
    intro m
    have := congrArg (List.map fun d : Dbl => (d.sub m).mul (d.sub m)) (values_number h)
    rw [List.map_map, List.map_map] at this
    exact this
  rw [e]

end Astro
