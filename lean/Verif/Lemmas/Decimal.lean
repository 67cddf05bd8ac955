import Mathlib.Tactic.Linarith
import Mathlib.Tactic.Ring
import Verif.Lemmas.Text
import Verif.Model.Float

/-
Helper lemmas about rounding to integers and digits.
-/

namespace Astro

theorem positional_zeros (k : Nat) (s : Str) : Spec.positional (List.replicate k 48 ++ s) = Spec.positional s := by
  induction k with
  | zero => rfl
  | succ k ih =>
    rw [List.replicate_succ, List.cons_append, Spec.positional, ih]
    simp

theorem zeroPad_spec {w n : Nat} (hw : 0 < w) (h : n < 10 ^ w) :
    (zeroPad w n).length = w ∧ Spec.AllDigits (zeroPad w n) ∧ Spec.positional (zeroPad w n) = n := by
  have hl := (showNat_length_le w n hw).2 h
  obtain ⟨⟨h1, h2⟩, h3, -⟩ := showNat_isNat n
  refine ⟨?_, ⟨?_, ?_⟩, ?_⟩
  · rw [zeroPad, List.length_append, List.length_replicate]
    omega
  · rw [zeroPad]
    simp [h1]
  · intro c hc
    rw [zeroPad] at hc
    rcases List.mem_append.1 hc with hc | hc
    · rw [(List.mem_replicate.1 hc).2]
      decide
    · exact h2 c hc
  · rw [zeroPad, positional_zeros, h3]

/-- The nearest integer is at most one half away. -/
theorem roundEven_near (x : ℚ) : |(roundEven x : ℚ) - x| ≤ 1 / 2 := by
  have h1 := Int.floor_le x
  have h2 := Int.lt_floor_add_one x
  rw [abs_le]
  unfold roundEven
  split_ifs <;> push_cast <;> constructor <;> linarith

theorem roundEven_nonneg {x : ℚ} (h : 0 ≤ x) : 0 ≤ roundEven x := by
  have h1 : 0 ≤ ⌊x⌋ := Int.floor_nonneg.2 h
  unfold roundEven
  split_ifs <;> omega

theorem roundEven_eq_even {x : ℚ} {n : ℤ} (hn : 2 ∣ n) : roundEven x = n ↔ |x - n| ≤ 1 / 2 := by
  constructor
  · rintro rfl
    rw [abs_sub_comm]
    exact roundEven_near x
  · intro h
    rw [abs_le] at h
    have h1 := Int.floor_le x
    have h2 := Int.lt_floor_add_one x
    have h3 : n - 1 ≤ ⌊x⌋ := Int.le_floor.2 (by push_cast; linarith)
    have h4 : ⌊x⌋ < n + 1 := Int.floor_lt.2 (by push_cast; linarith)
    have h5 : ⌊x⌋ = n - 1 ∨ ⌊x⌋ = n := by omega
    unfold roundEven
    rcases h5 with e | e <;> rw [e] <;> push_cast
    · split_ifs with a b c
      · linarith
      · ring
      · omega
      · ring
    · split_ifs with a b c
      · rfl
      · linarith
      · rfl

end Astro
