import Verif.Spec.Calendar
import Mathlib.Order.Interval.Finset.Defs
import Mathlib.Data.Int.Interval
import Mathlib.Data.Set.Finite.Lattice
import Mathlib.Data.Set.Finite.Lemmas
import Mathlib.Data.Finite.Prod
import Mathlib.Data.Set.Finite.Range
import Mathlib.Tactic.Linarith
import Mathlib.Tactic.Ring
import Mathlib.Tactic.Positivity

/-
Round to nearest, whatever happens to ties: the default mode of IEEE arithmetic.  Overflow is not modelled (a number beyond the largest double goes to
the largest double here), so theorems keep to numbers far below.
-/

namespace Astro.Spec

open Astro.Time

/-- A function that takes every number to a double closest to it. -/
structure Nearest where
  rnd : ℚ → ℚ
  isDouble : ∀ x, IsDouble (rnd x)
  closest : ∀ x y, IsDouble y → |rnd x - x| ≤ |y - x|

/-- Rounding to nearest is a rounding in the sense of the model. -/
def Nearest.rounding (N : Nearest) : Rounding where
  rnd := N.rnd
  exact x h := by
    have := N.closest x x h
    rw [sub_self, abs_zero] at this
    have := abs_nonpos_iff.1 this
    linarith
  mono x y h := by
    by_contra hlt
    rw [not_le] at hlt
    have h1 := N.closest x _ (N.isDouble y)
    have h2 := N.closest y _ (N.isDouble x)
    have e : x = y := by
      apply le_antisymm h
      by_contra hxy
      rw [not_le] at hxy
      rcases abs_cases (N.rnd x - x) with a | a <;> rcases abs_cases (N.rnd y - x) with b | b <;>
        rcases abs_cases (N.rnd y - y) with c | c <;> rcases abs_cases (N.rnd x - y) with d | d <;> linarith
    rw [e] at hlt
    exact lt_irrefl _ hlt

theorem finite_doubles : {x : ℚ | IsDouble x}.Finite := by
  have hf : ((Set.Ioo (-2 ^ 53 : ℤ) (2 ^ 53)) ×ˢ (Set.Icc (-1074 : ℤ) 971)).Finite := Set.Finite.prod (Set.finite_Ioo _ _) (Set.finite_Icc _ _)
  refine (hf.image (fun p : ℤ × ℤ => (p.1 : ℚ) * 2 ^ p.2)).subset ?_
  rintro x ⟨m, e, hm, h1, h2, rfl⟩
  exact ⟨(m, e), ⟨abs_lt.1 hm, h1, h2⟩, rfl⟩

/-- There is such a function. -/
theorem Nearest.exists : Nonempty Nearest := by
  have hne : {x : ℚ | IsDouble x}.Nonempty := ⟨0, 0, 0, by norm_num, by omega, by omega, by simp⟩
  have h : ∀ x : ℚ, ∃ y, IsDouble y ∧ ∀ z, IsDouble z → |y - x| ≤ |z - x| := fun x =>
    Set.exists_min_image _ (fun y => |y - x|) finite_doubles hne
  choose f hf using h
  exact ⟨⟨f, fun x => (hf x).1, fun x y hy => (hf x).2 y hy⟩⟩

/-- `x` and `y` are the same time of day up to `ε` hours. -/
def NearHour (x y ε : ℚ) : Prop := ∃ k : ℤ, |x - (y + 24 * k)| ≤ ε

/-- A time of day as boost::posix_time keeps it. -/
def TimeOfDay (t : PTime) : Prop := t.hours < 24 ∧ t.minutes < 60 ∧ t.seconds < 60

/-- Like `Split`, but the sum may be off by `ε`. -/
structure NearSplit (d : ℚ) (h m : ℤ) (s ε : ℚ) : Prop where
  sum : |d - (h + m / 60 + s / 3600)| ≤ ε
  minutes : |m| < 60
  seconds : |s| < 60
  nonneg : 0 ≤ d → 0 ≤ h ∧ 0 ≤ m ∧ 0 ≤ s
  nonpos : d ≤ 0 → h ≤ 0 ∧ m ≤ 0 ∧ s ≤ 0

end Astro.Spec
