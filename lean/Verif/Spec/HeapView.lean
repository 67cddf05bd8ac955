import Verif.Model.HeapView
import Verif.Spec.TableCopy

/-
Specification vocabulary: views in variables.
-/

namespace Astro.Spec

variable {Φ : Family}

/-- The statement makes `p` another view, or writes row `row` through it. -/
def Overwrites (p row : Nat) : VHOp Φ → Prop
  | .hold k _ _ _ => k = p
  | .copy k _ => k = p
  | .update k r _ _ => k = p ∧ r = row
  | _ => False

/-- The statement makes `p` another view, or uses row `row` of it. -/
def Visits (p row : Nat) : VHOp Φ → Prop
  | .hold k _ _ _ => k = p
  | .copy k _ => k = p
  | .update k r _ _ => k = p ∧ r = row
  | .read k r => k = p ∧ r = row
  | _ => False

/-- The element of type `t` in row `row` of column `index` of a matrix, which may be gone. -/
def elementOf (t : Φ.Tag) (index total row : Nat) (m : Res (List (List Str))) : Res (HOut Φ) := do
  let data ← m
  let s ← cellAt data row index
  let x ← Φ.deser t s total
  return .value t x

end Astro.Spec
