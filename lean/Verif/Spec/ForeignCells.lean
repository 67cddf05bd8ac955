import Verif.Spec.Resaved
import Verif.Spec.Cell

/-
Specification vocabulary: columns of tables in other programs' files by name, and the texts in their fields.
-/

namespace Astro.Spec

/-- Column `j` (from 0) is the first one that TTYPE calls `name`. -/
def FirstCalled (cards : List Str) (name : Str) (j : Nat) : Prop :=
  name ≠ [] ∧ (∃ d, IsNat d (j + 1) ∧ SaysString cards (b!"TTYPE" ++ d) name) ∧ ∀ i d, i < j → IsNat d (i + 1) → ¬ SaysString cards (b!"TTYPE" ++ d) name

/-- The field holds the text `x`, with blanks before and behind it. -/
def Padded (field x : Str) : Prop := ∃ a b, field = List.replicate a 32 ++ x ++ List.replicate b 32 ∧ NoOuterWhite x

/-- The types that are read as one number of `w` bytes. -/
def NumberOf : BinScalar → Nat → Prop
  | .int16, w => w = 2
  | .int32, w | .float, w => w = 4
  | .double, w => w = 8
  | _, _ => False

end Astro.Spec
