import Verif.Model.View
import Verif.Spec.Bytes
import Verif.Spec.Text

/-
The bytes that stand for a value in a cell of a binary table, as the FITS standard defines them.
-/

namespace Astro.Spec

/-- Bytes per element. -/
def cellSize : BinScalar → Nat
  | .bool => 1
  | .int16 => 2
  | .int32 => 4
  | .float => 4
  | .double => 8
  | .pair => 8
  | .complexFloat => 8
  | .complexDouble => 16
  | .byte => 1
  | .char => 1

/-- The bytes of one value: T or F, big-endian numbers, two of them one after the other, the byte itself. -/
def Encodes1 : (t : BinScalar) → t.El → Str → Prop
  | .bool, v, s => s = if (show Bool from v) then b!"T" else b!"F"
  | .int16, v, s => IsBE 2 v s
  | .int32, v, s => IsBE 4 v s
  | .float, v, s => IsBE 4 v s
  | .double, v, s => IsBE 8 v s
  | .pair, v, s => ∃ a b, s = a ++ b ∧ IsBE 4 v.1 a ∧ IsBE 4 v.2 b
  | .complexFloat, v, s => ∃ a b, s = a ++ b ∧ IsBE 4 v.1 a ∧ IsBE 4 v.2 b
  | .complexDouble, v, s => ∃ a b, s = a ++ b ∧ IsBE 8 v.1 a ∧ IsBE 8 v.2 b
  | .byte, v, s => s = [v]
  | .char, v, s => s = [v]

/-- The bytes of an array: those of its elements one after the other. -/
def EncodesN (t : BinScalar) : List t.El → Str → Prop
  | [], s => s = []
  | x :: l, s => ∃ a b, s = a ++ b ∧ Encodes1 t x a ∧ EncodesN t l b

/-- The bytes of a cell. -/
def Encodes : (t : BinTag) → t.El → Str → Prop
  | ⟨a, true⟩, l, s => EncodesN a l s
  | ⟨a, false⟩, x, s => Encodes1 a x s

/-- The cell has as many elements as its column says. -/
def HasCount (n : Nat) : (t : BinTag) → t.El → Prop
  | ⟨_, true⟩, l => l.length = n
  | ⟨_, false⟩, _ => True

end Astro.Spec
