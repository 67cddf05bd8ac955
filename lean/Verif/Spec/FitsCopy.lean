import Verif.Spec.Fits

/-
Which byte of a file belongs to what.
-/

namespace Astro.Spec

/-- Byte `i` belongs to the cards of the HDU. -/
def InCards (e : Entry) (i : Nat) : Prop := e.loc ≤ i ∧ i < e.loc + 80 * e.header.cards.length

/-- Byte `i` belongs to the data of the HDU. -/
def InData (e : Entry) (i : Nat) : Prop := e.dataLoc ≤ i ∧ i < e.dataLoc + e.bytes

/-- Byte `i` belongs to no HDU: it only fills up a block. -/
def Filler (es : List Entry) (i : Nat) : Prop := ∀ e ∈ es, ¬ InCards e i ∧ ¬ InData e i

/-- The data bytes of the HDU in the file. -/
def dataOf (content : Str) (e : Entry) : Str := window content e.dataLoc e.bytes

end Astro.Spec
