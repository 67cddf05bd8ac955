import Verif.Spec.ForeignFiles

/-
Specification vocabulary: the physical values of integers in FITS files (version 4.0 of the standard, sections 4.4.2.5, 7.2.2 and 7.3.2).
-/

namespace Astro.Spec

/-- The number that bytes stand for, most significant byte first, in two's complement. -/
def storedNumber (d : Str) : Int := if 2 * bigEndian d < 256 ^ d.length then bigEndian d else (bigEndian d : Int) - 256 ^ d.length

/-- The value of a card that need not be there. -/
def SaysOr (cards : List Str) (key : Str) (default v : Int) : Prop := Absent cards key ∧ v = default ∨ SaysInteger cards key v

/-- The value that the stored number `n` stands for: `q = zero + scale × n` with the values of the two cards. -/
def ScaledTo (cards : List Str) (scaleKey zeroKey : Str) (n q : Int) : Prop :=
  ∃ s z, SaysOr cards scaleKey 1 s ∧ SaysOr cards zeroKey 0 z ∧ q = z + s * n

end Astro.Spec
