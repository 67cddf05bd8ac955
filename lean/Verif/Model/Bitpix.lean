import Verif.Model.Basic

/-
io/bitpix.hpp.
-/

namespace Astro

/-- enum class bitpix, bitpix.hpp l.21-28. -/
inductive Bitpix where
  | B8 | B16 | B32 | F32 | F64
  deriving DecidableEq, Repr

/-- get_element_size_from_bitpix, bitpix.hpp l.34-55. -/
def Bitpix.size : Bitpix → Nat
  | .B8 => 1
  | .B16 => 2
  | .B32 => 4
  | .F32 => 4
  | .F64 => 8

end Astro
