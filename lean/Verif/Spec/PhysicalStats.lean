import Verif.Spec.Physical
import Verif.Spec.Stats

/-
Specification vocabulary: an image of scaled integers and the numbers it depicts.
-/

namespace Astro.Spec

/-- The pixels stored in the data, `size` bytes each, stand for the numbers `qs`, with the scale `s` and the zero `z` of the header. -/
structure Depicts (cards : List Str) (data : Str) (size : Nat) (s z : Int) (qs : List Int) : Prop where
  scale : SaysOr cards b!"BSCALE" 1 s
  zero : SaysOr cards b!"BZERO" 0 z
  count : data.length = qs.length * size
  value : ∀ (i : Nat) q, qs[i]? = some q → q = z + s * storedNumber (window data (i * size) size)

end Astro.Spec
