import Verif.Model.Stats

/-
median() of image_buffer (io/image.hpp) on the pixels themselves.
-/

namespace Astro

/-- The pixels compare like the standard library requires: `<` is a strict weak ordering of them.  It is not when there are a NaN, which is equivalent to
everything, and two numbers that are not equivalent. -/
def Bitpix.ordered (b : Bitpix) (l : List (BitVec (8 * b.size))) : Bool :=
  !(l.any (fun p => b.number p == .nan) && l.any fun p => l.any fun q => (b.number p).less (b.number q))

/-- median(), image.hpp l.109-116.  `nth` is `std::nth_element` with the position of its second argument: the array as it leaves it.  It is undefined
where the pixels are not ordered; `sorted_array[0]` of an empty array is undefined as well. -/
def Image.median {b : Bitpix} (nth : List (BitVec (8 * b.size)) → Nat → List (BitVec (8 * b.size))) (img : Image b) : Res (BitVec (8 * b.size)) :=
  if b.ordered img.data then
    match (nth img.data (img.data.length / 2))[img.data.length / 2]? with
    | some p => .ok p
    | none => .error .ub
  else .error .ub

end Astro
