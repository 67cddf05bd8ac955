import Verif.Model.Median
import Verif.Spec.Stats

/-
What `std::nth_element` promises, and what the median should be.
-/

namespace Astro.Spec

variable {b : Bitpix}

/-- `<` is a strict weak ordering of these pixels: what is not comparable is equivalent, and equivalence is transitive. -/
def WeakOrder (l : List (BitVec (8 * b.size))) : Prop :=
  (∀ p ∈ l, ¬ PixelLess b p p) ∧ (∀ p ∈ l, ∀ q ∈ l, ∀ r ∈ l, PixelLess b p q → PixelLess b q r → PixelLess b p r) ∧
    ∀ p ∈ l, ∀ q ∈ l, ∀ r ∈ l, ¬ PixelLess b p q → ¬ PixelLess b q p → ¬ PixelLess b q r → ¬ PixelLess b r q → ¬ PixelLess b p r ∧ ¬ PixelLess b r p

/-- [alg.nth.element] of the C++ standard: a permutation, nothing before the position is larger and nothing after it is smaller than what is there. -/
def NthElement (nth : List (BitVec (8 * b.size)) → Nat → List (BitVec (8 * b.size))) : Prop :=
  ∀ l k, WeakOrder l → (nth l k).Perm l ∧
    ∀ i j x y, i ≤ k → k ≤ j → (nth l k)[i]? = some x → (nth l k)[j]? = some y → ¬ PixelLess b y x

open scoped Classical in
/-- At most half of the pixels are below `p`, and more than half are not above it. -/
def Middle (l : List (BitVec (8 * b.size))) (p : BitVec (8 * b.size)) : Prop :=
  p ∈ l ∧ l.countP (fun x => PixelLess b x p) ≤ l.length / 2 ∧ l.length / 2 < l.countP fun x => ¬ PixelLess b p x

end Astro.Spec
