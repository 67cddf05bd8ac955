import Verif.Spec.ForeignCard
import Verif.Spec.FitsAny
import Verif.Spec.Hdu

/-
Specification vocabulary: images in files that other programs wrote, as the FITS standard (version 4.0, sections 3.1, 3.3 and 4.4.1) lays them out.
-/

namespace Astro.Spec

/-- The least multiple of 2880 that is not below `n`: units of a standard file are filled up to there, which may mean not at all. -/
def roundUp (n : Nat) : Nat := (n + 2879) / 2880 * 2880

/-- The (last) card with keyword `key` has the value `text`, and no slash directly behind it. -/
def Says (cards : List Str) (key text : Str) : Prop :=
  ∃ i raw gap comment, LastWith cards key i ∧ cards[i]? = some raw ∧ ValueCard raw text gap comment ∧ Apart gap comment

/-- The card with keyword `key` says the integer `i`. -/
def SaysInteger (cards : List Str) (key : Str) (i : Int) : Prop := ∃ text d, Says cards key text ∧ IntegerText text d i

/-- The cards of any header: 80 bytes each, END at the end, pixel type and axes as the standard wants them. -/
structure ShapeCards (cards : List Str) (b : Bitpix) (axes : List Nat) : Prop where
  size : ∀ r ∈ cards, r.length = 80 ∧ RawOk r
  last : ∃ l e, cards = l ++ [e] ∧ IsEnd e ∧ ∀ r ∈ l, ¬ IsEnd r
  bitpix : ∃ i, SaysInteger cards b!"BITPIX" i ∧ BitpixValue b i
  naxis : SaysInteger cards b!"NAXIS" axes.length ∧ axes.length ≤ 999
  axis : ∀ (j a : Nat) (d : Str), axes[j]? = some a → IsNat d (j + 1) → SaysInteger cards (b!"NAXIS" ++ d) a ∧ a < 2 ^ 64

/-- The cards of a primary header with an image. -/
structure ImageCards (cards : List Str) (b : Bitpix) (axes : List Nat) : Prop extends ShapeCards cards b axes where
  simple : Says cards b!"SIMPLE" b!"T"
  noXtension : Absent cards b!"XTENSION"

/-- How many pixels there are. -/
def pixelCount (axes : List Nat) : Nat := if axes = [] then 0 else axes.foldr (· * ·) 1

/-- A file that consists of one primary HDU, as the standard has it. -/
def ImageFile (content : Str) (cards : List Str) (data : Str) : Prop :=
  ∃ fill tail, content = cards.flatten ++ fill ++ data ++ tail ∧ 80 * cards.length + fill.length = roundUp (80 * cards.length) ∧
    data.length + tail.length = roundUp data.length

end Astro.Spec
