import Verif.Model.Stats
import Verif.Spec.Float
import Verif.Model.Time

/-
What the statistics of an image should be.
-/

namespace Astro.Spec

/-- `m` is the double closest to `q`, the even one of two. -/
def Rounded (q m : ℚ) : Prop :=
  ∃ n, Closest .double |q| n ∧ Magnitude .double n |m| ∧ (0 ≤ q → 0 ≤ m) ∧ (q ≤ 0 → m ≤ 0)

/-- The pixels of an image of integers. -/
def Integers {b : Bitpix} (img : Image b) (l : List ℤ) : Prop :=
  (b = .B8 ∨ b = .B16 ∨ b = .B32) ∧ l = img.data.map fun p => p.toInt

/-- The first largest pixel that is not a NaN. -/
def FirstLargest {b : Bitpix} (less : BitVec (8 * b.size) → BitVec (8 * b.size) → Prop) (nan : BitVec (8 * b.size) → Prop)
    (l : List (BitVec (8 * b.size))) (m : BitVec (8 * b.size)) : Prop :=
  ∃ pre post, l = pre ++ m :: post ∧ ¬ nan m ∧ (∀ p ∈ pre, nan p ∨ less p m) ∧ ∀ p ∈ post, ¬ less m p

/-- The mean of numbers. -/
def average (l : List ℚ) : ℚ := l.sum / l.length

/-- The sample variance of numbers. -/
def sampleVariance (l : List ℚ) : ℚ := (l.map fun x => (x - average l) ^ 2).sum / (l.length - 1)

/-- The bits of a floating point number stand for `x`. -/
def Stands (f : FloatFmt) (b : Nat) (x : ℚ) : Prop := ∃ neg n y, b = signed f neg n ∧ Magnitude f n y ∧ x = if neg then -y else y

/-- The bits are those of an infinity. -/
def IsInfinite (f : FloatFmt) (neg : Bool) (b : Nat) : Prop := b = signed f neg ((2 ^ f.expo - 1) * 2 ^ f.frac)

/-- The bits are those of a NaN. -/
def NotANumber (f : FloatFmt) (b : Nat) : Prop :=
  ∃ neg n, b = signed f neg n ∧ n < 2 ^ (f.frac + f.expo) ∧ (2 ^ f.expo - 1) * 2 ^ f.frac < n

/-- Format of the pixels of a floating point image. -/
def pixelFormat : Bitpix → Option FloatFmt
  | .F32 => some .single
  | .F64 => some .double
  | .B8 | .B16 | .B32 => none

/-- A pixel has the value `x`. -/
def PixelValue (b : Bitpix) (p : BitVec (8 * b.size)) (x : ℚ) : Prop :=
  match pixelFormat b with
  | some f => Stands f p.toNat x
  | none => x = p.toInt

/-- A pixel is an infinity. -/
def PixelInfinite (b : Bitpix) (neg : Bool) (p : BitVec (8 * b.size)) : Prop := ∃ f, pixelFormat b = some f ∧ IsInfinite f neg p.toNat

/-- A pixel is a NaN. -/
def PixelNaN (b : Bitpix) (p : BitVec (8 * b.size)) : Prop := ∃ f, pixelFormat b = some f ∧ NotANumber f p.toNat

/-- The values of the pixels of an image, all of them numbers. -/
def Values {b : Bitpix} (img : Image b) (l : List ℚ) : Prop := List.Forall₂ (PixelValue b) img.data l

/-- Order of pixels: numbers as usual, between the infinities. -/
def PixelLess (b : Bitpix) (p q : BitVec (8 * b.size)) : Prop :=
  (∃ x y, PixelValue b p x ∧ PixelValue b q y ∧ x < y) ∨ (∃ x, PixelValue b p x ∧ PixelInfinite b false q) ∨
    (∃ y, PixelInfinite b true p ∧ PixelValue b q y) ∨ (PixelInfinite b true p ∧ PixelInfinite b false q)

end Astro.Spec
