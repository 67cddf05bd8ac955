import Verif.Model.Float
import Verif.Model.Image
import Verif.Model.Stream
import Mathlib.Data.Nat.Sqrt

/-
The statistics of image_buffer (io/image.hpp) on the pixels themselves, in IEEE double arithmetic (round to nearest, ties to even).
-/

namespace Astro

/-- A `double`: a number, an infinity (negative or not) or a NaN.  The sign of zero is not kept; no function of image.hpp looks at it. -/
inductive Dbl where
  | num (x : ℚ)
  | inf (neg : Bool)
  | nan
  deriving DecidableEq

namespace Dbl

/-- The double with this sign and these magnitude bits; infinity when there are none. -/
def ofBits (neg : Bool) : Option Nat → Dbl
  | some n => num (if neg then -FloatFmt.double.value n else FloatFmt.double.value n)
  | none => inf neg

/-- The double closest to `q`, or infinity. -/
def round (q : ℚ) : Dbl := ofBits (decide (q < 0)) (FloatFmt.double.nearest |q|)

/-- `a + b` -/
def add : Dbl → Dbl → Dbl
  | num x, num y => round (x + y)
  | inf a, inf b => if a = b then inf a else nan
  | inf a, num _ => inf a
  | num _, inf b => inf b
  | nan, _ => nan
  | _, nan => nan

/-- `-a` -/
def neg : Dbl → Dbl
  | num x => num (-x)
  | inf a => inf (!a)
  | nan => nan

/-- `a - b` -/
def sub (a b : Dbl) : Dbl := add a (neg b)

/-- `a * b` -/
def mul : Dbl → Dbl → Dbl
  | num x, num y => round (x * y)
  | inf a, inf b => inf (a != b)
  | inf a, num y => if y = 0 then nan else inf (a != decide (y < 0))
  | num x, inf b => if x = 0 then nan else inf (decide (x < 0) != b)
  | nan, _ => nan
  | _, nan => nan

/-- `a / b` for a number `b` that is not negative zero. -/
def div : Dbl → Dbl → Dbl
  | num x, num y => if y = 0 then (if x = 0 then nan else inf (decide (x < 0))) else round (x / y)
  | inf a, num y => inf (a != decide (y < 0))
  | num _, inf _ => num 0
  | inf _, inf _ => nan
  | nan, _ => nan
  | _, nan => nan

/-- `std::sqrt`: the double closest to the root (IEEE 754 has it correctly rounded).  The root is located between multiples of 2^-1075, the
spacing of the points half way between doubles. -/
def sqrt : Dbl → Dbl
  | num x =>
    if x < 0 then nan
    else
      let y := x * 4 ^ 1075
      let s := Nat.sqrt ⌊y⌋₊
      round ((if (s : ℚ) * s = y then (s : ℚ) else s + 1 / 2) / 2 ^ 1075)
  | inf true => nan
  | inf false => inf false
  | nan => nan

/-- Conversion from `std::size_t`. -/
def ofNat (n : Nat) : Dbl := round n

end Dbl

/-- The number that the bits of a `float` or `double` stand for (a `float` is converted to `double` without change). -/
def FloatFmt.number (f : FloatFmt) (b : Nat) : Dbl :=
  let m := b % f.signBit
  if m < f.infinity then .num (if f.signBit ≤ b then -f.value m else f.value m)
  else if m = f.infinity then .inf (decide (f.signBit ≤ b)) else .nan

/-- `a < b` for `double`s. -/
def Dbl.less : Dbl → Dbl → Bool
  | .num x, .num y => decide (x < y)
  | .num _, .inf b => !b
  | .inf a, .num _ => a
  | .inf a, .inf b => a && !b
  | .nan, _ => false
  | _, .nan => false

/-- The value of a pixel, bitpix.hpp l.62-85. -/
def Bitpix.number (b : Bitpix) (p : BitVec (8 * b.size)) : Dbl :=
  match b with
  | .F32 => FloatFmt.single.number p.toNat
  | .F64 => FloatFmt.double.number p.toNat
  | .B8 | .B16 | .B32 => .num p.toInt

namespace Image

variable {b : Bitpix}

/-- max(), image.hpp l.74-77: `valarray::max` is `*std::max_element`, undefined on an empty array. -/
def max (img : Image b) : Res (BitVec (8 * b.size)) :=
  match img.data with
  | [] => .error .ub
  | x :: t => .ok (t.foldl (fun m y => if (b.number m).less (b.number y) then y else m) x)

/-- min(), image.hpp l.83-86. -/
def min (img : Image b) : Res (BitVec (8 * b.size)) :=
  match img.data with
  | [] => .error .ub
  | x :: t => .ok (t.foldl (fun m y => if (b.number y).less (b.number m) then y else m) x)

/-- mean(), image.hpp l.93-102. -/
def mean (img : Image b) : Dbl :=
  if img.data.length = 0 then .num 0
  else (img.data.foldl (fun s p => Dbl.add s (b.number p)) (Dbl.num 0)).div (.ofNat img.data.length)

/-- What std_dev(), image.hpp l.123-139, takes the square root of.  `diff *= diff` multiplies element by element, `valarray::sum` adds from the left. -/
def variance (img : Image b) : Dbl :=
  if img.data.length = 0 then .num 0
  else
    let avg := img.mean
    let diff := img.data.map fun p => (b.number p).sub avg
    let diff := diff.map fun d => d.mul d
    (diff.foldl Dbl.add (Dbl.num 0)).div (.ofNat (img.data.length - 1))

/-- std_dev(), image.hpp l.123-140. -/
def stdDev (img : Image b) : Dbl :=
  if img.data.length = 0 then .num 0 else img.variance.sqrt

end Image

end Astro
