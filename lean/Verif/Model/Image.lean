import Verif.Model.Convert
import Verif.Model.Bitpix
import Mathlib.Algebra.Order.Ring.Rat
import Mathlib.Analysis.Real.Sqrt

/-
io/image.hpp.
-/

namespace Astro

/-- The converter call of read_image, image.hpp l.209: `deserialize_to` of the pixel type of `bitpix_type` (bitpix.hpp l.62-85).
The pixel type of B8 is `int8_t`, which has no specialisation in the converter, so the generic template (binary_data_converter.hpp
l.195-198) is used. -/
def Bitpix.decode (b : Bitpix) (s : Str) : Res (BitVec (8 * b.size)) :=
  match b with
  | .B8 => Bin.toDefault 1 s 0
  | .B16 => Bin.elementToNumeric 2 s
  | .B32 => Bin.elementToNumeric 4 s
  | .F32 => Bin.elementToNumeric 4 s
  | .F64 => Bin.elementToNumeric 8 s

/-- image<bitpix, Converter> with its base image_buffer, image.hpp l.30-34, l.190.  `width`/`height` are `none` while the member is
uninitialised. -/
structure Image (b : Bitpix) where
  data : List (BitVec (8 * b.size))
  width : Option Nat
  height : Option Nat

namespace Image

variable {b : Bitpix}

/-- `image<b, Converter> x;` : the constructor of the base, image.hpp l.53, initialises nothing but `data_`. -/
def declared : Image b := ⟨[], none, none⟩

/-- `image<b, Converter>()`, primary_hdu.hpp l.139-151, image_extension.hpp: value-initialisation, zero before the constructor runs. -/
def fresh : Image b := ⟨[], some 0, some 0⟩

/-- image_buffer(width, height), image.hpp l.60-63: `valarray::resize` sets all elements to `PixelType()`. -/
def sized (w h : Nat) : Image b := ⟨List.replicate (w * h) 0, some w, some h⟩

/-- The loop of read_image, image.hpp l.207-211, for `n` remaining elements; `buf` starts at `raw_data_iter`. -/
def readLoop (b : Bitpix) : Nat → Str → Res (List (BitVec (8 * b.size)))
  | 0, _ => .ok []
  | n + 1, buf =>
    if buf.length < b.size then .error .ub
    else do
      let p ← b.decode (buf.take b.size)
      let r ← readLoop b n (buf.drop b.size)
      return p :: r

/-- read_image, image.hpp l.198-213. -/
def readImage (img : Image b) (buf : Str) : Res (Image b) :=
  if buf.isEmpty then .ok img
  else do
    let d ← readLoop b (buf.length / b.size) buf
    return { img with data := d }

/-- write_image, image.hpp l.218-232. -/
def writeImage (img : Image b) : Str :=
  if img.data.length ≠ 0 then img.data.foldl (fun a e => a ++ Bin.serialize b.size e) [] else []

/-- operator()(x, y), image.hpp l.147-150; reading an uninitialised width or an element out of range is undefined. -/
def pixel (img : Image b) (x y : Nat) : Res (BitVec (8 * b.size)) :=
  match img.width with
  | none => .error .ub
  | some w =>
    match img.data[x * w + y]? with
    | some p => .ok p
    | none => .error .ub

end Image

/-! ### statistics

`data` are the pixel values as rational numbers; rounding is not modelled. -/

namespace Stats

/-- max(), image.hpp l.74-77: `valarray::max` (undefined on an empty array). -/
def max : List ℚ → Res ℚ
  | [] => .error .ub
  | x :: t => .ok (t.foldl (fun m y => if m < y then y else m) x)

/-- min(), image.hpp l.83-86. -/
def min : List ℚ → Res ℚ
  | [] => .error .ub
  | x :: t => .ok (t.foldl (fun m y => if y < m then y else m) x)

/-- mean(), image.hpp l.93-102. -/
def mean (data : List ℚ) : ℚ :=
  if data.length = 0 then 0 else data.foldl (· + ·) 0 / data.length

/-- median(), image.hpp l.109-116.  `std::nth_element` is replaced by its contract: position `n/2` holds the element a full sort would
put there. -/
def median (data : List ℚ) : Res ℚ :=
  match (data.mergeSort fun a b => decide (a ≤ b))[data.length / 2]? with
  | some x => .ok x
  | none => .error .ub

/-- What std_dev(), image.hpp l.123-140, takes the square root of; `none` is the NaN that `0.0 / 0` gives for a single pixel. -/
def variance (data : List ℚ) : Option ℚ :=
  if data.length = 0 then some 0
  else
    let avg := mean data
    let diff := data.map fun x => x - avg
    let sq := diff.map fun d => d * d
    if data.length - 1 = 0 then none else some (sq.foldl (· + ·) 0 / ((data.length - 1 : Nat) : ℚ))

/-- std_dev(), image.hpp l.123-140. -/
noncomputable def stdDev (data : List ℚ) : Option ℝ := (variance data).map fun v => Real.sqrt (v : ℝ)

end Stats

end Astro
