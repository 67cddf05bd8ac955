import Mathlib.Data.Int.Log
import Mathlib.Data.Rat.Floor
import Verif.Model.Basic
import Verif.Model.View

/-
Decimal text of binary floating point numbers: what `ostream << double` prints (default_card_policy.hpp l.144-154, string_conversion_utility.hpp
l.49-61) and what `boost::lexical_cast<double>` reads (string_conversion_utility.hpp l.34-42).  libstdc++ on glibc: printing is `%g` with six digits,
scanning is `strtod`, both correctly rounded to nearest, ties to even.
-/

namespace Astro

/-- The integer closest to `x`, the even one of two. -/
def roundEven (x : ℚ) : ℤ :=
  if x - ⌊x⌋ < 1 / 2 then ⌊x⌋
  else if 1 / 2 < x - ⌊x⌋ then ⌊x⌋ + 1
  else if 2 ∣ ⌊x⌋ then ⌊x⌋ else ⌊x⌋ + 1

/-- `n` in decimal with at least `w` digits. -/
def zeroPad (w n : Nat) : Str := List.replicate (w - (showNat n).length) 48 ++ showNat n

/-- An IEEE 754 interchange format: bits of the fraction and bits of the exponent.  A sign bit comes on top. -/
structure FloatFmt where
  frac : Nat
  expo : Nat

namespace FloatFmt

/-- `float` -/
def single : FloatFmt := ⟨23, 8⟩

/-- `double` -/
def double : FloatFmt := ⟨52, 11⟩

/-- Place of the sign bit. -/
def signBit (f : FloatFmt) : Nat := 2 ^ (f.frac + f.expo)

/-- The bits of infinity; smaller magnitudes are numbers, larger ones NaNs. -/
def infinity (f : FloatFmt) : Nat := (2 ^ f.expo - 1) * 2 ^ f.frac

/-- Exponent of the smallest positive number. -/
def lowest (f : FloatFmt) : ℤ := 2 - 2 ^ (f.expo - 1) - f.frac

/-- The value of the magnitude bits `n`, in units of the smallest positive number. -/
def units (f : FloatFmt) (n : Nat) : Nat :=
  if n / 2 ^ f.frac = 0 then n else (2 ^ f.frac + n % 2 ^ f.frac) * 2 ^ (n / 2 ^ f.frac - 1)

/-- The value of the magnitude bits `n`. -/
def value (f : FloatFmt) (n : Nat) : ℚ := f.units n * 2 ^ f.lowest

/-- The magnitude bits of the number nearest to `q ≥ 0`, ties to even; nothing when that would be infinity (libstdc++ makes the scan fail then). -/
def nearest (f : FloatFmt) (q : ℚ) : Option Nat :=
  let y := q / 2 ^ f.lowest
  let k := Nat.log 2 ⌊y⌋₊ - f.frac
  let n := (roundEven (y / 2 ^ k)).toNat + k * 2 ^ f.frac
  if n < f.infinity then some n else none

end FloatFmt

/-- Six significant digits: `(d, x)` with `10^5 ≤ d < 10^6` stands for `d * 10^(x-5)`. -/
def sixDigits (v : ℚ) : Nat × ℤ :=
  let x := Int.log 10 v
  let d := (roundEven (v / 10 ^ (x - 5))).toNat
  if d = 1000000 then (100000, x + 1) else (d, x)

/-- Digits behind the point without the trailing zeros, and no point when nothing is left. -/
def fraction (s : Str) : Str :=
  match (s.reverse.dropWhile (· == 48)).reverse with
  | [] => []
  | t => 46 :: t

/-- `%g`: the number `v ≥ 0` with six significant digits. -/
def showG (v : ℚ) : Str :=
  if v = 0 then b!"0"
  else
    let (d, x) := sixDigits v
    let s := showNat d
    if x < -4 ∨ 6 ≤ x then
      s.take 1 ++ fraction (s.drop 1) ++ b!"e" ++ (if x < 0 then b!"-" else b!"+") ++ zeroPad 2 x.natAbs
    else if x < 0 then b!"0" ++ fraction (List.replicate (x.natAbs - 1) 48 ++ s)
    else s.take (x.toNat + 1) ++ fraction (s.drop (x.toNat + 1))

/-- `ostream << x` for the bits `b` of a floating point number (a `float` is printed as a `double`, with the same result). -/
def showFloat (f : FloatFmt) (b : Nat) : Str :=
  let m := b % f.signBit
  (if f.signBit ≤ b then b!"-" else []) ++
    (if m < f.infinity then showG (f.value m) else if m = f.infinity then b!"inf" else b!"nan")

/-- Optional sign in front of a number: is it minus, and the rest. -/
def takeSign : Str → Bool × Str
  | [] => (false, [])
  | c :: r => if c = 45 then (true, r) else if c = 43 then (false, r) else (false, c :: r)

/-- Part of a decimal numeral behind the mantissa: nothing, or `e` and an integer. -/
def scanExponent : Str → Option ℤ
  | [] => some 0
  | c :: r =>
    if c = 101 ∨ c = 69 then
      match parseNat (takeSign r).2 with
      | some n => some (if (takeSign r).1 then -(n : ℤ) else n)
      | none => none
    else none

/-- Decimal numeral without sign: digits, point, digits, exponent. -/
def scanUnsigned (s : Str) : Option ℚ :=
  let a := s.takeWhile isDigit
  let r := s.dropWhile isDigit
  let b := match r with
    | [] => []
    | c :: t => if c = 46 then t.takeWhile isDigit else []
  let r' := match r with
    | [] => []
    | c :: t => if c = 46 then t.dropWhile isDigit else c :: t
  match parseNat (a ++ b), scanExponent r' with
  | some n, some e => some (n * 10 ^ (e - b.length))
  | _, _ => none

/-- The bytes of `s` are those of `w` (lower case) in either case: lc_iequal of Boost.LexicalCast. -/
def sameLetters (w s : Str) : Bool := s.length == w.length && (s.zip w).all fun p => p.1 == p.2 || p.1 + 32 == p.2

/-- parse_inf_nan of Boost.LexicalCast (after the sign): magnitude bits of infinity or of the quiet NaN. -/
def scanSpecial (f : FloatFmt) (s : Str) : Option Nat :=
  if sameLetters b!"inf" s || sameLetters b!"infinity" s then some f.infinity
  else if sameLetters b!"nan" (s.take 3) && (s.length == 3 || (5 ≤ s.length && s[3]? == some 40 && s.getLast? == some 41)) then
    some (f.infinity + 2 ^ (f.frac - 1))
  else none

/-- `boost::lexical_cast` to a floating point type. -/
def scanFloat (f : FloatFmt) (s : Str) : Option Nat :=
  let (neg, r) := takeSign s
  let m := match scanSpecial f r with
    | some m => some m
    | none => match scanUnsigned r with
      | some q => f.nearest q
      | none => none
  m.map fun m => if neg then f.signBit + m else m

/-- The text of floating point numbers as it really is. -/
def ieeeText : FloatText where
  show32 b := showFloat .single b.toNat
  parse32 s := (scanFloat .single s).map (BitVec.ofNat 32)
  show64 b := showFloat .double b.toNat
  parse64 s := (scanFloat .double s).map (BitVec.ofNat 64)

/-- The same for `ascii_converter`. -/
def ieeeStream : StreamText where
  show32 := ieeeText.show32
  show64 := ieeeText.show64

end Astro
