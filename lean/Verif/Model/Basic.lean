/-
Basic vocabulary of the model: bytes, strings, outcomes, the pieces of the C++
standard library and of Boost that the FITS code uses.
-/

namespace Astro

/-- A C++ `char`, as a byte. -/
abbrev Byte := UInt8

/-- A `std::string`: the list of its bytes. -/
abbrev Str := List UInt8

open Lean in
/-- `b!"abc"` is the byte string literal `[97, 98, 99]`. -/
macro:max "b!" s:str : term => do
  let bytes := s.getString.toUTF8.toList
  let elems ← bytes.mapM fun b => `(($(quote b.toNat) : UInt8))
  `(([ $(elems.toArray),* ] : List UInt8))

/-- How a call can end other than by returning normally.  `ub` is undefined behaviour of the C++
code (reading past the end of a buffer, an empty range handed to `max_element`, ...). -/
inductive Err where
  /-- `boost::astronomy::invalid_card` (exception/fits_exception.hpp) -/
  | invalidCard
  /-- `std::out_of_range` -/
  | outOfRange
  /-- `std::length_error` -/
  | lengthError
  /-- `boost::bad_get` -/
  | badGet
  /-- `boost::astronomy::invalid_cast` -/
  | invalidCast
  /-- `boost::bad_lexical_cast` -/
  | badLexicalCast
  /-- `boost::astronomy::fits_exception` -/
  | fitsException
  /-- `boost::astronomy::column_not_found_exception` -/
  | columnNotFound
  /-- `boost::astronomy::invalid_table_colum_format` -/
  | invalidTableFormat
  /-- undefined behaviour -/
  | ub
  deriving DecidableEq, Repr

/-- Outcome of a call. -/
abbrev Res (α : Type) := Except Err α

instance {α : Type} [DecidableEq α] : DecidableEq (Res α)
  | .ok a, .ok b => if h : a = b then isTrue (by rw [h]) else isFalse (by intro h'; cases h'; exact h rfl)
  | .error a, .error b => if h : a = b then isTrue (by rw [h]) else isFalse (by intro h'; cases h'; exact h rfl)
  | .ok _, .error _ => isFalse (by intro h; cases h)
  | .error _, .ok _ => isFalse (by intro h; cases h)

/-- `2^64`, the number of values of `std::size_t`. -/
def sizeMod : Nat := 18446744073709551616

/-- `std::string::npos`. -/
def npos : Nat := sizeMod - 1

/-- `a - b` on `std::size_t` (wraps around). -/
def szSub (a b : Nat) : Nat := (a + (sizeMod - b)) % sizeMod

/-- `n` spaces: `std::string(n, ' ')`. -/
def spaces (n : Nat) : Str := List.replicate n 32

/-- The count in `std::string(n, ' ')`, `append(n, ' ')`, `insert(0, n, ' ')` where `n` is the `std::size_t`
difference `total - len`.  When `len > total` the difference wraps to at least `2^64 - len`, which is more than
`max_size()` (`< 2^63`) for every string that can exist, and the call throws `std::length_error`. -/
def padCount (total len : Nat) : Res Nat :=
  if len ≤ total then .ok (total - len) else .error .lengthError

/-- `s.substr(pos, n)`: throws `std::out_of_range` when `pos > size`. -/
def substr (s : Str) (pos n : Nat) : Res Str :=
  if s.length < pos then .error .outOfRange else .ok ((s.drop pos).take n)

/-- `s.find(c)`: index of the first occurrence or `npos`. -/
def findByte (s : Str) (c : Byte) : Nat :=
  match s.findIdx? (· == c) with
  | some i => i
  | none => npos

/-- `std::isspace` in the C locale: space, `\t`, `\n`, `\v`, `\f`, `\r`. -/
def isSpace (c : Byte) : Bool := c == 32 || (9 ≤ c && c ≤ 13)

/-- Remove leading white space. -/
def trimL (s : Str) : Str := s.dropWhile isSpace

/-- Remove trailing white space. -/
def trimR (s : Str) : Str := (s.reverse.dropWhile isSpace).reverse

/-- `boost::algorithm::trim_copy`. -/
def trim (s : Str) : Str := trimR (trimL s)

/-- Is the byte an ASCII decimal digit? -/
def isDigit (c : Byte) : Bool := 48 ≤ c && c ≤ 57

/-- The ASCII digit of `d` (for `d < 10`). -/
def digitByte (d : Nat) : Byte := UInt8.ofNat (48 + d)

/-- Decimal digits of a natural number, with fuel. -/
def showNatAux : Nat → Nat → Str
  | 0, _ => []
  | f + 1, n => if n < 10 then [digitByte n] else showNatAux f (n / 10) ++ [digitByte (n % 10)]

/-- What `std::to_string` / `operator<<` print for an unsigned integer. -/
def showNat (n : Nat) : Str := showNatAux (n + 1) n

/-- What `std::to_string` / `operator<<` print for a signed integer. -/
def showInt (i : Int) : Str :=
  if i < 0 then 45 :: showNat i.natAbs else showNat i.natAbs

/-- Value of a non-empty string of decimal digits (`lcast_ret_unsigned::convert` of Boost.LexicalCast
before the overflow test). -/
def parseNat (s : Str) : Option Nat :=
  if s.isEmpty then none
  else s.foldlM (fun a c => if isDigit c then some (a * 10 + (c.toNat - 48)) else none) 0

/-- `boost::lexical_cast<T>(std::string)` for a signed integer type of `w` bits: optional sign, then digits, and
the value must fit. -/
def lexSigned (w : Nat) (s : Str) : Res (BitVec w) :=
  match s with
  | [] => .error .badLexicalCast
  | c :: r =>
    if c = 45 then
      match parseNat r with
      | some n => if n ≤ 2 ^ (w - 1) then .ok (BitVec.ofInt w (-(n : Int))) else .error .badLexicalCast
      | none => .error .badLexicalCast
    else
      match parseNat (if c = 43 then r else s) with
      | some n => if n < 2 ^ (w - 1) then .ok (BitVec.ofInt w n) else .error .badLexicalCast
      | none => .error .badLexicalCast

/-- `boost::lexical_cast<T>(std::string)` for an unsigned integer type of `w` bits: an optional sign is
accepted, `-n` gives `2^w - n`. -/
def lexUnsigned (w : Nat) (s : Str) : Res (BitVec w) :=
  match s with
  | [] => .error .badLexicalCast
  | c :: r =>
    match parseNat (if c = 45 ∨ c = 43 then r else s) with
    | some n =>
      if n < 2 ^ w then .ok (if c = 45 then -BitVec.ofNat w n else BitVec.ofNat w n)
      else .error .badLexicalCast
    | none => .error .badLexicalCast

/-- Decimal text of binary floating point numbers.  Printing (`operator<<`) and scanning
(`lexical_cast`) of `float`/`double` enter as arbitrary functions; theorems hold for all of them unless they
name `ieeeText` (Model/Float).  A `float` is its 32-bit pattern, a `double` its 64-bit pattern. -/
structure FloatText where
  show32 : BitVec 32 → Str
  parse32 : Str → Option (BitVec 32)
  show64 : BitVec 64 → Str
  parse64 : Str → Option (BitVec 64)

end Astro
