import Verif.Model.Basic

/-
io/binary_data_converter.hpp: conversion between the bytes of a binary table (or image) and numbers.

The host is little-endian (x86); `big_to_native` and `native_to_big` are then byte reversals.
Floats are bit patterns.  A value of `w` bytes is a `BitVec (8 * w)`.
A C string `s.c_str()` has `s.length + 1` readable bytes, the last one zero; reading further is undefined
behaviour.  The alignment / aliasing side conditions of the `reinterpret_cast`s are not modelled.
-/

namespace Astro.Bin

/-- The bytes of a number in memory of a little-endian host (`memcpy` out of a variable). -/
def storeNative (w : Nat) (v : BitVec (8 * w)) : Str :=
  (List.range w).map fun i => UInt8.ofNat (v.toNat / 256 ^ i % 256)

/-- Little-endian value of some bytes. -/
def leValue (s : Str) : Nat := s.foldr (fun b a => b.toNat + 256 * a) 0

/-- The number whose memory on a little-endian host is `s` (`memcpy` into a variable). -/
def loadNative (w : Nat) (s : Str) : BitVec (8 * w) := BitVec.ofNat _ (leValue s)

/-- `boost::endian::endian_reverse`, which is `big_to_native` and `native_to_big` on this host. -/
def swap (w : Nat) (v : BitVec (8 * w)) : BitVec (8 * w) := loadNative w (storeNative w v).reverse

/-- The bytes that can be read through `s.c_str()`. -/
def cstr (s : Str) : Str := s ++ [0]

/-- The `w` bytes at offset `off` of `s.c_str()`. -/
def peek (w : Nat) (s : Str) (off : Nat) : Res Str :=
  if off + w ≤ (cstr s).length then .ok (((cstr s).drop off).take w) else .error .ub

/-- element_to_numeric, binary_data_converter.hpp l.65-73. -/
def elementToNumeric (w : Nat) (s : Str) : Res (BitVec (8 * w)) := do
  let b ← peek w s 0
  return swap w (loadNative w b)

/-- The loop of elements_to_numeric_collection, l.91-100: elements `i .. i+n-1`. -/
def numericLoop (w : Nat) (s : Str) : Nat → Nat → Res (List (BitVec (8 * w)))
  | _, 0 => .ok []
  | i, n + 1 => do
    let b ← peek w s (i * w)
    let r ← numericLoop w s (i + 1) n
    return swap w (loadNative w b) :: r

/-- elements_to_numeric_collection, l.82-103. -/
def elementsToNumeric (w : Nat) (s : Str) (n : Nat) : Res (List (BitVec (8 * w))) := numericLoop w s 0 n

/-- element_to_complex, l.111-125. -/
def elementToComplex (w : Nat) (s : Str) : Res (BitVec (8 * w) × BitVec (8 * w)) := do
  let re ← peek w s 0
  let im ← peek w s w
  return (swap w (loadNative w re), swap w (loadNative w im))

/-- The loop of elements_to_complex_collection, l.143-149; `off` is `starting_offset`. -/
def complexLoop (w : Nat) (s : Str) : Nat → Nat → Res (List (BitVec (8 * w) × BitVec (8 * w)))
  | _, 0 => .ok []
  | off, n + 1 => do
    let raw ← peek (w * 2) s off
    let c ← elementToComplex w raw
    let r ← complexLoop w s (off + w * 2) n
    return c :: r

/-- elements_to_complex_collection, l.134-152. -/
def elementsToComplex (w : Nat) (s : Str) (n : Nat) : Res (List (BitVec (8 * w) × BitVec (8 * w))) :=
  complexLoop w s 0 n

/-- element_to_byte, l.159-162: `lexical_cast` to a character type wants exactly one character. -/
def elementToByte (s : Str) : Res Byte :=
  match s with
  | [c] => .ok c
  | _ => .error .badLexicalCast

/-- elements_to_byte_collection, l.170-175. -/
def elementsToByte (s : Str) (n : Nat) : Res Str :=
  if n ≤ s.length then .ok (s.take n) else .error .ub

/-- Is the byte a quote or a blank? -/
def quoteOrBlank (c : Byte) : Bool := c == 39 || c == 32

/-- `boost::trim_copy_if(s, c == '\'' || c == ' ')`. -/
def trimQuotes (s : Str) : Str := ((s.dropWhile quoteOrBlank).reverse.dropWhile quoteOrBlank).reverse

/-- element_count, l.181-189 (and the identical basic_binary_table_extension::element_count, binary_table.hpp l.171-180). -/
def elementCount (format : Str) : Res Nat :=
  let form := trimQuotes format
  if 1 < form.length then (lexUnsigned 64 (form.take (form.length - 1))).map BitVec.toNat else .ok 1

/-- serialize, generic case, l.205-218: bytes of the byte-reversed value. -/
def serialize (w : Nat) (v : BitVec (8 * w)) : Str := storeNative w (swap w v)

/-- serialize for a pair, l.223-226, and for a complex number, l.231-236. -/
def serializePair (w : Nat) (p : BitVec (8 * w) × BitVec (8 * w)) : Str := serialize w p.1 ++ serialize w p.2

/-- serialize for a vector, l.241-249. -/
def serializeAll {α : Type} (f : α → Str) (l : List α) : Str := l.foldl (fun a x => a ++ f x) []

/-- deserialize_to<bool>, l.261-264 (`element[0]` of an empty `const` string is the terminating zero). -/
def toBool (s : Str) (_ : Nat) : Res Bool := .ok ((cstr s).head? == some 84)

/-- deserialize_to<vector<bool>>, l.265-272. -/
def toBools (s : Str) (_ : Nat) : Res (List Bool) := .ok (s.map (· == 84))

/-- deserialize_to<pair<int32,int32>>, l.313-320. -/
def toPair (s : Str) : Res (BitVec 32 × BitVec 32) := do
  let x ← peek 4 s 0
  let y ← peek 4 s 4
  return (swap 4 (loadNative 4 x), swap 4 (loadNative 4 y))

/-- The loop of deserialize_to<vector<pair<int32,int32>>>, l.325-332: pair `i` is made of words `i` and `i+1`. -/
def pairLoop (s : Str) : Nat → Nat → Res (List (BitVec 32 × BitVec 32))
  | _, 0 => .ok []
  | i, n + 1 => do
    let x ← peek 4 s (i * 4)
    let y ← peek 4 s ((i + 1) * 4)
    let r ← pairLoop s (i + 1) n
    return (swap 4 (loadNative 4 x), swap 4 (loadNative 4 y)) :: r

/-- deserialize_to<vector<pair<int32,int32>>>, l.321-334. -/
def toPairs (s : Str) (n : Nat) : Res (List (BitVec 32 × BitVec 32)) := pairLoop s 0 n

/-- serialize<bool>, l.372-375. -/
def serializeBool (b : Bool) : Str := if b then [84] else [70]

/-- serialize<vector<bool>>, l.377-384. -/
def serializeBools (l : List Bool) : Str := l.map fun b => if b then 84 else 70

/-- deserialize_to<T> without a specialisation, l.195-198 (for instance `int8_t`): a value-initialised object. -/
def toDefault (w : Nat) (_ : Str) (_ : Nat) : Res (BitVec (8 * w)) := .ok 0

end Astro.Bin
