import Verif.Spec.ForeignFile
import Verif.Spec.Table

/-
Specification vocabulary: tables in files that other programs wrote, as the FITS standard (version 4.0, sections 7.2 and 7.3) describes them.
-/

namespace Astro.Spec

/-- The card with keyword `key` says the string `x`: between quotes, possibly with blanks behind it; there is no quote and no slash in it. -/
def SaysString (cards : List Str) (key x : Str) : Prop :=
  ∃ n, Says cards key (quoted (x ++ List.replicate n 32)) ∧ PlainText x ∧ slash ∉ x ∧ 39 ∉ x ∧ x.head? ≠ some 32 ∧ x.getLast? ≠ some 32

/-- There is no card with that keyword, or it says a string. -/
def MaySayString (cards : List Str) (key : Str) : Prop := Absent cards key ∨ ∃ x, SaysString cards key x

/-- The optional cards about column `d`; there is no card whose keyword is the name of the column. -/
structure ColumnNotes (F : FloatText) (cards : List Str) (d : Str) : Prop where
  ttype : Absent cards (b!"TTYPE" ++ d) ∨ ∃ x, SaysString cards (b!"TTYPE" ++ d) x ∧ Absent cards x
  tunit : MaySayString cards (b!"TUNIT" ++ d)
  tscal : Optional F cards (b!"TSCAL" ++ d) .double
  tzero : Optional F cards (b!"TZERO" ++ d) .double

/-- The cards of a table: kind, `rows` rows of `rowLen` bytes, `heap` bytes behind them and `fields` columns. -/
structure ForeignTable (cards : List Str) (kind : Str) (rowLen rows heap fields : Nat) : Prop extends ShapeCards cards .B8 [rowLen, rows] where
  noSimple : Absent cards b!"SIMPLE"
  xtension : SaysString cards b!"XTENSION" kind
  pcount : SaysInteger cards b!"PCOUNT" heap ∧ heap < 2 ^ 31
  gcount : SaysInteger cards b!"GCOUNT" 1
  tfields : SaysInteger cards b!"TFIELDS" fields ∧ fields ≤ 999

/-- The text of a binary format: a repeat count (1 if there is none) and a letter. -/
def FormatText (f : Str) (repeats : Nat) (letter : Byte) : Prop :=
  (f = [letter] ∧ repeats = 1) ∨ ∃ digits, AllDigits digits ∧ f = digits ++ [letter] ∧ repeats = positional digits

/-- Formats of the standard for 64-bit integers (K) and for arrays of variable length (P and Q, followed by the type of the elements and possibly the largest
length). -/
def NewerFormat (f : Str) : Prop :=
  ∃ digits, (digits = [] ∨ AllDigits digits) ∧
    (f = digits ++ b!"K" ∨ ∃ letter ∈ b!"PQ", ∃ type ∈ b!"LXBIJKAEDCM", f = digits ++ [letter, type] ∨ ∃ largest, f = digits ++ [letter, type, 40] ++ largest ++ [41])

/-- How many bytes the standard gives one element of the type: L, B and A one; I two; J and E four; D and C eight; M sixteen. -/
def elementBytes (letter : Byte) : Nat :=
  if letter ∈ b!"LBA" then 1 else if letter = 73 then 2 else if letter ∈ b!"JE" then 4 else if letter ∈ b!"DC" then 8 else 16

/-- The bytes of a field: repeat count times bytes of an element, but eight bits (X) to a byte. -/
def fieldBytes (c : Nat × Byte) : Nat := if c.2 = 88 then (c.1 + 7) / 8 else c.1 * elementBytes c.2

/-- The bytes of the columns. -/
def columnBytes (cols : List (Nat × Byte)) : List Nat := cols.map fieldBytes

/-- The cards of a binary table whose columns have the given repeat counts and types, all of them among the ten above. -/
structure BinaryTableCards (F : FloatText) (cards : List Str) (rowLen rows heap : Nat) (cols : List (Nat × Byte)) : Prop
    extends ForeignTable cards b!"BINTABLE" rowLen rows heap cols.length where
  width : rowLen = (columnBytes cols).sum
  letter : ∀ c ∈ cols, c.2 ∈ b!"LXBAIJEDCM"
  bound : ∀ c ∈ cols, c.1 < 2 ^ 59
  column : ∀ (j : Nat) (c : Nat × Byte) (d : Str), cols[j]? = some c → IsNat d (j + 1) →
    (∃ f, SaysString cards (b!"TFORM" ++ d) f ∧ FormatText f c.1 c.2) ∧ ColumnNotes F cards d ∧
      MaySayString cards (b!"TDISP" ++ d) ∧ MaySayString cards (b!"TDIM" ++ d)

/-- The text of an ASCII format: letter, width, possibly a dot and the number of decimals. -/
def AsciiFormatText (f : Str) (width : Nat) : Prop :=
  ∃ letter digits tail, letter ∈ b!"AIFED" ∧ AllDigits digits ∧ f = letter :: (digits ++ tail) ∧ positional digits = width ∧
    (tail = [] ∨ ∃ decimals, AllDigits decimals ∧ tail = 46 :: decimals)

/-- The cards of an ASCII table whose columns begin at the given places (from 1) and have the given widths. -/
structure AsciiTableCards (F : FloatText) (cards : List Str) (rowLen rows heap : Nat) (cols : List (Nat × Nat)) : Prop
    extends ForeignTable cards b!"TABLE" rowLen rows heap cols.length where
  inside : ∀ c ∈ cols, 1 ≤ c.1 ∧ 1 ≤ c.2 ∧ c.1 - 1 + c.2 ≤ rowLen
  column : ∀ (j : Nat) (c : Nat × Nat) (d : Str), cols[j]? = some c → IsNat d (j + 1) →
    (∃ f, SaysString cards (b!"TFORM" ++ d) f ∧ AsciiFormatText f c.2) ∧ SaysInteger cards (b!"TBCOL" ++ d) c.1 ∧ ColumnNotes F cards d

end Astro.Spec
