import Verif.Spec.Bytes
import Verif.Spec.Card

/-
Specification of table layouts, without reference to the table code.
-/

namespace Astro.Spec

/-- The `w` bytes of `buf` from offset `off` on are `s`. -/
def Field (buf : Str) (off w : Nat) (s : Str) : Prop := ∃ a b, buf = a ++ s ++ b ∧ a.length = off ∧ s.length = w

/-- `w` is the width of an ASCII table format such as `'F7.2    '`: a letter, then the width up to a dot or the end.  (A format that
begins with the dot has all the rest as its width.) -/
def AsciiWidth (format : Str) (w : Nat) : Prop :=
  ∃ form, IsUnquoted format form ∧
    ((∃ letter digits tail, form = letter :: (digits ++ tail) ∧ letter ≠ 46 ∧ 46 ∉ digits ∧ (tail = [] ∨ tail.head? = some 46) ∧
      UnsignedText digits w) ∨
    (∃ digits, form = 46 :: digits ∧ UnsignedText digits w))

/-- Bytes per element of the binary table type letters L, X, B, A, I, J, E, D, C, P, M. -/
def LetterSize (letter : Byte) (size : Nat) : Prop :=
  (letter ∈ b!"LXBA" ∧ size = 1) ∨ (letter = 73 ∧ size = 2) ∨ (letter ∈ b!"JE" ∧ size = 4) ∨
  (letter ∈ b!"DCP" ∧ size = 8) ∨ (letter = 77 ∧ size = 16)

/-- `w` is the width of a binary table format such as `'12J'`: the repeat count (1 when absent) times the size of the type. -/
def BinWidth (format : Str) (w : Nat) : Prop :=
  ∃ form count letter n size, IsUnquoted format form ∧ form = count ++ [letter] ∧ ((count = [] ∧ n = 1) ∨ UnsignedText count n) ∧
    LetterSize letter size ∧ w = n * size % 2 ^ 64

/-- Where number `j` of some fields of the given widths begins when they follow each other without gaps. -/
def fieldStart (ws : List Nat) (j : Nat) : Nat := (ws.take j).sum

/-- `ws` are the widths of the formats, one for each. -/
def Widths (W : Str → Nat → Prop) : List Str → List Nat → Prop
  | [], [] => True
  | f :: fs, w :: ws => W f w ∧ Widths W fs ws
  | _, _ => False

end Astro.Spec
