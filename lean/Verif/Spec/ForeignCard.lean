import Verif.Spec.Card

/-
Specification vocabulary: value cards as the FITS standard (version 4.0, sections 4.1.2 and 4.2) allows any program to write them.  They
need not look like the cards this library creates: the value may stand anywhere behind the value indicator and the slash in front of the
comment may follow it directly.
-/

namespace Astro.Spec

/-- The 80 bytes of a value card: eight bytes of keyword (without a slash), the value indicator, blanks, the text of the value, `gap` blanks
and possibly a slash and a comment. -/
def ValueCard (raw text : Str) (gap : Nat) (comment : Option Str) : Prop :=
  ∃ keyword lead, keyword.length = 8 ∧ slash ∉ keyword ∧ raw.length = 80 ∧
    raw = keyword ++ b!"= " ++ List.replicate lead 32 ++ text ++ List.replicate gap 32 ++
      (match comment with | none => [] | some c => slash :: c)

/-- There is no comment, or a blank in front of its slash. -/
def Apart (gap : Nat) (comment : Option Str) : Prop := comment = none ∨ 0 < gap

/-- The standard's text of the integer `i`: an optional sign, then the digits `d`; superfluous zeros in front are allowed. -/
def IntegerText (text d : Str) (i : Int) : Prop :=
  AllDigits d ∧ ((text = d ∧ i = positional d) ∨ (text = 43 :: d ∧ i = positional d) ∨ (text = 45 :: d ∧ i = -positional d))

/-- The number an integer value stands for. -/
def numberOf : Val → Option Int
  | .int v => some v.toInt
  | .longlong v => some v.toInt
  | .uint v => some v.toNat
  | .sizeT v => some v.toNat
  | _ => none

/-- Every quote written twice. -/
def doubled : Str → Str
  | [] => []
  | c :: s => if c = 39 then 39 :: 39 :: doubled s else c :: doubled s

/-- The standard's text of the string `x`: between quotes, with the quotes inside doubled. -/
def quoted (x : Str) : Str := 39 :: doubled x ++ [39]

/-- Only the printable bytes the standard allows. -/
def PlainText (x : Str) : Prop := ∀ c ∈ x, 32 ≤ c.toNat ∧ c.toNat ≤ 126

/-- `y` is `x` without the blanks at the end, which have no meaning in strings of the standard. -/
def WithoutTrailing (x y : Str) : Prop := ∃ n, x = y ++ List.replicate n 32 ∧ y.getLast? ≠ some 32

end Astro.Spec
