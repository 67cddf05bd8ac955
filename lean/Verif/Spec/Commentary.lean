import Verif.Spec.ForeignFiles

/-
Specification vocabulary: cards of other programs that carry no value (FITS standard, version 4.0, sections 4.1.2.1 and 4.4.2.4): COMMENT, HISTORY, blank keywords, and every other
keyword that is not followed by the value indicator, among them CONTINUE (section 4.2.1.2) and the HIERARCH convention.
-/

namespace Astro.Spec

/-- The bytes of which keywords consist: capital letters, digits, hyphen and underscore. -/
def KeywordByte (c : Byte) : Prop := (65 ≤ c.toNat ∧ c.toNat ≤ 90) ∨ (48 ≤ c.toNat ∧ c.toNat ≤ 57) ∨ c.toNat = 45 ∨ c.toNat = 95

/-- The first eight bytes of the card are the keyword `k`, followed by blanks. -/
def KeywordField (raw k : Str) : Prop := (∀ c ∈ k, KeywordByte c) ∧ ∃ n, k.length + n = 8 ∧ raw.take 8 = k ++ List.replicate n 32

/-- The bytes 9 and 10 of the card are the value indicator. -/
def HasIndicator (raw : Str) : Prop := (raw.drop 8).take 2 = b!"= "

/-- The keywords that may stand without a value indicator in this library's opinion. -/
def Bare (k : Str) : Prop := k = [] ∨ k = b!"END" ∨ b!"COMMENT" <+: k ∨ b!"HISTORY" <+: k

/-- The part of a commentary text (the bytes 9 to 80) from which `value<std::string>()` takes its result. -/
inductive ReadPart (text : Str) : Str → Prop
  | whole : slash ∉ text → ReadPart text (text.drop 1)
  | early (a b : Str) : text = a ++ slash :: b → slash ∉ a → a.length ≤ 1 → ReadPart text (text.drop 1)
  | cut (a b : Str) : text = a ++ slash :: b → slash ∉ a → 2 ≤ a.length → ReadPart text (a.drop 1).dropLast

end Astro.Spec
