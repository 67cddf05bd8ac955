import Verif.Spec.Text

/-
Specification of big-endian numbers, without reference to the conversion code.
-/

namespace Astro.Spec

/-- The number denoted by big-endian bytes: the first byte is the most significant one. -/
def bigEndian : Str → Nat
  | [] => 0
  | b :: t => b.toNat * 256 ^ t.length + bigEndian t

/-- `s` is the `w`-byte big-endian form of `v`. -/
def IsBE (w : Nat) (v : BitVec (8 * w)) (s : Str) : Prop := s.length = w ∧ bigEndian s = v.toNat

/-- `t` is `s` without the quotes and blanks at both ends. -/
def IsUnquoted (s t : Str) : Prop :=
  ∃ a b, s = a ++ t ++ b ∧ (∀ c ∈ a, c = 39 ∨ c = 32) ∧ (∀ c ∈ b, c = 39 ∨ c = 32) ∧
    (∀ c, t.head? = some c → ¬ (c = 39 ∨ c = 32)) ∧ (∀ c, t.getLast? = some c → ¬ (c = 39 ∨ c = 32))

/-- `n` is what the text of an unsigned 64-bit number means to `lexical_cast`: digits with an optional sign, where a minus sign wraps
around. -/
def UnsignedText (s : Str) (n : Nat) : Prop :=
  (AllDigits s ∧ positional s < 2 ^ 64 ∧ n = positional s) ∨
  (∃ t, s = 43 :: t ∧ AllDigits t ∧ positional t < 2 ^ 64 ∧ n = positional t) ∨
  (∃ t, s = 45 :: t ∧ AllDigits t ∧ positional t < 2 ^ 64 ∧ n = (2 ^ 64 - positional t) % 2 ^ 64)

end Astro.Spec
