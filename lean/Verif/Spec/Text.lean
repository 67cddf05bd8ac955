import Verif.Model.Basic

/-
Specification vocabulary for text: decimal numerals, trimming, justification.
Independent of the algorithms in the model.
-/

namespace Astro.Spec

/-- Positional value of a digit string. -/
def positional : Str → Nat
  | [] => 0
  | c :: t => (c.toNat - 48) * 10 ^ t.length + positional t

/-- `s` is a non-empty string of ASCII digits. -/
def AllDigits (s : Str) : Prop := s ≠ [] ∧ ∀ c ∈ s, 48 ≤ c.toNat ∧ c.toNat ≤ 57

/-- `s` is the decimal numeral of `n` without superfluous leading zeros. -/
def IsNat (s : Str) (n : Nat) : Prop :=
  AllDigits s ∧ positional s = n ∧ (s.head? = some 48 → s = [48])

/-- `s` is the decimal numeral of the integer `i`. -/
def IsInt (s : Str) (i : Int) : Prop :=
  (0 ≤ i ∧ IsNat s i.toNat) ∨ (i < 0 ∧ ∃ t, s = 45 :: t ∧ IsNat t (-i).toNat)

/-- White space byte: blank, tab, line feed, vertical tab, form feed, carriage return. -/
def White (c : Byte) : Prop := c.toNat = 32 ∨ (9 ≤ c.toNat ∧ c.toNat ≤ 13)

/-- `t` is `s` without the white space at both ends. -/
def IsTrim (s t : Str) : Prop :=
  ∃ a b, s = a ++ t ++ b ∧ (∀ c ∈ a, White c) ∧ (∀ c ∈ b, White c) ∧
    (∀ c, t.head? = some c → ¬ White c) ∧ (∀ c, t.getLast? = some c → ¬ White c)

/-- `s` neither begins nor ends with white space. -/
def NoOuterWhite (s : Str) : Prop :=
  (∀ c, s.head? = some c → ¬ White c) ∧ (∀ c, s.getLast? = some c → ¬ White c)

/-- Blanks in front so that the whole has `w` bytes. -/
def rightJustified (w : Nat) (s r : Str) : Prop :=
  ∃ p, r = p ++ s ∧ (∀ c ∈ p, c = 32) ∧ r.length = w

/-- Blanks behind so that the whole has `w` bytes. -/
def leftJustified (w : Nat) (s r : Str) : Prop :=
  ∃ p, r = s ++ p ∧ (∀ c ∈ p, c = 32) ∧ r.length = w

end Astro.Spec
