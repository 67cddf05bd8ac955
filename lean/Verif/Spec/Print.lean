import Verif.Spec.Text

/-
Decimal fractions in text.
-/

namespace Astro.Spec

/-- `s` is the numeral of `n` millionths with six digits behind the point, with a minus sign in front if `neg`. -/
def Fixed6 (s : Str) (neg : Prop) (n : Nat) : Prop :=
  ∃ sign a f, s = sign ++ a ++ b!"." ++ f ∧ ((neg ∧ sign = b!"-") ∨ (¬ neg ∧ sign = [])) ∧ IsNat a (n / 10 ^ 6) ∧
    AllDigits f ∧ f.length = 6 ∧ positional f = n % 10 ^ 6

end Astro.Spec
