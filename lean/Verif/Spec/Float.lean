import Mathlib.Data.Rat.Floor
import Verif.Model.Float
import Verif.Spec.Text

/-
Binary floating point numbers (IEEE 754) and decimal numerals, independently of how the code converts between them.
-/

namespace Astro.Spec

/-- Bits `n` without the sign stand for the number `x`: exponent field `e`, fraction field `m`. -/
def Magnitude (f : FloatFmt) (n : Nat) (x : ℚ) : Prop :=
  ∃ e m, m < 2 ^ f.frac ∧ e < 2 ^ f.expo - 1 ∧ n = e * 2 ^ f.frac + m ∧
    (e = 0 ∧ x = m / 2 ^ f.frac * 2 ^ (2 - 2 ^ (f.expo - 1) : ℤ) ∨
      0 < e ∧ x = (1 + m / 2 ^ f.frac) * 2 ^ ((e : ℤ) + 1 - 2 ^ (f.expo - 1)))

/-- Bits with the sign. -/
def signed (f : FloatFmt) (neg : Bool) (n : Nat) : Nat := if neg then 2 ^ (f.frac + f.expo) + n else n

/-- `n` are the bits of the number closest to `q`, the even one of two. -/
def Closest (f : FloatFmt) (q : ℚ) (n : Nat) : Prop :=
  ∃ x, Magnitude f n x ∧ ∀ m y, Magnitude f m y → |x - q| ≤ |y - q| ∧ (|x - q| = |y - q| → m = n ∨ 2 ∣ n)

/-- Half way between the largest number and the next power of two. -/
def limit (f : FloatFmt) : ℚ := (2 - 1 / 2 ^ (f.frac + 1)) * 2 ^ (2 ^ (f.expo - 1) - 1 : ℤ)

/-- Optional sign. -/
def Sign (s : Str) (neg : Bool) : Prop := (s = [] ∧ neg = false) ∨ (s = b!"+" ∧ neg = false) ∨ (s = b!"-" ∧ neg = true)

/-- Exponent part of a numeral. -/
def Exponent (s : Str) (e : ℤ) : Prop :=
  (s = [] ∧ e = 0) ∨
    ∃ c sg d neg, s = c :: sg ++ d ∧ (c = 101 ∨ c = 69) ∧ Sign sg neg ∧ AllDigits d ∧ e = if neg then -(positional d : ℤ) else positional d

/-- `s` is a decimal numeral (without sign) for `q`: digits with or without a point, then an exponent or nothing. -/
def Numeral (s : Str) (q : ℚ) : Prop :=
  ∃ a p b x e, s = a ++ p ++ x ∧ AllDigits (a ++ b) ∧ ((p = [] ∧ b = []) ∨ p = 46 :: b) ∧ Exponent x e ∧ q = positional (a ++ b) * 10 ^ (e - b.length)

/-- `s` is the word `w` (given in lower case) in upper and lower case letters. -/
def Word (w s : Str) : Prop := List.Forall₂ (fun c d => c = d ∨ c.toNat + 32 = d.toNat) s w

/-- Names of infinity and NaN, with their bits. -/
def Special (f : FloatFmt) (s : Str) (n : Nat) : Prop :=
  ((Word b!"inf" s ∨ Word b!"infinity" s) ∧ n = (2 ^ f.expo - 1) * 2 ^ f.frac) ∨
    (∃ w r, s = w ++ r ∧ Word b!"nan" w ∧ (r = [] ∨ ∃ t, r = b!"(" ++ t ++ b!")") ∧ n = (2 ^ f.expo - 1) * 2 ^ f.frac + 2 ^ (f.frac - 1))

/-- Six significant decimal digits are enough to write `q`. -/
def SixDigits (q : ℚ) : Prop := ∃ (d : Nat) (t : ℤ), d < 10 ^ 6 ∧ q = d * 10 ^ t

/-- `w` is the number of six significant decimal digits closest to `q`, the one with an even last digit of two. -/
def ClosestSix (q w : ℚ) : Prop :=
  ∃ (d : Nat) (t : ℤ), w = d * 10 ^ t ∧ (q = 0 ∧ d = 0 ∨ 10 ^ 5 ≤ d ∧ d < 10 ^ 6) ∧
    ∀ w', SixDigits w' → |w - q| ≤ |w' - q| ∧ (|w - q| = |w' - q| → w' = w ∨ 2 ∣ d)

/-- `s` is written for `b` when it is read: optional sign, then a name or a numeral, rounded to the closest number, too large ones refused. -/
def Reads (f : FloatFmt) (s : Str) (b : Nat) : Prop :=
  ∃ sg r neg n, s = sg ++ r ∧ Sign sg neg ∧ b = signed f neg n ∧ (Special f r n ∨ ∃ q, Numeral r q ∧ q < limit f ∧ Closest f q n)

/-- `s` is `w` in plain decimal notation without superfluous zeros. -/
def Plain (s : Str) (w : ℚ) : Prop :=
  ∃ n a b, IsNat a n ∧ (∀ c ∈ b, 48 ≤ c.toNat ∧ c.toNat ≤ 57) ∧ (∀ c, b.getLast? = some c → c ≠ 48) ∧
    s = a ++ (if b = [] then [] else 46 :: b) ∧ w = n + positional b / 10 ^ b.length

/-- `s` is `w` as general notation has it: plain between 0.0001 and a million, otherwise with an exponent of at least two digits. -/
def General (s : Str) (w : ℚ) : Prop :=
  (Plain s w ∧ (w = 0 ∨ 1 / 10 ^ 4 ≤ w ∧ w < 10 ^ 6)) ∨
    ∃ p y e d, s = p ++ b!"e" ++ (if (e : ℤ) < 0 then b!"-" else b!"+") ++ d ∧ Plain p y ∧ 1 ≤ y ∧ y < 10 ∧
      (IsNat d e.natAbs ∧ 10 ≤ e.natAbs ∨ ∃ c, d = [48, c] ∧ IsNat [c] e.natAbs) ∧
      w = y * 10 ^ e ∧ (w < 1 / 10 ^ 4 ∨ 10 ^ 6 ≤ w)

/-- `s` is what is printed for the bits `b`: six significant digits in general notation, `inf` or `nan`. -/
def Prints (f : FloatFmt) (b : Nat) (s : Str) : Prop :=
  ∃ neg n r, n < 2 ^ (f.frac + f.expo) ∧ b = signed f neg n ∧ s = (if neg then b!"-" else []) ++ r ∧
    ((∃ x w, Magnitude f n x ∧ ClosestSix x w ∧ General r w) ∨ (n = (2 ^ f.expo - 1) * 2 ^ f.frac ∧ r = b!"inf") ∨
      ((2 ^ f.expo - 1) * 2 ^ f.frac < n ∧ r = b!"nan"))

/-- What becomes of the bits `b` when they are printed with six digits and read again: rounded to six digits, then to the closest number;
infinities stay, a NaN becomes the standard one. -/
def Reprinted (f : FloatFmt) (b b' : Nat) : Prop :=
  ∃ neg n n', n < 2 ^ (f.frac + f.expo) ∧ b = signed f neg n ∧ b' = signed f neg n' ∧
    ((∃ x w, Magnitude f n x ∧ ClosestSix x w ∧ w < limit f ∧ Closest f w n') ∨
      (n = (2 ^ f.expo - 1) * 2 ^ f.frac ∧ n' = n) ∨
      ((2 ^ f.expo - 1) * 2 ^ f.frac < n ∧ n' = (2 ^ f.expo - 1) * 2 ^ f.frac + 2 ^ (f.frac - 1)))

/-- The text begins like a number: a sign or nothing, then a digit or a point. -/
def LikeNumber (s : Str) : Prop := ∃ sg neg c r, s = sg ++ c :: r ∧ Sign sg neg ∧ (c = 46 ∨ (48 ≤ c.toNat ∧ c.toNat ≤ 57))

/-- A number that is printed as the whole number `i`. -/
def PrintsWhole (f : FloatFmt) (b : Nat) (i : ℤ) : Prop :=
  ∃ neg n x k, b = signed f neg n ∧ Magnitude f n x ∧ k < 10 ^ 6 ∧ ClosestSix x (k : ℕ) ∧ i = if neg then -(k : ℤ) else k

end Astro.Spec
