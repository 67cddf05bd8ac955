import Verif.Spec.Card
import Verif.Model.Bitpix

/-
What a header looks like in a file.
-/

namespace Astro.Spec

/-- `e` is the next block boundary strictly after position `p`. -/
def NextBoundary (p e : Nat) : Prop := 2880 ∣ e ∧ p < e ∧ e ≤ p + 2880

/-- The bytes `p, p+1, ..` of the file, `n` of them, completed by blanks. -/
def window (content : Str) (p n : Nat) : Str :=
  (List.range n).map fun i => content.getD (p + i) 32

/-- The `k`-th card-sized piece of the file from position `p` on. -/
def piece (content : Str) (p k : Nat) : Str := window content (p + 80 * k) 80

/-- The keyword field of a card, without the blanks around it. -/
def KeywordIs (raw k : Str) : Prop := IsTrim (raw.take 8) k

/-- The card that ends a header. -/
def IsEnd (raw : Str) : Prop := raw.take 8 = b!"END     "

/-- Card number `i` carries keyword `k` and no later card does. -/
def LastWith (raws : List Str) (k : Str) (i : Nat) : Prop :=
  ∃ h : i < raws.length, KeywordIs raws[i] k ∧ ∀ j (hj : j < raws.length), i < j → ¬ KeywordIs raws[j] k

/-- No card carries keyword `k`. -/
def Absent (raws : List Str) (k : Str) : Prop := ∀ r ∈ raws, ¬ KeywordIs r k

/-- The five pixel types and their BITPIX values. -/
def BitpixValue : Bitpix → Int → Prop
  | .B8, v => v = 8
  | .B16, v => v = 16
  | .B32, v => v = 32
  | .F32, v => v = -32
  | .F64, v => v = -64

end Astro.Spec
