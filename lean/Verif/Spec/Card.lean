import Verif.Model.Card
import Verif.Spec.Text

/-
What an 80-byte value card looks like, independently of how the code assembles it.
-/

namespace Astro.Spec

/-- A numeral right-justified in 20 columns. -/
def IntField (i : Int) (s : Str) : Prop := ∃ d, IsInt d i ∧ rightJustified 20 d s

/-- The text a value has on a card. -/
def TextOf (F : FloatText) : Val → Str → Prop
  | .bool b, s => rightJustified 20 (if b then b!"T" else b!"F") s
  | .int v, s => IntField v.toInt s
  | .float v, s => rightJustified 20 (F.show32 v) s
  | .double v, s => rightJustified 20 (F.show64 v) s
  | .uint v, s => IntField v.toNat s
  | .longlong v, s => IntField v.toInt s
  | .sizeT v, s => IntField v.toNat s
  | .string x, s => s = b!"'" ++ x ++ b!"'"
  | .cint re im, s => ∃ a b, s = a ++ b ∧ IntField re.toInt a ∧ IntField im.toInt b
  | .cdouble re im, s => ∃ a b, s = a ++ b ∧ rightJustified 20 (F.show64 re) a ∧ rightJustified 20 (F.show64 im) b
  | .cfloat re im, s => ∃ a b, s = a ++ b ∧ rightJustified 20 (F.show32 re) a ∧ rightJustified 20 (F.show32 im) b
  | .csizeT re im, s => ∃ a b, s = a ++ b ∧ IntField re.toNat a ∧ IntField im.toNat b

/-- The three parts fit on a card. -/
def Fits (key text comment : Str) : Prop :=
  key.length ≤ 8 ∧
    ((comment = [] ∧ text.length ≤ 70) ∨ (comment ≠ [] ∧ text.length + comment.length ≤ 68))

/-- `raw` is the 80-byte card with these parts. -/
def Layout (raw key text comment : Str) : Prop :=
  ∃ kw, leftJustified 8 key kw ∧
    leftJustified 80 (kw ++ b!"= " ++ text ++ (if comment = [] then [] else b!" /" ++ comment)) raw

/-- The value types whose text is a plain integer numeral. -/
def IsIntegerTy : Ty → Prop
  | .int | .uint | .longlong | .sizeT => True
  | _ => False

/-- The value types printed without floating point. -/
def NoFloat : Ty → Prop
  | .float | .double | .cfloat | .cdouble => False
  | _ => True

/-- `'/'` -/
def slash : Byte := 47

/-- The raw string is acceptable as a card: value indicator in columns 9-10, reserved keyword, or blank keyword. -/
def RawOk (s : Str) : Prop :=
  (∃ k r, s = k ++ b!"= " ++ r ∧ k.length = 8) ∨
  (∃ t, IsTrim (s.take 7) t ∧ (t = b!"COMMENT" ∨ t = b!"HISTORY" ∨ t = b!"END")) ∨
  (∃ r, s = List.replicate 8 32 ++ r)

end Astro.Spec
