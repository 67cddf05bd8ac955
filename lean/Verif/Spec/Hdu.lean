import Verif.Spec.Fits

/-
What an HDU takes from the cards of its header.
-/

namespace Astro.Spec

/-- What asking for keyword `k` as type `t` must give: `outOfRange` if no card has it, otherwise what the text of the last such card gives. -/
def Lookup (F : FloatText) (raws : List Str) (k : Str) (t : Ty) (r : Res Val) : Prop :=
  (Absent raws k ∧ r = .error .outOfRange) ∨ ∃ i raw, LastWith raws k i ∧ raws[i]? = some raw ∧ r = Card.valueImp F raw t

/-- Looking up the keywords one after the other, the first failure is `e`. -/
inductive FirstError (F : FloatText) (raws : List Str) : List (Str × Ty) → Err → Prop
  | here {k t rest e} : Lookup F raws k t (.error e) → FirstError F raws ((k, t) :: rest) e
  | later {k t rest e v} : Lookup F raws k t (.ok v) → FirstError F raws rest e → FirstError F raws ((k, t) :: rest) e

/-- The pixels a data buffer stands for: big-endian numbers, as many as fit; but 8-bit pixels come out as zeros. -/
def Pixels (b : Bitpix) (buf : Str) (px : List (BitVec (8 * b.size))) : Prop :=
  px.length = buf.length / b.size ∧
  ∀ (i : Nat) (v : BitVec (8 * b.size)), px[i]? = some v →
    if b = .B8 then v = 0 else IsBE b.size v (window buf (i * b.size) b.size)

/-- Keyword `k` may be absent; if it is there, it can be read as `t`. -/
def Optional (F : FloatText) (raws : List Str) (k : Str) (t : Ty) : Prop := Absent raws k ∨ ∃ v, Lookup F raws k t (.ok v)

/-- Keyword `k` is there and can be read as `t`. -/
def Required (F : FloatText) (raws : List Str) (k : Str) (t : Ty) : Prop := ∃ v, Lookup F raws k t (.ok v)

/-- The cards about column number `d` that both kinds of tables use: format required; name, unit, scale and zero optional; and the text under the
keyword that is the name of the column, also optional. -/
structure ColumnCards (F : FloatText) (raws : List Str) (d : Str) : Prop where
  tform : Required F raws (b!"TFORM" ++ d) .string
  ttype : Optional F raws (b!"TTYPE" ++ d) .string
  comment : ∀ name, Lookup F raws (b!"TTYPE" ++ d) .string (.ok (.string name)) → Optional F raws name .string
  tunit : Optional F raws (b!"TUNIT" ++ d) .string
  tscal : Optional F raws (b!"TSCAL" ++ d) .double
  tzero : Optional F raws (b!"TZERO" ++ d) .double

/-- A keyword that is never read as anything but a string. -/
def TextKey (k : Str) : Prop :=
  k ∉ [b!"BITPIX", b!"SIMPLE", b!"GCOUNT", b!"PCOUNT", b!"TFIELDS"] ∧ ∀ p ∈ [b!"NAXIS", b!"TBCOL", b!"TSCAL", b!"TZERO"], ¬ p <+: k

/-- The names of the columns are keywords that are only read as strings. -/
def TextNames (F : FloatText) (raws : List Str) : Prop :=
  ∀ d name, Lookup F raws (b!"TTYPE" ++ d) .string (.ok (.string name)) → TextKey name

/-- The cards every table has; it has `n` columns. -/
structure TableCards (F : FloatText) (raws : List Str) (n : Nat) : Prop where
  gcount : Required F raws b!"GCOUNT" .int
  pcount : Required F raws b!"PCOUNT" .int
  extname : Required F raws b!"EXTNAME" .string
  tfields : ∃ v : BitVec 64, Lookup F raws b!"TFIELDS" .sizeT (.ok (.sizeT v)) ∧ v.toNat = n

/-- The cards of an ASCII table with `n` columns. -/
structure AsciiCards (F : FloatText) (raws : List Str) (n : Nat) : Prop where
  table : TableCards F raws n
  column : ∀ i d, 1 ≤ i → i ≤ n → IsNat d i → ColumnCards F raws d ∧ Required F raws (b!"TBCOL" ++ d) .sizeT

/-- Every cell of the `n` columns lies inside the data: NAXIS1 bytes a row, NAXIS2 rows, columns beginning at TBCOL (from 1), widths from TFORM. -/
def AsciiFits (F : FloatText) (raws : List Str) (n : Nat) (naxis : List Nat) (buf : Str) : Prop :=
  ∃ rowLen rows more, naxis = rowLen :: rows :: more ∧ (n = 0 → rows = 0) ∧
    ∀ r i d f b, r < rows → 1 ≤ i → i ≤ n → IsNat d i → Lookup F raws (b!"TFORM" ++ d) .string (.ok (.string f)) →
      Lookup F raws (b!"TBCOL" ++ d) .sizeT (.ok (.sizeT b)) →
      ∃ w, AsciiWidth f w ∧ 1 ≤ r * rowLen % 2 ^ 64 + b.toNat ∧ r * rowLen % 2 ^ 64 + b.toNat ≤ buf.length ∧
        r * rowLen % 2 ^ 64 + b.toNat - 1 + w ≤ buf.length

/-- The cards of a binary table with `n` columns. -/
structure BinaryCards (F : FloatText) (raws : List Str) (n : Nat) : Prop where
  table : TableCards F raws n
  column : ∀ i d, 1 ≤ i → i ≤ n → IsNat d i → ColumnCards F raws d ∧ Optional F raws (b!"TDISP" ++ d) .string ∧ Optional F raws (b!"TDIM" ++ d) .string ∧
    ∃ f w, Lookup F raws (b!"TFORM" ++ d) .string (.ok (.string f)) ∧ BinWidth f w

/-- The data hold NAXIS2 rows of columns of the widths given by TFORM. -/
def BinaryFits (F : FloatText) (raws : List Str) (n : Nat) (naxis : List Nat) (buf : Str) : Prop :=
  ∃ (rowLen rows : Nat) (more ws : List Nat), naxis = rowLen :: rows :: more ∧ (n = 0 → rows = 0) ∧ ws.length = n ∧ rows * ws.sum ≤ buf.length ∧
    ∀ i d f w, 1 ≤ i → IsNat d i → ws[i - 1]? = some w → Lookup F raws (b!"TFORM" ++ d) .string (.ok (.string f)) → BinWidth f w

end Astro.Spec
