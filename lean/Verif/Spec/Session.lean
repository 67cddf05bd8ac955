import Verif.Spec.View
import Verif.Spec.Table
import Verif.Model.Session

/-
What programs do with the tables of an open file, and which of the texts they store fit into the file.
-/

namespace Astro.Spec

/-- A statement about a column of HDU number `k`: the column is used with the element type `tyA k name` if the program takes the HDU for an ASCII
table, `tyB k name` if it takes it for a binary one. -/
inductive SOp (F : FloatText) (G : StreamText) (tyA : Nat → Str → AsciiTag) (tyB : Nat → Str → BinTag) where
  | ascii (k : Nat) (op : VOp (asciiFamily F G) (tyA k))
  | binary (k : Nat) (op : VOp binFamily (tyB k))

/-- What the statement returns: a result of the column, or the exception that was thrown on the way to the table. -/
inductive SOut (F : FloatText) (G : StreamText) (tyA : Nat → Str → AsciiTag) (tyB : Nat → Str → BinTag) where
  | ascii (k : Nat) (r : Res (VOut (asciiFamily F G) (tyA k)))
  | binary (k : Nat) (r : Res (VOut binFamily (tyB k)))

variable {F : FloatText} {G : StreamText} {tyA : Nat → Str → AsciiTag} {tyB : Nat → Str → BinTag}

/-- The statements of a program that use HDU `k` as an ASCII table. -/
def asciiOps (k : Nat) : List (SOp F G tyA tyB) → List (VOp (asciiFamily F G) (tyA k))
  | [] => []
  | .ascii j op :: ops => if h : j = k then (h ▸ op) :: asciiOps k ops else asciiOps k ops
  | .binary _ _ :: ops => asciiOps k ops

/-- The statements of a program that use HDU `k` as a binary table. -/
def binaryOps (k : Nat) : List (SOp F G tyA tyB) → List (VOp binFamily (tyB k))
  | [] => []
  | .binary j op :: ops => if h : j = k then (h ▸ op) :: binaryOps k ops else binaryOps k ops
  | .ascii _ _ :: ops => binaryOps k ops

/-- The results of these. -/
def asciiOuts (k : Nat) : List (SOut F G tyA tyB) → List (Res (VOut (asciiFamily F G) (tyA k)))
  | [] => []
  | .ascii j r :: outs => if h : j = k then (h ▸ r) :: asciiOuts k outs else asciiOuts k outs
  | .binary _ _ :: outs => asciiOuts k outs

/-- The results of these. -/
def binaryOuts (k : Nat) : List (SOut F G tyA tyB) → List (Res (VOut binFamily (tyB k)))
  | [] => []
  | .binary j r :: outs => if h : j = k then (h ▸ r) :: binaryOuts k outs else binaryOuts k outs
  | .ascii _ _ :: outs => binaryOuts k outs

/-- The text the operation stores in column `name`, if it stores one, satisfies `P name`. -/
def VOp.Stores {Φ : Family} {ty : Str → Φ.Tag} (P : Str → Str → Prop) : VOp Φ ty → Prop
  | .write name _ x => P name (Φ.ser (ty name) x)
  | .assign name _ x => P name (Φ.ser (ty name) x)
  | _ => True

/-- A text that fits into the column of an ASCII table: no white space at its ends, not longer than the column is wide. -/
def FitsAscii (cols : List Column) (name s : Str) : Prop :=
  NoOuterWhite s ∧ ∀ c w, Table.columnMetadata cols name = .ok c → AsciiWidth c.format w → s.length ≤ w

/-- Bytes that fit into the column of a binary table: no white-space byte at their ends, exactly as long as the column is wide. -/
def FitsBinary (cols : List Column) (name s : Str) : Prop :=
  NoOuterWhite s ∧ ∀ c w, Table.columnMetadata cols name = .ok c → BinWidth c.format w → s.length = w

end Astro.Spec
