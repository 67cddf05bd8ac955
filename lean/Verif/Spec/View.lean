import Verif.Model.View

/-
Specification of typed column access: every column is a plain array of values.
-/

namespace Astro.Spec

/-- What can be done with the columns of a table when column `name` is used with element type `ty name`. -/
inductive VOp (Φ : Family) (ty : Str → Φ.Tag) where
  /-- `x = column[row]` -/
  | read (name : Str) (row : Nat)
  /-- `column.update_value(row, x)` -/
  | write (name : Str) (row : Nat) (x : Φ.El (ty name))
  /-- `column[row] = x` -/
  | assign (name : Str) (row : Nat) (x : Φ.El (ty name))
  /-- a loop over the whole column -/
  | iterate (name : Str)

/-- What the caller sees. -/
inductive VOut (Φ : Family) (ty : Str → Φ.Tag) where
  | value (name : Str) (r : Res (Φ.El (ty name)))
  | done (r : Res Unit)
  | values (name : Str) (r : Res (List (Φ.El (ty name))))

/-- For every column an array: the value of each row or, if the stored text cannot be decoded, that error.  `text` is what is stored at (row, column
number), `seen` tells which elements have been read or written successfully. -/
structure Arrays (Φ : Family) (ty : Str → Φ.Tag) where
  val : (name : Str) → Nat → Res (Φ.El (ty name))
  text : Nat → Nat → Option Str
  seen : Str → Nat → Bool

namespace Arrays

variable {Φ : Family} {ty : Str → Φ.Tag}

/-- Overwrite one element; `number name` is the number of the column. -/
def set (number : Str → Nat) (a : Arrays Φ ty) (name : Str) (row : Nat) (x : Φ.El (ty name)) : Arrays Φ ty where
  val n r := if h : n = name then (if r = row then .ok (h ▸ x) else a.val n r) else a.val n r
  text r j := if r = row ∧ j = number name then some (Φ.ser (ty name) x) else a.text r j
  seen n r := (n == name && r == row) || a.seen n r

/-- Take note that some elements have been read successfully. -/
def look (a : Arrays Φ ty) (name : Str) (p : Nat → Bool) : Arrays Φ ty :=
  { a with seen := fun n r => (n == name && p r) || a.seen n r }

/-- The operations on arrays of `rows` rows. -/
def step (number : Str → Nat) (rows : Nat) (a : Arrays Φ ty) : VOp Φ ty → Arrays Φ ty × VOut Φ ty
  | .read name row => (a.look name fun r => r == row && (a.val name r).isOk, .value name (a.val name row))
  | .write name row x => (a.set number name row x, .done (.ok ()))
  | .assign name row x =>
    match a.val name row with
    | .ok _ => (a.set number name row x, .done (.ok ()))
    | .error e => (a, .done (.error e))
  | .iterate name => (a.look name fun r => decide (r < rows) && (List.range (r + 1)).all fun i => (a.val name i).isOk,
      .values name ((List.range rows).mapM (a.val name)))

/-- A sequence of operations. -/
def run (number : Str → Nat) (rows : Nat) (a : Arrays Φ ty) : List (VOp Φ ty) → Arrays Φ ty × List (VOut Φ ty)
  | [] => (a, [])
  | op :: ops =>
    let (a1, out) := a.step number rows op
    let (a2, outs) := run number rows a1 ops
    (a2, out :: outs)

end Arrays

/-- The operation uses a column that exists and a row that exists. -/
def VOp.Valid {Φ : Family} {ty : Str → Φ.Tag} (names : List Str) (rows : Nat) : VOp Φ ty → Prop
  | .read name row => name ∈ names ∧ row < rows
  | .write name row _ => name ∈ names ∧ row < rows
  | .assign name row _ => name ∈ names ∧ row < rows
  | .iterate name => name ∈ names

end Astro.Spec
