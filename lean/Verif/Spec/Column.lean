import Verif.Model.Column

/-
Specification of column metadata: eleven independent variables; and what a program can see of a table through its columns.
-/

namespace Astro.Spec

/-- The variable a setter call assigns, and the value. -/
def assigns : ColSet → ColField × ColVal
  | .index i => (.index, .size i)
  | .tbcol n => (.tbcol, .size n)
  | .ttype s => (.ttype, .text s)
  | .comment s => (.comment, .text s)
  | .tform s => (.tform, .text s)
  | .tunit s => (.tunit, .text s)
  | .tscal x => (.tscal, .real x)
  | .tzero x => (.tzero, .real x)
  | .tdisp s => (.tdisp, .text s)
  | .tdim s => (.tdim, .text s)
  | .total n => (.total, .size n)

/-- The last call that assigns `f` assigns `v`. -/
def LastAssigned (calls : List ColSet) (f : ColField) (v : ColVal) : Prop :=
  ∃ before call after, calls = before ++ call :: after ∧ assigns call = (f, v) ∧ ∀ c ∈ after, (assigns c).1 ≠ f

/-- One use of a column of a table, with an element type of the caller's choice. -/
inductive Use (Φ : Family) where
  | get (name : Str) (t : Φ.Tag)
  | read (name : Str) (t : Φ.Tag) (row : Nat)
  | write (name : Str) (t : Φ.Tag) (row : Nat) (x : Φ.El t)
  | assign (name : Str) (t : Φ.Tag) (row : Nat) (x : Φ.El t)
  | iterate (name : Str) (t : Φ.Tag)

/-- What the caller sees: nothing but success or failure, an element, or all elements. -/
inductive Seen (Φ : Family) where
  | done (r : Res Unit)
  | value (t : Φ.Tag) (r : Res (Φ.El t))
  | values (t : Φ.Tag) (r : Res (List (Φ.El t)))

/-- Running one use on a table object. -/
def Use.run {Φ : Family} (o : Obj Φ) : Use Φ → Obj Φ × Seen Φ
  | .get n t => ((o.getColumn n t).1, .done ((o.getColumn n t).2.map fun _ => ()))
  | .read n t row => ((o.read n t row).1, .value t (o.read n t row).2)
  | .write n t row x => ((o.update n t row x).1, .done (o.update n t row x).2)
  | .assign n t row x => ((o.assign n t row x).1, .done (o.assign n t row x).2)
  | .iterate n t => ((o.iterate n t).1, .values t (o.iterate n t).2)

/-- A program: everything it sees, and the cells it leaves. -/
def program {Φ : Family} (o : Obj Φ) : List (Use Φ) → List (Seen Φ) × List (List Str)
  | [] => ([], o.data)
  | u :: us => ((u.run o).2 :: (program (u.run o).1 us).1, (program (u.run o).1 us).2)

/-- Columns that differ at most in unit, scale, zero, display format, dimensions and comment. -/
def SamePlace (c c' : Column) : Prop :=
  c.index = c'.index ∧ c.name = c'.name ∧ c.start = c'.start ∧ c.format = c'.format ∧ c.total = c'.total

end Astro.Spec
