import Verif.Spec.View

/-
Specification of element proxies: plain arrays, and notes of an element's place and of the value it had when the note was made.
-/

namespace Astro.Spec

/-- What can be done with a table and with variables (numbered) that hold elements of its columns. -/
inductive POp (Φ : Family) (ty : Str → Φ.Tag) where
  /-- what can be done without variables -/
  | plain (op : VOp Φ ty)
  /-- `auto p = column[row]` -/
  | take (p : Nat) (name : Str) (row : Nat)
  /-- `x = p` -/
  | get (p : Nat)
  /-- `p = x` -/
  | put (p : Nat) (t : Φ.Tag) (x : Φ.El t)
  /-- `p = q` -/
  | copy (p q : Nat)
  /-- `column[row] = column'[row']` -/
  | move (name : Str) (row : Nat) (name' : Str) (row' : Nat)

/-- What the caller sees. -/
inductive POut (Φ : Family) (ty : Str → Φ.Tag) where
  | plain (o : VOut Φ ty)
  | value (r : Res ((t : Φ.Tag) × Φ.El t))
  | done (r : Res Unit)

/-- A place and the value noted with it. -/
structure Note (Φ : Family) (ty : Str → Φ.Tag) where
  name : Str
  row : Nat
  value : Φ.El (ty name)

/-- Arrays and notes. -/
structure Notes (Φ : Family) (ty : Str → Φ.Tag) where
  arrays : Arrays Φ ty
  note : Nat → Option (Note Φ ty)

namespace Notes

variable {Φ : Family} {ty : Str → Φ.Tag}

/-- Make note number `k`. -/
def make (s : Notes Φ ty) (k : Nat) (n : Note Φ ty) : Notes Φ ty := { s with note := fun i => if i = k then some n else s.note i }

/-- The operations.  `p = x` writes to the noted place and leaves the note; `p = q` replaces the note and writes nothing; `column[row] = column'[row']`
does no more than look at both elements. -/
def step (number : Str → Nat) (rows : Nat) (s : Notes Φ ty) : POp Φ ty → Notes Φ ty × POut Φ ty
  | .plain op => ({ s with arrays := (s.arrays.step number rows op).1 }, .plain (s.arrays.step number rows op).2)
  | .take p name row =>
    let s' := { s with arrays := (s.arrays.step number rows (.read name row)).1 }
    match s.arrays.val name row with
    | .ok x => (s'.make p ⟨name, row, x⟩, .done (.ok ()))
    | .error e => (s', .done (.error e))
  | .get p =>
    match s.note p with
    | some n => (s, .value (.ok ⟨ty n.name, n.value⟩))
    | none => (s, .value (.error .ub))
  | .put p t x =>
    match s.note p with
    | some n => if h : t = ty n.name then ({ s with arrays := s.arrays.set number n.name n.row (h ▸ x) }, .done (.ok ())) else (s, .done (.error .ub))
    | none => (s, .done (.error .ub))
  | .copy p q =>
    match s.note p, s.note q with
    | some m, some n => if ty m.name = ty n.name then (s.make p n, .done (.ok ())) else (s, .done (.error .ub))
    | _, _ => (s, .done (.error .ub))
  | .move name row name' row' =>
    let s1 := { s with arrays := (s.arrays.step number rows (.read name' row')).1 }
    match s.arrays.val name' row' with
    | .error e => (s1, .done (.error e))
    | .ok _ =>
      let s2 := { s1 with arrays := (s1.arrays.step number rows (.read name row)).1 }
      match s.arrays.val name row with
      | .error e => (s2, .done (.error e))
      | .ok _ => (s2, .done (.ok ()))

/-- A sequence of operations. -/
def run (number : Str → Nat) (rows : Nat) (s : Notes Φ ty) : List (POp Φ ty) → Notes Φ ty × List (POut Φ ty)
  | [] => (s, [])
  | op :: ops =>
    let (s1, out) := s.step number rows op
    let (s2, outs) := run number rows s1 ops
    (s2, out :: outs)

end Notes

variable {Φ : Family} {ty : Str → Φ.Tag}

/-- The operation uses columns and rows that exist; the two elements of `column[row] = column'[row']` are of one type. -/
def POp.Valid (names : List Str) (rows : Nat) : POp Φ ty → Prop
  | .plain op => op.Valid names rows
  | .take _ name row => name ∈ names ∧ row < rows
  | .move name row name' row' => name ∈ names ∧ row < rows ∧ name' ∈ names ∧ row' < rows ∧ ty name' = ty name
  | _ => True

/-- The operation gives variable `p` a new value. -/
def POp.Rebinds (p : Nat) : POp Φ ty → Prop
  | .take k _ _ => k = p
  | .copy k _ => k = p
  | _ => False

/-- The operation stores a value in the table: `update_value`, `column[row] = x` and `p = x` with a value `x`. -/
def POp.Stores : POp Φ ty → Prop
  | .plain (.write _ _ _) => True
  | .plain (.assign _ _ _) => True
  | .put _ _ _ => True
  | _ => False

end Astro.Spec
