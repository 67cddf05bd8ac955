import Verif.Model.TableCopy

/-
Copies of column views kept in variables, `auto v = table.get_column<T>(name);`, in programs that copy, move and destroy tables.  A copy has its own cache and points to the matrix of
the table object its view was made for (`table_ref` and `cached_index`, column_data.hpp l.66-67; the compiler's copy constructor copies the pointer).
-/

namespace Astro

/-- All tables, and the views the program keeps in variables. -/
structure VDesk (Φ : Family) where
  heap : Heap Φ
  views : Nat → Option ((t : Φ.Tag) × Ref (Φ.El t))

/-- Statements: those on tables, `auto p = table.get_column<T>(name)`, `p[row]`, `p.update_value(row, x)` and `p = q`. -/
inductive VHOp (Φ : Family) where
  | plain (op : HOp Φ)
  | hold (p : Nat) (i : Nat) (name : Str) (t : Φ.Tag)
  | read (p row : Nat)
  | update (p row : Nat) (t : Φ.Tag) (x : Φ.El t)
  | copy (p q : Nat)

namespace VDesk

variable {Φ : Family}

/-- Give variable `p` a value. -/
def keep (d : VDesk Φ) (p : Nat) (t : Φ.Tag) (r : Ref (Φ.El t)) : VDesk Φ := { d with views := fun k => if k = p then some ⟨t, r⟩ else d.views k }

/-- One statement: get_column (ascii_table.hpp l.85-97, binary_table.hpp l.101-112), operator[] (column_data.hpp l.156-167), update_value (l.147-150). -/
def step (d : VDesk Φ) : VHOp Φ → VDesk Φ × Res (HOut Φ)
  | .plain op => let (h, r) := d.heap.step op; ({ d with heap := h }, r)
  | .hold p i name t =>
    match d.heap.getColumn i name t with
    | (h, .error e) => ({ d with heap := h }, .error e)
    | (h, .ok r) => (({ d with heap := h } : VDesk Φ).keep p t r, .ok .done)
  | .read p row =>
    match d.views p with
    | none => (d, .error .ub)
    | some ⟨t, r⟩ => let (v, x) := r.view.read (Φ.deser t) (d.heap.matrix r.owner) row; (d.keep p t ⟨r.owner, v⟩, x.map (.value t))
  | .update p row t x =>
    match d.views p with
    | none => (d, .error .ub)
    | some ⟨t', r⟩ =>
      if e : t = t' then
        let (v, m) := r.view.update (Φ.ser t') (d.heap.matrix r.owner) row (e ▸ x)
        match m with
        | .error e => (d.keep p t' ⟨r.owner, v⟩, .error e)
        | .ok m => (({ d with heap := d.heap.setMatrix r.owner m } : VDesk Φ).keep p t' ⟨r.owner, v⟩, .ok .done)
      else (d, .error .ub)
  | .copy p q =>
    match d.views q with
    | none => (d, .error .ub)
    | some ⟨t, r⟩ => (d.keep p t r, .ok .done)

/-- A program. -/
def run (d : VDesk Φ) : List (VHOp Φ) → VDesk Φ × List (Res (HOut Φ))
  | [] => (d, [])
  | op :: ops => let (d', r) := d.step op; let (d'', l) := d'.run ops; (d'', r :: l)

end VDesk

end Astro
