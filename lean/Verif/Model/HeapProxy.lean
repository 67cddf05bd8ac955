import Verif.Model.TableCopy

/-
Elements of columns kept in variables (`Proxy`, column_data.hpp l.33-57) in programs that copy, move and destroy tables.

A proxy points to the view in the `cached_columns` of its table, an `std::unordered_map`.  Its elements stay where they are while the table lives, a copy of
the table gets elements of its own, and a move hands the elements over to the new table, so that the pointers lead there.  Assigning to a table assigns to or destroys
the elements it had (container requirements of the C++ standard), which of both is open; here the pointer then leads nowhere.
-/

namespace Astro

/-- Proxy, column_data.hpp l.34-39: row, value and the view of column `name` in the table `table`; `none` when that view is gone. -/
structure HProxy (Φ : Family) where
  table : Option Nat
  name : Str
  tag : Φ.Tag
  row : Nat
  value : Φ.El tag

/-- Where pointers to the views of table `k` lead after a statement on tables, ascii_table.hpp l.43-51, binary_table.hpp l.41-73 (`cached_columns`; the
compiler's copy and move operations and destructor). -/
def HOp.follow {Φ : Family} (h : Heap Φ) (k : Nat) : HOp Φ → Option Nat
  | .move i => if k = i then some h.next else some k
  | .copyOver i j => if k = i ∧ i ≠ j then none else some k
  | .moveOver i j => if k = j then some i else if k = i then none else some k
  | .destroy i => if k = i then none else some k
  | _ => some k

/-- All tables, and the proxies the program keeps in variables. -/
structure HDesk (Φ : Family) where
  heap : Heap Φ
  vars : Nat → Option (HProxy Φ)

/-- Statements: those on tables, `auto p = table.get_column<T>(name)[row]`, `x = p`, `p = x` and `p = q`. -/
inductive HPOp (Φ : Family) where
  | plain (op : HOp Φ)
  | take (p : Nat) (i : Nat) (name : Str) (t : Φ.Tag) (row : Nat)
  | get (p : Nat)
  | put (p : Nat) (t : Φ.Tag) (x : Φ.El t)
  | copy (p q : Nat)

namespace HDesk

variable {Φ : Family}

/-- Give variable `p` a value. -/
def keep (d : HDesk Φ) (p : Nat) (q : HProxy Φ) : HDesk Φ := { d with vars := fun k => if k = p then some q else d.vars k }

/-- `p = x`, column_data.hpp l.52-55: update_value (l.147-150) of the view. -/
def store (h : Heap Φ) (q : HProxy Φ) (x : Φ.El q.tag) : Heap Φ × Res Unit :=
  match q.table with
  | none => (h, .error .ub)
  | some i =>
    match h.objs i with
    | none => (h, .error .ub)
    | some o =>
      match o.views q.name with
      | none => (h, .error .ub)
      | some ⟨t, _⟩ => if t = q.tag then h.update i q.name q.tag q.row x else (h, .error .ub)

/-- One statement. -/
def step (d : HDesk Φ) : HPOp Φ → HDesk Φ × Res (HOut Φ)
  | .plain op =>
    let (h, r) := d.heap.step op
    match r with
    | .error e => ({ d with heap := h }, .error e)
    | .ok r => (⟨h, fun k => (d.vars k).map fun q => { q with table := q.table.bind fun i => op.follow d.heap i }⟩, .ok r)
  | .take p i name t row =>
    match d.heap.read i name t row with
    | (h, .error e) => ({ d with heap := h }, .error e)
    | (h, .ok x) => (({ d with heap := h } : HDesk Φ).keep p ⟨some i, name, t, row, x⟩, .ok .done)
  | .get p =>
    match d.vars p with
    | none => (d, .error .ub)
    | some q => (d, .ok (.value q.tag q.value))
  | .put p t x =>
    match d.vars p with
    | none => (d, .error .ub)
    | some q => if e : t = q.tag then let (h, r) := store d.heap q (e ▸ x); ({ d with heap := h }, r.map fun _ => .done) else (d, .error .ub)
  | .copy p q =>
    match d.vars q with
    | none => (d, .error .ub)
    | some y => (d.keep p y, .ok .done)

/-- A program. -/
def run (d : HDesk Φ) : List (HPOp Φ) → HDesk Φ × List (Res (HOut Φ))
  | [] => (d, [])
  | op :: ops => let (d', r) := d.step op; let (d'', l) := d'.run ops; (d'', r :: l)

end HDesk

end Astro
