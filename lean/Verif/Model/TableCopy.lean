import Verif.Model.View

/-
Copies of table objects and of column views.

A column view holds a pointer to the matrix of the table that made it (column_data.hpp l.66, table_extension.hpp l.82), and the table keeps the
view in `cached_columns`.  None of the classes declares a copy constructor or an assignment operator, so the compiler's are used: they copy the
matrix and the cached views, and the pointers inside these still lead to the matrix of the original.  `get_hdu_list` (fits_reader.hpp l.164-166)
makes such copies of all tables of a file.

Here every table object has an identity and a view says whose matrix it points to.  Identities are never used twice; a pointer into an object that
was destroyed gives undefined behaviour on every use.

The compiler's move constructor and move assignment hand the matrix over and keep the pointers as well.  The standard leaves open what a moved-from
`std::unordered_map` holds; here it is empty, as in all common libraries.
-/

namespace Astro

/-- A view and the table whose matrix `table_ref` points to, column_data.hpp l.63-67. -/
structure Ref (α : Type) where
  owner : Nat
  view : View α

/-- A table object: metadata, matrix, cached views (ascii_table.hpp l.45-53, binary_table.hpp l.41-74, table_extension.hpp l.30-34). -/
structure Held (Φ : Family) where
  cols : List Column
  data : List (List Str)
  views : Str → Option ((t : Φ.Tag) × Ref (Φ.El t))

/-- All table objects alive, and the next unused identity. -/
structure Heap (Φ : Family) where
  objs : Nat → Option (Held Φ)
  next : Nat

namespace Heap

variable {Φ : Family}

/-- No tables yet. -/
def empty : Heap Φ := ⟨fun _ => none, 0⟩

/-- Replace the object `i`. -/
def put (h : Heap Φ) (i : Nat) (o : Option (Held Φ)) : Heap Φ := { h with objs := fun k => if k = i then o else h.objs k }

/-- `*table_ref` for the matrix of table `k`.  A matrix that is gone has no cells, so that every access is undefined behaviour. -/
def matrix (h : Heap Φ) (k : Nat) : List (List Str) := match h.objs k with | some o => o.data | none => []

/-- Write through `table_ref`. -/
def setMatrix (h : Heap Φ) (k : Nat) (d : List (List Str)) : Heap Φ :=
  match h.objs k with
  | some o => h.put k (some { o with data := d })
  | none => h

/-- Store a view among the cached ones of table `i`. -/
def putView (h : Heap Φ) (i : Nat) (name : Str) (t : Φ.Tag) (r : Ref (Φ.El t)) : Heap Φ :=
  match h.objs i with
  | some o => h.put i (some { o with views := fun n => if n = name then some ⟨t, r⟩ else o.views n })
  | none => h

/-- A table made from a header and data, ascii_table.hpp l.61-66, binary_table.hpp l.88-92. -/
def create (h : Heap Φ) (cols : List Column) (data : List (List Str)) : Heap Φ × Nat :=
  ({ (h.put h.next (some ⟨cols, data, fun _ => none⟩)) with next := h.next + 1 }, h.next)

/-- The implicit copy constructor: metadata, matrix and views are copied, pointers are kept. -/
def copy (h : Heap Φ) (i : Nat) : Heap Φ × Res Nat :=
  match h.objs i with
  | none => (h, .error .ub)
  | some o => ({ (h.put h.next (some o)) with next := h.next + 1 }, .ok h.next)

/-- The implicit assignment operator, `i = j`. -/
def copyOver (h : Heap Φ) (i j : Nat) : Heap Φ × Res Unit :=
  match h.objs i, h.objs j with
  | some _, some o => (h.put i (some o), .ok ())
  | _, _ => (h, .error .ub)

/-- The implicit move constructor: metadata, matrix and views go to the new object, pointers are kept, the old object has an empty matrix. -/
def move (h : Heap Φ) (i : Nat) : Heap Φ × Res Nat :=
  match h.objs i with
  | none => (h, .error .ub)
  | some o => ({ ((h.put h.next (some o)).put i (some ⟨[], [], fun _ => none⟩)) with next := h.next + 1 }, .ok h.next)

/-- The implicit move assignment, `i = std::move(j)`; moving a standard container to itself has no specified result. -/
def moveOver (h : Heap Φ) (i j : Nat) : Heap Φ × Res Unit :=
  if i = j then (h, .error .ub)
  else match h.objs i, h.objs j with
    | some _, some o => ((h.put i (some o)).put j (some ⟨[], [], fun _ => none⟩), .ok ())
    | _, _ => (h, .error .ub)

/-- Any change of the matrix through the reference that get_data returns (table_extension.hpp l.94): afterwards it is `d`. -/
def setRows (h : Heap Φ) (i : Nat) (d : List (List Str)) : Heap Φ × Res Unit :=
  match h.objs i with
  | none => (h, .error .ub)
  | some o => (h.put i (some { o with data := d }), .ok ())

/-- The destructor. -/
def destroy (h : Heap Φ) (i : Nat) : Heap Φ × Res Unit :=
  match h.objs i with
  | none => (h, .error .ub)
  | some _ => (h.put i none, .ok ())

/-- get_column, ascii_table.hpp l.85-97, binary_table.hpp l.101-112: a new view points to the matrix of the table itself (table_extension.hpp l.82). -/
def getColumn (h : Heap Φ) (i : Nat) (name : Str) (t : Φ.Tag) : Heap Φ × Res (Ref (Φ.El t)) :=
  match h.objs i with
  | none => (h, .error .ub)
  | some o =>
    match o.views name with
    | some ⟨t', r⟩ => if e : t' = t then (h, .ok (e ▸ r)) else (h, .error .badGet)
    | none =>
      match Table.columnMetadata o.cols name with
      | .error e => (h, .error e)
      | .ok c =>
        let r : Ref (Φ.El t) := ⟨i, ⟨c.index, c.total, fun _ => none⟩⟩
        (h.putView i name t r, .ok r)

/-- `x = table.get_column<T>(name)[row]`, column_data.hpp l.156-167. -/
def read (h : Heap Φ) (i : Nat) (name : Str) (t : Φ.Tag) (row : Nat) : Heap Φ × Res (Φ.El t) :=
  match h.getColumn i name t with
  | (h', .error e) => (h', .error e)
  | (h', .ok r) =>
    let (v, x) := r.view.read (Φ.deser t) (h'.matrix r.owner) row
    (h'.putView i name t ⟨r.owner, v⟩, x)

/-- `table.get_column<T>(name).update_value(row, x)`, column_data.hpp l.147-150. -/
def update (h : Heap Φ) (i : Nat) (name : Str) (t : Φ.Tag) (row : Nat) (x : Φ.El t) : Heap Φ × Res Unit :=
  match h.getColumn i name t with
  | (h', .error e) => (h', .error e)
  | (h', .ok r) =>
    let (v, d) := r.view.update (Φ.ser t) (h'.matrix r.owner) row x
    match d with
    | .error e => (h'.putView i name t ⟨r.owner, v⟩, .error e)
    | .ok d => ((h'.putView i name t ⟨r.owner, v⟩).setMatrix r.owner d, .ok ())

/-- `table.get_column<T>(name)[row] = x`, column_data.hpp l.52-55. -/
def assign (h : Heap Φ) (i : Nat) (name : Str) (t : Φ.Tag) (row : Nat) (x : Φ.El t) : Heap Φ × Res Unit :=
  match h.read i name t row with
  | (h', .error e) => (h', .error e)
  | (h', .ok _) => h'.update i name t row x

/-- The loop over a column from row `k` on, `n` rows left, column_data.hpp l.88-142. -/
def iterateFrom (i : Nat) (name : Str) (t : Φ.Tag) : Nat → Nat → Heap Φ → Heap Φ × Res (List (Φ.El t))
  | 0, _, h => (h, .ok [])
  | n + 1, k, h =>
    match h.read i name t k with
    | (h', .error e) => (h', .error e)
    | (h', .ok x) =>
      match iterateFrom i name t n (k + 1) h' with
      | (h'', .error e) => (h'', .error e)
      | (h'', .ok l) => (h'', .ok (x :: l))

/-- The whole loop; `end()` asks for the number of rows through `table_ref` (column_data.hpp l.82, l.142). -/
def iterate (h : Heap Φ) (i : Nat) (name : Str) (t : Φ.Tag) : Heap Φ × Res (List (Φ.El t)) :=
  match h.getColumn i name t with
  | (h', .error e) => (h', .error e)
  | (h', .ok r) =>
    match h'.objs r.owner with
    | none => (h', .error .ub)
    | some o => iterateFrom i name t o.data.length 0 h'

/-- set_data with a buffer that is parsed without exception (ascii_table.hpp l.73-77, binary_table.hpp l.144-148). -/
def replace (h : Heap Φ) (i : Nat) (cols : List Column) (data : List (List Str)) : Heap Φ × Res Unit :=
  match h.objs i with
  | none => (h, .error .ub)
  | some o => (h.put i (some { o with cols := cols, data := data }), .ok ())

/-- get_data (table_extension.hpp l.89-94), which is also what write_to writes. -/
def rows (h : Heap Φ) (i : Nat) : Res (List (List Str)) :=
  match h.objs i with
  | none => .error .ub
  | some o => .ok o.data

end Heap

/-- What a program can do with table objects. -/
inductive HOp (Φ : Family) where
  | create (cols : List Column) (data : List (List Str))
  | copy (i : Nat)
  | copyOver (i j : Nat)
  | move (i : Nat)
  | moveOver (i j : Nat)
  | setRows (i : Nat) (d : List (List Str))
  | destroy (i : Nat)
  | replace (i : Nat) (cols : List Column) (data : List (List Str))
  | read (i : Nat) (name : Str) (t : Φ.Tag) (row : Nat)
  | update (i : Nat) (name : Str) (t : Φ.Tag) (row : Nat) (x : Φ.El t)
  | assign (i : Nat) (name : Str) (t : Φ.Tag) (row : Nat) (x : Φ.El t)
  | iterate (i : Nat) (name : Str) (t : Φ.Tag)
  | rows (i : Nat)

/-- What it observes. -/
inductive HOut (Φ : Family) where
  | done
  | table (i : Nat)
  | value (t : Φ.Tag) (x : Φ.El t)
  | values (t : Φ.Tag) (l : List (Φ.El t))
  | rows (d : List (List Str))

namespace Heap

variable {Φ : Family}

/-- One statement of the program. -/
def step (h : Heap Φ) : HOp Φ → Heap Φ × Res (HOut Φ)
  | .create cols data => let (h', i) := h.create cols data; (h', .ok (.table i))
  | .copy i => let (h', r) := h.copy i; (h', r.map .table)
  | .copyOver i j => let (h', r) := h.copyOver i j; (h', r.map fun _ => .done)
  | .move i => let (h', r) := h.move i; (h', r.map .table)
  | .moveOver i j => let (h', r) := h.moveOver i j; (h', r.map fun _ => .done)
  | .setRows i d => let (h', r) := h.setRows i d; (h', r.map fun _ => .done)
  | .destroy i => let (h', r) := h.destroy i; (h', r.map fun _ => .done)
  | .replace i cols data => let (h', r) := h.replace i cols data; (h', r.map fun _ => .done)
  | .read i name t row => let (h', r) := h.read i name t row; (h', r.map (.value t))
  | .update i name t row x => let (h', r) := h.update i name t row x; (h', r.map fun _ => .done)
  | .assign i name t row x => let (h', r) := h.assign i name t row x; (h', r.map fun _ => .done)
  | .iterate i name t => let (h', r) := h.iterate i name t; (h', r.map (.values t))
  | .rows i => (h, (h.rows i).map .rows)

/-- A program. -/
def run (h : Heap Φ) : List (HOp Φ) → Heap Φ × List (Res (HOut Φ))
  | [] => (h, [])
  | op :: ops => let (h', r) := h.step op; let (h'', l) := h'.run ops; (h'', r :: l)

end Heap

/-! ### copies of one view -/

/-- The matrix of a table, and views of one column of it: the one kept in `cached_columns`, which get_column returns by reference, and copies
of it made by `auto v = table.get_column<T>(name);`.  A copy has a cache of its own and points to the same matrix. -/
structure Viewers (α : Type) where
  data : List (List Str)
  views : List (View α)

/-- Statements that use the views; views are numbered. -/
inductive WOp (α : Type) where
  | duplicate (p : Nat)
  | read (p row : Nat)
  | update (p row : Nat) (x : α)

namespace Viewers

variable {α : Type}

/-- operator[] of view `p`, column_data.hpp l.156-167. -/
def read (deser : Str → Nat → Res α) (s : Viewers α) (p row : Nat) : Viewers α × Res α :=
  match s.views[p]? with
  | none => (s, .error .ub)
  | some v => let (v', r) := v.read deser s.data row; ({ s with views := s.views.set p v' }, r)

/-- update_value of view `p`, column_data.hpp l.147-150. -/
def update (ser : α → Str) (s : Viewers α) (p row : Nat) (x : α) : Viewers α × Res Unit :=
  match s.views[p]? with
  | none => (s, .error .ub)
  | some v =>
    let (v', d) := v.update ser s.data row x
    match d with
    | .error e => ({ s with views := s.views.set p v' }, .error e)
    | .ok d => (⟨d, s.views.set p v'⟩, .ok ())

/-- The implicit copy constructor of column_view; the copy gets the next number. -/
def duplicate (s : Viewers α) (p : Nat) : Viewers α × Res Unit :=
  match s.views[p]? with
  | none => (s, .error .ub)
  | some v => ({ s with views := s.views ++ [v] }, .ok ())

/-- One statement. -/
def step (deser : Str → Nat → Res α) (ser : α → Str) (s : Viewers α) : WOp α → Viewers α
  | .duplicate p => (s.duplicate p).1
  | .read p row => (s.read deser p row).1
  | .update p row x => (s.update ser p row x).1

/-- A program. -/
def run (deser : Str → Nat → Res α) (ser : α → Str) (s : Viewers α) (ops : List (WOp α)) : Viewers α := ops.foldl (step deser ser) s

end Viewers

end Astro
