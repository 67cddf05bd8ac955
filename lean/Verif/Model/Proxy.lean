import Verif.Model.View

/-
The objects a column view hands out for its elements (`Proxy`, column_data.hpp l.33-57).

A proxy points to the view it came from, which lives in the `cached_columns` of its table: an `std::unordered_map`, whose elements stay where they are
when others are added.  So the pointer is the name of the column here.  Copies and moves of the table, which leave the pointer behind, are not in this
file.

`Proxy` declares `operator=(DataType)`, which is no copy assignment operator, so the compiler adds one that copies the three members.  For a proxy on
the right side of `=` it is the better match (no conversion).
-/

namespace Astro

/-- Proxy, column_data.hpp l.34-39: row, value, and the view (`callback_ptr`), which is that of column `name` used with element type `tag`. -/
structure Proxy (Φ : Family) where
  name : Str
  tag : Φ.Tag
  row : Nat
  value : Φ.El tag

namespace Proxy

variable {Φ : Family}

/-- The conversion to the element type, column_data.hpp l.46. -/
def get (p : Proxy Φ) : Φ.El p.tag := p.value

/-- `p = x`, column_data.hpp l.52-55: update_value (l.147-150) of the view; the parameter hides the member `value`, which stays. -/
def put (p : Proxy Φ) (x : Φ.El p.tag) (o : Obj Φ) : Obj Φ × Res Unit :=
  match o.views p.name with
  | none => (o, .error .ub)
  | some ⟨t, _⟩ => if t = p.tag then o.update p.name p.tag p.row x else (o, .error .ub)

/-- `p = q` for two proxies of one element type: the compiler's copy assignment, column_data.hpp l.34-39. -/
def copyFrom (_p q : Proxy Φ) : Proxy Φ := ⟨q.name, q.tag, q.row, q.value⟩

end Proxy

namespace Obj

variable {Φ : Family}

/-- `auto p = table.get_column<T>(name)[row]`, column_data.hpp l.156-167; also `auto p = *i` for an iterator, l.118-120. -/
def take (o : Obj Φ) (name : Str) (t : Φ.Tag) (row : Nat) : Obj Φ × Res (Proxy Φ) :=
  match o.read name t row with
  | (o', .error e) => (o', .error e)
  | (o', .ok x) => (o', .ok ⟨name, t, row, x⟩)

/-- `a[row] = b[row']` for two columns used with the same element type: two temporaries, of which the left one is copied over.  The right side is
evaluated first (C++17; before, the order was open, and with it which of two exceptions is thrown). -/
def moveCell (o : Obj Φ) (t : Φ.Tag) (name : Str) (row : Nat) (name' : Str) (row' : Nat) : Obj Φ × Res (Proxy Φ) :=
  match o.take name' t row' with
  | (o1, .error e) => (o1, .error e)
  | (o1, .ok q) =>
    match o1.take name t row with
    | (o2, .error e) => (o2, .error e)
    | (o2, .ok p) => (o2, .ok (p.copyFrom q))

end Obj

/-- A table and the proxies the program keeps in variables. -/
structure Desk (Φ : Family) where
  obj : Obj Φ
  vars : Nat → Option (Proxy Φ)

/-- Give variable `k` a value. -/
def Desk.keep {Φ : Family} (d : Desk Φ) (k : Nat) (p : Proxy Φ) : Desk Φ := { d with vars := fun i => if i = k then some p else d.vars i }

end Astro
