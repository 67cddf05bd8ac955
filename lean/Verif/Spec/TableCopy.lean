import Verif.Model.TableCopy

/-
Tables as values: what a program would observe if a copy of a table had nothing to do with the original.
-/

namespace Astro.Spec

variable {Φ : Family}

/-- The tables alive, each a table for itself, and the next unused number. -/
structure Separate (Φ : Family) where
  get : Nat → Option (Obj Φ)
  next : Nat

namespace Separate

/-- No tables. -/
def empty : Separate Φ := ⟨fun _ => none, 0⟩

/-- Change table `i` only. -/
def put (v : Separate Φ) (i : Nat) (o : Option (Obj Φ)) : Separate Φ := { v with get := fun k => if k = i then o else v.get k }

/-- Do something to table `i`, which must exist. -/
def at' {β : Type} (v : Separate Φ) (i : Nat) (f : Obj Φ → Obj Φ × Res β) (out : β → HOut Φ) : Separate Φ × Res (HOut Φ) :=
  match v.get i with
  | none => (v, .error .ub)
  | some o => (v.put i (some (f o).1), (f o).2.map out)

/-- One statement, with value semantics. -/
def step (v : Separate Φ) : HOp Φ → Separate Φ × Res (HOut Φ)
  | .create cols data => ({ (v.put v.next (some (Obj.fresh cols data))) with next := v.next + 1 }, .ok (.table v.next))
  | .copy i => match v.get i with
    | none => (v, .error .ub)
    | some o => ({ (v.put v.next (some o)) with next := v.next + 1 }, .ok (.table v.next))
  | .copyOver i j => match v.get j with
    | none => (v, .error .ub)
    | some o => v.at' i (fun _ => (o, .ok ())) fun _ => .done
  | .move i => match v.get i with
    | none => (v, .error .ub)
    | some o => ({ ((v.put v.next (some o)).put i (some (Obj.fresh [] []))) with next := v.next + 1 }, .ok (.table v.next))
  | .moveOver i j => if i = j then (v, .error .ub) else match v.get i, v.get j with
    | some _, some o => ((v.put i (some o)).put j (some (Obj.fresh [] [])), .ok .done)
    | _, _ => (v, .error .ub)
  | .setRows i d => v.at' i (fun o => ({ o with data := d }, .ok ())) fun _ => .done
  | .destroy i => match v.get i with
    | none => (v, .error .ub)
    | some _ => (v.put i none, .ok .done)
  | .replace i cols data => v.at' i (fun o => (o.replace cols data, .ok ())) fun _ => .done
  | .read i name t row => v.at' i (fun o => o.read name t row) (.value t)
  | .update i name t row x => v.at' i (fun o => o.update name t row x) fun _ => .done
  | .assign i name t row x => v.at' i (fun o => o.assign name t row x) fun _ => .done
  | .iterate i name t => v.at' i (fun o => o.iterate name t) (.values t)
  | .rows i => v.at' i (fun o => (o, .ok o.data)) .rows

/-- A program. -/
def run (v : Separate Φ) : List (HOp Φ) → Separate Φ × List (Res (HOut Φ))
  | [] => (v, [])
  | op :: ops => let (v', r) := v.step op; let (v'', l) := v'.run ops; (v'', r :: l)

/-- No column of table `i` was viewed. -/
def Unviewed (v : Separate Φ) (i : Nat) : Prop := ∀ o, v.get i = some o → ∀ n, o.views n = none

/-- The statement copies or moves no table that has a viewed column (assigning a table to itself is allowed). -/
def CarefulOp (v : Separate Φ) : HOp Φ → Prop
  | .copy i => v.Unviewed i
  | .copyOver i j => i = j ∨ v.Unviewed j
  | .move i => v.Unviewed i
  | .moveOver i j => i = j ∨ v.Unviewed j
  | _ => True

/-- No statement of the program copies or moves a table that has a viewed column at that moment. -/
def Careful (v : Separate Φ) : List (HOp Φ) → Prop
  | [] => True
  | op :: ops => v.CarefulOp op ∧ Careful (v.step op).1 ops

end Separate

/-- A matrix with another text in one cell; columns are counted from 1. -/
def withCell (data : List (List Str)) (row index : Nat) (s : Str) : List (List Str) :=
  data.mapIdx fun r l => if r = row then l.mapIdx (fun c y => if c + 1 = index then s else y) else l

/-- What a view returns for a row: the remembered value if there is one, otherwise `r`. -/
def rememberedOr {α : Type} (w : View α) (row : Nat) (r : Res α) : Res α :=
  match w.cache row with
  | some y => .ok y
  | none => r

/-- The text in row `row` of a column after a program over views of this column, if nothing went wrong: the last value that any view wrote there. -/
def lastText {α : Type} (ser : α → Str) (old : Str) (row : Nat) : List (WOp α) → Str
  | [] => old
  | .update _ r x :: ops => lastText ser (if r = row then ser x else old) row ops
  | _ :: ops => lastText ser old row ops

/-- Every statement uses a view that exists at that moment; there are `n` views at first. -/
def WExisting {α : Type} : Nat → List (WOp α) → Prop
  | _, [] => True
  | n, .duplicate p :: ops => p < n ∧ WExisting (n + 1) ops
  | n, .read p _ :: ops => p < n ∧ WExisting n ops
  | n, .update p _ _ :: ops => p < n ∧ WExisting n ops

/-- The statement is executed through view `p` and concerns row `row`. -/
def touchesRow {α : Type} (p row : Nat) : WOp α → Prop
  | .duplicate _ => False
  | .read q r => q = p ∧ r = row
  | .update q r _ => q = p ∧ r = row

/-- The statement writes row `row` through view `p`. -/
def writesRow {α : Type} (p row : Nat) : WOp α → Prop
  | .update q r _ => q = p ∧ r = row
  | _ => False

end Astro.Spec
