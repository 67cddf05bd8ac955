import Verif.Lemmas.TableCopy

/-
C109: copies of table objects.  C110: copies of column views.  C124: tables that are moved or changed behind the views.
-/

namespace Astro

open Spec

variable {Φ : Family}

/-! ### C109 -/

/-- C109, C124.  As long as no program statement copies or moves a table with a viewed column, tables are values: every program observes exactly what it would observe
if every table were a separate thing, and all views keep pointing to the matrix of their own table.  (Living tables have numbers below `next`.) -/
theorem C109_values (ops : List (HOp Φ)) (h : Separate.Careful .empty ops) :
    (Heap.run (.empty : Heap Φ) ops).2 = (Separate.run .empty ops).2 ∧
    (Heap.run (.empty : Heap Φ) ops).1 = (Separate.run .empty ops).1.heap ∧
    (∀ i o, (Separate.run .empty ops).1.get i = some o → i < (Separate.run .empty ops).1.next) := by
  have e : (Heap.empty : Heap Φ) = (Separate.empty : Separate Φ).heap := rfl
  rw [e, heap_run ops _ h]
  exact ⟨rfl, rfl, numbers_run ops _ (fun i o h => by cases h)⟩

/-- C109.  Table `i` has a view of a column and is copied; then a value is written through the copy.  The program finds: the matrix of the copy is as
before, the cell of the *original* has the new text; the copy's view returns the new value; the original's view returns what it had remembered for this
row, or the new text decoded if it had not been asked for this row before. -/
theorem C109_shared (v : Separate Φ) (i : Nat) (o : Obj Φ) (hi : v.get i = some o) (hn : i < v.next) (name : Str) (t : Φ.Tag) (w : View (Φ.El t))
    (hw : o.views name = some ⟨t, w⟩) (row : Nat) (s : Str) (hs : cellAt o.data row w.index = .ok s) (x : Φ.El t) :
    (v.heap.run [.copy i, .update v.next name t row x, .rows v.next, .rows i, .read v.next name t row, .read i name t row]).2 =
      [.ok (.table v.next), .ok .done, .ok (.rows o.data), .ok (.rows (withCell o.data row w.index (Φ.ser t x))), .ok (.value t x),
       (rememberedOr w row (Φ.deser t (Φ.ser t x) w.total)).map (.value t)] := by
  have hne : ¬ v.next = i := by omega
  have hne' : ¬ i = v.next := by omega
  have ho := heap_objs v i
  rw [hi] at ho
  simp only [Option.map_some] at ho
  have hv := held_view hw i
  have hnx : v.heap.next = v.next := rfl
  have hd : (o.held i).data = o.data := rfl
  have hset := setCell_withCell (x := Φ.ser t x) hs
  have hc := cellAt_withCell (x := Φ.ser t x) hs row w.index
  generalize v.heap = h at *
  cases hcache : w.cache row with
  | some y =>
    simp [Heap.run, Heap.step, Heap.copy, ho, Heap.update, Heap.getColumn, Heap.put, hnx, hv, Heap.matrix, hne, hne', View.update, hset, hd, Heap.putView,
      Heap.setMatrix, Heap.rows, Heap.read, View.read, View.remember, rememberedOr, hcache, Except.map]
  | none =>
    simp [Heap.run, Heap.step, Heap.copy, ho, Heap.update, Heap.getColumn, Heap.put, hnx, hv, Heap.matrix, hne, hne', View.update, hset, hd, Heap.putView,
      Heap.setMatrix, Heap.rows, Heap.read, View.read, View.remember, rememberedOr, hcache, Except.map, hc]
    cases Φ.deser t (Φ.ser t x) w.total <;> rfl

/-- C109.  The other way round: after the copy a value is written through the original.  The original's matrix changes and the copy's does not, but the
copy's view returns the decoded new text (unless it had remembered the row). -/
theorem C109_original (v : Separate Φ) (i : Nat) (o : Obj Φ) (hi : v.get i = some o) (hn : i < v.next) (name : Str) (t : Φ.Tag) (w : View (Φ.El t))
    (hw : o.views name = some ⟨t, w⟩) (row : Nat) (s : Str) (hs : cellAt o.data row w.index = .ok s) (x : Φ.El t) :
    (v.heap.run [.copy i, .update i name t row x, .rows v.next, .rows i, .read v.next name t row, .read i name t row]).2 =
      [.ok (.table v.next), .ok .done, .ok (.rows o.data), .ok (.rows (withCell o.data row w.index (Φ.ser t x))),
       (rememberedOr w row (Φ.deser t (Φ.ser t x) w.total)).map (.value t), .ok (.value t x)] := by
  have hne : ¬ v.next = i := by omega
  have hne' : ¬ i = v.next := by omega
  have ho := heap_objs v i
  rw [hi] at ho
  simp only [Option.map_some] at ho
  have hv := held_view hw i
  have hnx : v.heap.next = v.next := rfl
  have hd : (o.held i).data = o.data := rfl
  have hset := setCell_withCell (x := Φ.ser t x) hs
  have hc := cellAt_withCell (x := Φ.ser t x) hs row w.index
  generalize v.heap = h at *
  cases hcache : w.cache row with
  | some y =>
    simp [Heap.run, Heap.step, Heap.copy, ho, Heap.update, Heap.getColumn, Heap.put, hnx, hv, Heap.matrix, hne, hne', View.update, hset, hd, Heap.putView,
      Heap.setMatrix, Heap.rows, Heap.read, View.read, View.remember, rememberedOr, hcache, Except.map]
  | none =>
    simp [Heap.run, Heap.step, Heap.copy, ho, Heap.update, Heap.getColumn, Heap.put, hnx, hv, Heap.matrix, hne, hne', View.update, hset, hd, Heap.putView,
      Heap.setMatrix, Heap.rows, Heap.read, View.read, View.remember, rememberedOr, hcache, Except.map, hc]
    cases Φ.deser t (Φ.ser t x) w.total <;> rfl

/-- C109.  When the original is destroyed, its matrix is intact in the copy, but through the copy's view only remembered rows can still be read; reading
another row, looping over the column and writing are undefined behaviour. -/
theorem C109_dangling (v : Separate Φ) (i : Nat) (o : Obj Φ) (hi : v.get i = some o) (hn : i < v.next) (name : Str) (t : Φ.Tag) (w : View (Φ.El t))
    (hw : o.views name = some ⟨t, w⟩) (row row' : Nat) (x : Φ.El t) :
    (v.heap.run [.copy i, .destroy i, .rows v.next, .read v.next name t row, .iterate v.next name t, .update v.next name t row' x]).2 =
      [.ok (.table v.next), .ok .done, .ok (.rows o.data),
       (rememberedOr w row (.error .ub)).map (.value t), .error .ub, .error .ub] := by
  have hne : ¬ v.next = i := by omega
  have hne' : ¬ i = v.next := by omega
  have ho := heap_objs v i
  rw [hi] at ho
  simp only [Option.map_some] at ho
  have hv := held_view hw i
  have hnx : v.heap.next = v.next := rfl
  have hd : (o.held i).data = o.data := rfl
  generalize v.heap = h at *
  have hub : ∀ r, cellAt [] r w.index = .error .ub := fun r => rfl
  have hub' : ∀ r y, setCell [] r w.index y = .error .ub := fun r y => rfl
  cases hcache : w.cache row with
  | some y =>
    simp [Heap.run, Heap.step, Heap.copy, Heap.destroy, ho, Heap.update, Heap.getColumn, Heap.put, hnx, hv, Heap.matrix, hne, hne', View.update, hd,
      Heap.putView, Heap.iterate, Heap.rows, Heap.read, View.read, rememberedOr, hcache, Except.map, hub']
  | none =>
    simp [Heap.run, Heap.step, Heap.copy, Heap.destroy, ho, Heap.update, Heap.getColumn, Heap.put, hnx, hv, Heap.matrix, hne, hne', View.update, hd,
      Heap.putView, Heap.iterate, Heap.rows, Heap.read, View.read, rememberedOr, hcache, Except.map, hub, hub']

/-- C109.  The condition of `C109_values` cannot be weakened: whenever a table with a viewed, existing column is copied (by copy construction or by
assignment to another table), some continuation behaves differently from values. -/
theorem C109_needed (v : Separate Φ) (i : Nat) (o : Obj Φ) (hi : v.get i = some o) (hn : i < v.next) (name : Str) (t : Φ.Tag) (w : View (Φ.El t))
    (hw : o.views name = some ⟨t, w⟩) (row : Nat) (s : Str) (hs : cellAt o.data row w.index = .ok s) (x : Φ.El t) :
    (∃ ops, (v.heap.run (.copy i :: ops)).2 ≠ (v.run (.copy i :: ops)).2) ∧
    (∀ j o', j ≠ i → v.get j = some o' → ∃ ops, (v.heap.run (.copyOver j i :: ops)).2 ≠ (v.run (.copyOver j i :: ops)).2) := by
  have hne : ¬ v.next = i := by omega
  have hne' : ¬ i = v.next := by omega
  have ho := heap_objs v i
  rw [hi] at ho
  simp only [Option.map_some] at ho
  have hv := held_view hw i
  have hnx : v.heap.next = v.next := rfl
  have hd : (o.held i).data = o.data := rfl
  have hset := setCell_withCell (x := Φ.ser t x) hs
  have hc := cellAt_withCell (x := Φ.ser t x) hs row w.index
  have hub' : ∀ r y, setCell [] r w.index y = .error .ub := fun r y => rfl
  constructor
  · refine ⟨[.destroy i, .update v.next name t row x], ?_⟩
    generalize v.heap = h at *
    simp [Heap.run, Heap.step, Heap.copy, Heap.destroy, ho, Heap.update, Heap.getColumn, Heap.put, hnx, hv, Heap.matrix, hne, hne', View.update,
      Heap.putView, Except.map, hub', Separate.run, Separate.step, hi, Separate.put, Separate.at', Obj.update, Obj.getColumn, hw, hset]
  · intro j o' hj hj'
    have hij : ¬ i = j := fun e => hj e.symm
    have ho' := heap_objs v j
    rw [hj'] at ho'
    simp only [Option.map_some] at ho'
    refine ⟨[.destroy i, .update j name t row x], ?_⟩
    generalize v.heap = h at *
    simp [Heap.run, Heap.step, Heap.copyOver, Heap.destroy, ho, ho', Heap.update, Heap.getColumn, Heap.put, hv, Heap.matrix, hj, hij, View.update,
      Heap.putView, Except.map, hub', Separate.run, Separate.step, hi, hj', Separate.put, Separate.at', Obj.update, Obj.getColumn, hw, hset]

/-! ### C124 -/

/-- C124.  Table `i` has a view of a column and is moved (returned from a function, put into a growing vector, …).  The new object has the whole matrix, but
through its view the column is empty: a loop over it finds no rows, a row can only be read if it is remembered, writing is undefined behaviour. -/
theorem C124_moved (v : Separate Φ) (i : Nat) (o : Obj Φ) (hi : v.get i = some o) (hn : i < v.next) (name : Str) (t : Φ.Tag) (w : View (Φ.El t))
    (hw : o.views name = some ⟨t, w⟩) (row row' : Nat) (x : Φ.El t) :
    (v.heap.run [.move i, .rows v.next, .iterate v.next name t, .read v.next name t row, .update v.next name t row' x]).2 =
      [.ok (.table v.next), .ok (.rows o.data), .ok (.values t []), (rememberedOr w row (.error .ub)).map (.value t), .error .ub] := by
  have hne : ¬ v.next = i := by omega
  have hne' : ¬ i = v.next := by omega
  have ho := heap_objs v i
  rw [hi] at ho
  simp only [Option.map_some] at ho
  have hv := held_view hw i
  have hnx : v.heap.next = v.next := rfl
  have hd : (o.held i).data = o.data := rfl
  generalize v.heap = h at *
  have hub : ∀ r, cellAt [] r w.index = .error .ub := fun r => rfl
  have hub' : ∀ r y, setCell [] r w.index y = .error .ub := fun r y => rfl
  cases hcache : w.cache row with
  | some y =>
    simp [Heap.run, Heap.step, Heap.move, ho, Heap.update, Heap.getColumn, Heap.put, hnx, hv, Heap.matrix, hne, hne', View.update, hd,
      Heap.putView, Heap.iterate, Heap.iterateFrom, Heap.rows, Heap.read, View.read, rememberedOr, hcache, Except.map, hub']
  | none =>
    simp [Heap.run, Heap.step, Heap.move, ho, Heap.update, Heap.getColumn, Heap.put, hnx, hv, Heap.matrix, hne, hne', View.update, hd,
      Heap.putView, Heap.iterate, Heap.iterateFrom, Heap.rows, Heap.read, View.read, rememberedOr, hcache, Except.map, hub, hub']

/-- C124.  The same after move assignment to another table `j`: the moved matrix arrives, the moved view is of no use. -/
theorem C124_assigned (v : Separate Φ) (i j : Nat) (o o' : Obj Φ) (hi : v.get i = some o) (hj : v.get j = some o') (hij : j ≠ i) (name : Str) (t : Φ.Tag)
    (w : View (Φ.El t)) (hw : o.views name = some ⟨t, w⟩) (row row' : Nat) (x : Φ.El t) :
    (v.heap.run [.moveOver j i, .rows j, .iterate j name t, .read j name t row, .update j name t row' x]).2 =
      [.ok .done, .ok (.rows o.data), .ok (.values t []), (rememberedOr w row (.error .ub)).map (.value t), .error .ub] := by
  have hne : ¬ j = i := hij
  have hne' : ¬ i = j := fun e => hij e.symm
  have ho := heap_objs v i
  rw [hi] at ho
  simp only [Option.map_some] at ho
  have ho' := heap_objs v j
  rw [hj] at ho'
  simp only [Option.map_some] at ho'
  have hv := held_view hw i
  have hd : (o.held i).data = o.data := rfl
  generalize v.heap = h at *
  have hub : ∀ r, cellAt [] r w.index = .error .ub := fun r => rfl
  have hub' : ∀ r y, setCell [] r w.index y = .error .ub := fun r y => rfl
  cases hcache : w.cache row with
  | some y =>
    simp [Heap.run, Heap.step, Heap.moveOver, ho, ho', Heap.update, Heap.getColumn, Heap.put, hv, Heap.matrix, hne, hne', View.update, hd,
      Heap.putView, Heap.iterate, Heap.iterateFrom, Heap.rows, Heap.read, View.read, rememberedOr, hcache, Except.map, hub']
  | none =>
    simp [Heap.run, Heap.step, Heap.moveOver, ho, ho', Heap.update, Heap.getColumn, Heap.put, hv, Heap.matrix, hne, hne', View.update, hd,
      Heap.putView, Heap.iterate, Heap.iterateFrom, Heap.rows, Heap.read, View.read, rememberedOr, hcache, Except.map, hub, hub']

/-- C124.  A change of the matrix through get_data() reaches what is written to the file at once, but a view goes on returning the values it
remembers; only rows it was never asked for are decoded from the new matrix. -/
theorem C124_behind (v : Separate Φ) (i : Nat) (o : Obj Φ) (hi : v.get i = some o) (name : Str) (t : Φ.Tag) (w : View (Φ.El t))
    (hw : o.views name = some ⟨t, w⟩) (row : Nat) (d : List (List Str)) (s : Str) (hs : cellAt d row w.index = .ok s) :
    (v.heap.run [.setRows i d, .rows i, .read i name t row]).2 =
      [.ok .done, .ok (.rows d), (rememberedOr w row (Φ.deser t s w.total)).map (.value t)] := by
  have ho := heap_objs v i
  rw [hi] at ho
  simp only [Option.map_some] at ho
  have hv := held_view hw i
  generalize v.heap = h at *
  cases hcache : w.cache row with
  | some y =>
    simp [Heap.run, Heap.step, Heap.setRows, ho, Heap.getColumn, Heap.put, hv, Heap.rows, Heap.read, View.read, rememberedOr, hcache, Except.map]
  | none =>
    simp [Heap.run, Heap.step, Heap.setRows, ho, Heap.getColumn, Heap.put, hv, Heap.matrix, Heap.rows, Heap.read, View.read, rememberedOr, hcache, Except.map, hs]
    cases Φ.deser t s w.total <;> rfl

/-! ### C110 -/

variable {α : Type} {deser : Str → Nat → Res α} {ser : α → Str}

/-- C110.  A view that knows a row — it read or wrote it, or was copied from a view that had — returns the same value for ever, until it is written through
this very view; what is written through other views of the column does not matter. -/
theorem C110_frozen (s : Viewers α) (p row : Nat) (v : View α) (y : α) (hp : s.views[p]? = some v) (hy : v.cache row = some y) (ops : List (WOp α))
    (h : ∀ op ∈ ops, ¬ writesRow p row op) : ((s.run deser ser ops).read deser p row).2 = .ok y := by
  obtain ⟨v', h1, h2⟩ := Viewers.run_frozen (deser := deser) (ser := ser) ops s v hp hy h
  simp [Viewers.read, h1, View.read, h2]

/-- C110.  In particular a value written through a view, and a value read through it, is what this view returns afterwards. -/
theorem C110_own (s : Viewers α) (p row : Nat) (v : View α) (hp : s.views[p]? = some v) (ops : List (WOp α))
    (h : ∀ op ∈ ops, ¬ writesRow p row op) :
    (∀ x, ((s.run deser ser (.update p row x :: ops)).read deser p row).2 = .ok x) ∧
    (∀ x, (s.read deser p row).2 = .ok x → ((s.run deser ser (.read p row :: ops)).read deser p row).2 = .ok x) := by
  have hlt := (List.getElem?_eq_some_iff.1 hp).1
  constructor
  · intro x
    have hv : (s.step deser ser (.update p row x)).views[p]? = some (v.remember row x) := by
      simp only [Viewers.step, Viewers.update, hp, View.update]
      cases setCell s.data row v.index (ser x) <;> simp [hlt]
    exact C110_frozen (s.step deser ser (.update p row x)) p row (v.remember row x) x hv (by simp [View.remember]) ops h
  · intro x hx
    simp only [Viewers.read, hp] at hx
    have hv : (s.step deser ser (.read p row)).views[p]? = some (v.read deser s.data row).1 := by
      simp only [Viewers.step, Viewers.read, hp, List.getElem?_set_self hlt]
    refine C110_frozen (s.step deser ser (.read p row)) p row _ x hv ?_ ops h
    unfold View.read at hx ⊢
    cases hc : v.cache row with
    | some z => rw [hc] at hx; simp only [Except.ok.injEq] at hx; simp only; rw [hc, hx]
    | none =>
      rw [hc] at hx
      simp only at hx ⊢
      cases hd : cellAt s.data row v.index with
      | error e => rw [hd] at hx; cases hx
      | ok t =>
        rw [hd] at hx
        simp only at hx ⊢
        cases hz : deser t v.total with
        | error e => rw [hz] at hx; cases hx
        | ok z => rw [hz] at hx; simp only [Except.ok.injEq] at hx; simp [View.remember, hx]

/-- C110.  All views write into the same matrix: a cell holds the text of the value written last through any of them.  A view that does not know a row
returns this text decoded. -/
theorem C110_fresh (s : Viewers α) (idx total : Nat) (hs : ∀ v ∈ s.views, v.index = idx ∧ v.total = total) (p row : Nat) (v : View α)
    (hp : s.views[p]? = some v) (hv : v.cache row = none) (old : Str) (hc : cellAt s.data row idx = .ok old) (ops : List (WOp α))
    (he : WExisting s.views.length ops) (h : ∀ op ∈ ops, ¬ touchesRow p row op) :
    cellAt (s.run deser ser ops).data row idx = .ok (lastText ser old row ops) ∧
    ((s.run deser ser ops).read deser p row).2 = deser (lastText ser old row ops) total := by
  obtain ⟨h1, v', h2, h3, h4, h5⟩ := Viewers.run_fresh (deser := deser) (ser := ser) ops s v old (fun q u hq => hs u (List.mem_of_getElem? hq)) hp hc he h
  refine ⟨h1, ?_⟩
  rw [hv] at h3
  simp only [Viewers.read, h2, View.read, h3, h4, h5, h1]
  cases deser (lastText ser old row ops) total <;> rfl

/-- C110.  A copy of a view starts with everything the view knows. -/
theorem C110_copy (s : Viewers α) (p : Nat) (v : View α) (hp : s.views[p]? = some v) :
    (s.step deser ser (.duplicate p)).views[s.views.length]? = some v ∧ (s.step deser ser (.duplicate p)).data = s.data := by
  simp [Viewers.step, Viewers.duplicate, hp]

/-! ### examples -/

/-- A table with one column and two rows. -/
def exCopyCols : List Column := [⟨1, b!"N", 1, b!"I2", [], none, none, [], [], [], 0⟩]

/-- C109: a copy made before the first get_column is independent … -/
example (F : FloatText) (G : StreamText) :
    (Heap.run (.empty : Heap (asciiFamily F G)) [.create exCopyCols [[b!"1"], [b!"2"]], .copy 0, .assign 1 b!"N" .longlong 0 (7 : BitVec 64), .rows 0, .rows 1]).2
      = [.ok (.table 0), .ok (.table 1), .ok .done, .ok (.rows [[b!"1"], [b!"2"]]), .ok (.rows [[b!"7"], [b!"2"]])] := rfl

/-- … and one made after it writes into the original; when the original is gone it cannot be used. -/
example (F : FloatText) (G : StreamText) :
    (Heap.run (.empty : Heap (asciiFamily F G)) [.create exCopyCols [[b!"1"], [b!"2"]], .read 0 b!"N" .longlong 0, .copy 0,
        .assign 1 b!"N" .longlong 0 (7 : BitVec 64), .rows 0, .rows 1, .read 0 b!"N" .longlong 0, .destroy 0, .read 1 b!"N" .longlong 1]).2
      = [.ok (.table 0), .ok (.value .longlong (1 : BitVec 64)), .ok (.table 1), .ok .done, .ok (.rows [[b!"7"], [b!"2"]]),
         .ok (.rows [[b!"1"], [b!"2"]]), .ok (.value .longlong (1 : BitVec 64)), .ok .done, .error .ub] := rfl

/-- C109: the first of these programs is careful, the second is not. -/
example (F : FloatText) (G : StreamText) :
    Separate.Careful (Φ := asciiFamily F G) .empty [.create exCopyCols [[b!"1"], [b!"2"]], .copy 0, .assign 1 b!"N" .longlong 0 (7 : BitVec 64), .rows 0, .rows 1] ∧
    ¬ Separate.Careful (Φ := asciiFamily F G) .empty [.create exCopyCols [[b!"1"], [b!"2"]], .read 0 b!"N" .longlong 0, .copy 0] := by
  constructor
  · refine ⟨trivial, ?_, trivial, trivial, trivial, trivial⟩
    intro o ho n
    cases ho; rfl
  · rintro ⟨_, _, h, _⟩
    have := h _ rfl b!"N"
    cases this

/-- C124: a table is moved after a column was viewed: the loop finds nothing, the matrix is there.  A change through get_data() is not seen by the view. -/
example (F : FloatText) (G : StreamText) :
    (Heap.run (.empty : Heap (asciiFamily F G)) [.create exCopyCols [[b!"1"], [b!"2"]], .read 0 b!"N" .longlong 0, .move 0, .rows 1, .iterate 1 b!"N" .longlong,
        .read 1 b!"N" .longlong 0, .read 1 b!"N" .longlong 1]).2
      = [.ok (.table 0), .ok (.value .longlong (1 : BitVec 64)), .ok (.table 1), .ok (.rows [[b!"1"], [b!"2"]]), .ok (.values .longlong []),
         .ok (.value .longlong (1 : BitVec 64)), .error .ub] ∧
    (Heap.run (.empty : Heap (asciiFamily F G)) [.create exCopyCols [[b!"1"], [b!"2"]], .read 0 b!"N" .longlong 0, .setRows 0 [[b!"5"], [b!"6"]],
        .read 0 b!"N" .longlong 0, .read 0 b!"N" .longlong 1]).2
      = [.ok (.table 0), .ok (.value .longlong (1 : BitVec 64)), .ok .done, .ok (.value .longlong (1 : BitVec 64)), .ok (.value .longlong (6 : BitVec 64))] :=
  ⟨rfl, rfl⟩

/-- C110: view 0 has read row 0; view 1 is a copy of it; each changes row 0 and neither notices the other; row 1 is known to none of them. -/
example (F : FloatText) : let deser : Str → Nat → Res (BitVec 64) := asciiDeser F .longlong
    let ser : BitVec 64 → Str := fun v => showInt v.toInt
    let s : Viewers (BitVec 64) := (⟨[[b!"1"], [b!"2"]], [⟨1, 1, fun _ => none⟩]⟩ : Viewers (BitVec 64)).run deser ser
      [.read 0 0, .duplicate 0, .update 1 0 7, .update 1 1 8]
    s.data = [[b!"7"], [b!"8"]] ∧ (s.read deser 0 0).2 = .ok 1 ∧ (s.read deser 1 0).2 = .ok 7 ∧ (s.read deser 0 1).2 = .ok 8 := ⟨rfl, rfl, rfl, rfl⟩

end Astro
