import Verif.Spec.HeapView
import Verif.Props.TableCopy

/-
Property C161: copies of column views in variables while tables are copied, moved and destroyed.
-/

namespace Astro

open Spec

variable {Φ : Family}

/-- What one statement leaves of the view in variable `p`. -/
theorem view_step (d : VDesk Φ) (p : Nat) (t : Φ.Tag) (r : Ref (Φ.El t)) (h : d.views p = some ⟨t, r⟩) (op : VHOp Φ) (row : Nat) (hop : ¬ Overwrites p row op) :
    ∃ r' : Ref (Φ.El t), (d.step op).1.views p = some ⟨t, r'⟩ ∧ r'.owner = r.owner ∧ r'.view.index = r.view.index ∧ r'.view.total = r.view.total ∧
      (∀ y, r.view.cache row = some y → r'.view.cache row = some y) ∧ (¬ Visits p row op → r'.view.cache row = r.view.cache row) := by
  cases op with
  | plain op => exact ⟨r, h, rfl, rfl, rfl, fun _ hy => hy, fun _ => rfl⟩
  | hold k i name t' =>
    simp only [VDesk.step]
    rcases d.heap.getColumn i name t' with ⟨h', e | s⟩
    · exact ⟨r, h, rfl, rfl, rfl, fun _ hy => hy, fun _ => rfl⟩
    · exact ⟨r, by simp only [VDesk.keep]; rw [if_neg fun e => hop e.symm]; exact h, rfl, rfl, rfl, fun _ hy => hy, fun _ => rfl⟩
  | copy k q =>
    simp only [VDesk.step]
    cases d.views q with
    | none => exact ⟨r, h, rfl, rfl, rfl, fun _ hy => hy, fun _ => rfl⟩
    | some s => exact ⟨r, by simp only [VDesk.keep]; rw [if_neg fun e => hop e.symm]; exact h, rfl, rfl, rfl, fun _ hy => hy, fun _ => rfl⟩
  | read k row' =>
    simp only [VDesk.step]
    by_cases hk : p = k
    · subst hk
      rw [h]
      refine ⟨⟨r.owner, (r.view.read (Φ.deser t) (d.heap.matrix r.owner) row').1⟩, by simp only [VDesk.keep, if_true], rfl, ?_⟩
      simp only [View.read]
      cases hc : r.view.cache row' with
      | some z => exact ⟨rfl, rfl, fun _ hy => hy, fun _ => rfl⟩
      | none =>
        simp only
        cases cellAt (d.heap.matrix r.owner) row' r.view.index with
        | error e => exact ⟨rfl, rfl, fun _ hy => hy, fun _ => rfl⟩
        | ok s =>
          simp only
          cases Φ.deser t s r.view.total with
          | error e => exact ⟨rfl, rfl, fun _ hy => hy, fun _ => rfl⟩
          | ok x =>
            refine ⟨rfl, rfl, fun y hy => ?_, fun hv => ?_⟩
            · simp only [View.remember]
              rw [if_neg]
              · exact hy
              · intro e
                rw [e, hc] at hy
                cases hy
            · simp only [View.remember]
              exact if_neg fun e => hv ⟨rfl, e.symm⟩
    · cases d.views k with
      | none => exact ⟨r, h, rfl, rfl, rfl, fun _ hy => hy, fun _ => rfl⟩
      | some s => exact ⟨r, by simp only [VDesk.keep]; rw [if_neg hk]; exact h, rfl, rfl, rfl, fun _ hy => hy, fun _ => rfl⟩
  | update k row' t' x =>
    simp only [VDesk.step]
    by_cases hk : p = k
    · subst hk
      rw [h]
      simp only
      by_cases e : t' = t
      · subst e
        have hrow : ¬ row = row' := fun e => hop ⟨rfl, e.symm⟩
        simp only [dite_true, View.update]
        cases setCell (d.heap.matrix r.owner) row' r.view.index (Φ.ser t' x) with
        | error e => exact ⟨⟨r.owner, r.view.remember row' x⟩, by simp only [VDesk.keep, if_true], rfl, rfl, rfl, fun y hy => by simp only [View.remember]; rw [if_neg hrow]; exact hy,
            fun _ => if_neg hrow⟩
        | ok m => exact ⟨⟨r.owner, r.view.remember row' x⟩, by simp only [VDesk.keep, if_true], rfl, rfl, rfl, fun y hy => by simp only [View.remember]; rw [if_neg hrow]; exact hy,
            fun _ => if_neg hrow⟩
      · rw [dif_neg e]
        exact ⟨r, h, rfl, rfl, rfl, fun _ hy => hy, fun _ => rfl⟩
    · cases d.views k with
      | none => exact ⟨r, h, rfl, rfl, rfl, fun _ hy => hy, fun _ => rfl⟩
      | some s =>
        simp only
        split
        · split <;> exact ⟨r, by simp only [VDesk.keep]; rw [if_neg hk]; exact h, rfl, rfl, rfl, fun _ hy => hy, fun _ => rfl⟩
        · exact ⟨r, h, rfl, rfl, rfl, fun _ hy => hy, fun _ => rfl⟩

/-- **C161** What a view in a variable has read or written in a row it goes on giving, whatever becomes of the tables, until it writes that row itself. -/
theorem C161_cached (d : VDesk Φ) (p row : Nat) (t : Φ.Tag) (x : Φ.El t) (op : VHOp Φ) (hop : op = .read p row ∧ (d.step op).2 = .ok (.value t x) ∨ op = .update p row t x ∧ (d.step op).2 = .ok .done)
    (ops : List (VHOp Φ)) (hno : ∀ o ∈ ops, ¬ Overwrites p row o) : (((d.step op).1.run ops).1.step (.read p row)).2 = .ok (.value t x) := by
  have key : ∀ (ops : List (VHOp Φ)) (d : VDesk Φ), (∀ o ∈ ops, ¬ Overwrites p row o) → (∃ r : Ref (Φ.El t), d.views p = some ⟨t, r⟩ ∧ r.view.cache row = some x) →
      ∃ r : Ref (Φ.El t), (d.run ops).1.views p = some ⟨t, r⟩ ∧ r.view.cache row = some x := by
    intro ops
    induction ops with
    | nil => intro d _ h; exact h
    | cons o ops ih =>
      rintro d hno ⟨r, h1, h2⟩
      obtain ⟨r', k1, _, _, _, k2, _⟩ := view_step d p t r h1 o row (hno o List.mem_cons_self)
      exact ih _ (fun o ho => hno o (List.mem_cons_of_mem _ ho)) ⟨r', k1, k2 x h2⟩
  obtain ⟨r, h1, h2⟩ := key ops (d.step op).1 hno (by
    rcases hop with ⟨rfl, h⟩ | ⟨rfl, h⟩
    · simp only [VDesk.step] at h ⊢
      cases hv : d.views p with
      | none => rw [hv] at h; cases h
      | some s =>
        obtain ⟨t', r⟩ := s
        rw [hv] at h
        simp only [View.read] at h ⊢
        cases hc : r.view.cache row with
        | some z =>
          rw [hc] at h
          cases h
          exact ⟨r, by simp only [VDesk.keep, if_true], hc⟩
        | none =>
          rw [hc] at h
          simp only at h ⊢
          cases hs : cellAt (d.heap.matrix r.owner) row r.view.index with
          | error e => rw [hs] at h; cases h
          | ok s =>
            rw [hs] at h
            simp only at h ⊢
            cases hd : Φ.deser t' s r.view.total with
            | error e => rw [hd] at h; cases h
            | ok z =>
              rw [hd] at h
              cases h
              exact ⟨_, by simp only [VDesk.keep, if_true]; rfl, by simp only [View.remember, if_true]⟩
    · simp only [VDesk.step] at h ⊢
      cases hv : d.views p with
      | none => rw [hv] at h; cases h
      | some s =>
        obtain ⟨t', r⟩ := s
        rw [hv] at h
        simp only at h ⊢
        by_cases e : t = t'
        · subst e
          simp only [dite_true, View.update] at h ⊢
          cases hs : setCell (d.heap.matrix r.owner) row r.view.index (Φ.ser t x) with
          | error e => rw [hs] at h; cases h
          | ok m => exact ⟨_, by simp only [VDesk.keep, if_true]; rfl, by simp only [View.remember, if_true]⟩
        · rw [dif_neg e] at h
          cases h)
  generalize ((d.step op).1.run ops).1 = d' at h1
  simp only [VDesk.step, h1, View.read, h2, Except.map]

/-- **C161** A row it has not used yet, a view in a variable reads in the table object it was taken from, as that object is then: it does not matter what was copied from it, and if other
data were put or assigned there, these are read, in the place the column had. If the object is gone or has no such cell any more (a table moved from is empty), this is undefined. -/
theorem C161_follows (v : Separate Φ) (i : Nat) (o : Obj Φ) (hi : v.get i = some o) (views : Nat → Option ((t : Φ.Tag) × Ref (Φ.El t))) (p : Nat) (name : Str) (t : Φ.Tag)
    (w : View (Φ.El t)) (hw : (o.getColumn name t).2 = .ok w) (row : Nat) (hc : w.cache row = none) (ops : List (VHOp Φ)) (hno : ∀ op ∈ ops, ¬ Visits p row op) :
    let d := (((⟨v.heap, views⟩ : VDesk Φ).step (.hold p i name t)).1.run ops).1
    (d.step (.read p row)).2 = elementOf t w.index w.total row (d.heap.rows i) := by
  have sub : ∀ op : VHOp Φ, ¬ Visits p row op → ¬ Overwrites p row op := by
    intro op h
    cases op <;> first | exact h | exact id
  have key : ∀ (ops : List (VHOp Φ)) (d : VDesk Φ), (∀ op ∈ ops, ¬ Visits p row op) →
      (∃ r : Ref (Φ.El t), d.views p = some ⟨t, r⟩ ∧ r.owner = i ∧ r.view.index = w.index ∧ r.view.total = w.total ∧ r.view.cache row = none) →
      ∃ r : Ref (Φ.El t), (d.run ops).1.views p = some ⟨t, r⟩ ∧ r.owner = i ∧ r.view.index = w.index ∧ r.view.total = w.total ∧ r.view.cache row = none := by
    intro ops
    induction ops with
    | nil => intro d _ h; exact h
    | cons op ops ih =>
      rintro d hno ⟨r, h1, h2, h3, h4, h5⟩
      have hv := hno op List.mem_cons_self
      obtain ⟨r', k1, k2, k3, k4, _, k5⟩ := view_step d p t r h1 op row (sub op hv)
      exact ih _ (fun o ho => hno o (List.mem_cons_of_mem _ ho)) ⟨r', k1, k2.trans h2, k3.trans h3, k4.trans h4, (k5 hv).trans h5⟩
  intro d
  obtain ⟨r, h1, h2, h3, h4, h5⟩ := key ops ((⟨v.heap, views⟩ : VDesk Φ).step (.hold p i name t)).1 hno (by
    simp only [VDesk.step, heap_getColumn v hi, hw, Except.map]
    exact ⟨⟨i, w⟩, by simp only [VDesk.keep, if_true], rfl, rfl, rfl, hc⟩)
  change d.views p = _ at h1
  generalize d = d at h1
  simp only [VDesk.step, h1, View.read, h5, h3, h4, h2, Heap.matrix, Heap.rows, elementOf]
  cases d.heap.objs i with
  | none => rfl
  | some b =>
    simp only
    change _ = (cellAt b.data row w.index >>= fun s => Φ.deser t s w.total >>= fun x => pure (HOut.value t x))
    cases cellAt b.data row w.index with
    | error e => rfl
    | ok s =>
      change _ = (Φ.deser t s w.total >>= fun x => pure (HOut.value t x))
      simp only
      cases Φ.deser t s w.total <;> rfl

/-- **C161** Writing through a view in a variable changes one cell of one table and nothing else; the views the tables keep themselves do not notice. -/
theorem C161_update (d : VDesk Φ) (p row : Nat) (t : Φ.Tag) (r : Ref (Φ.El t)) (hv : d.views p = some ⟨t, r⟩) (b : Held Φ) (hb : d.heap.objs r.owner = some b) (s : Str)
    (hs : cellAt b.data row r.view.index = .ok s) (x : Φ.El t) :
    (d.step (.update p row t x)).2 = .ok .done ∧ (d.step (.update p row t x)).1.heap.next = d.heap.next ∧
    (∀ k, (d.step (.update p row t x)).1.heap.objs k = if k = r.owner then some { b with data := withCell b.data row r.view.index (Φ.ser t x) } else d.heap.objs k) ∧
    ∀ k, k ≠ p → (d.step (.update p row t x)).1.views k = d.views k := by
  simp only [VDesk.step, hv, dite_true, View.update, Heap.matrix, hb, setCell_withCell (x := Φ.ser t x) hs, VDesk.keep, Heap.setMatrix, Heap.put, true_and, implies_true]
  intro k hk
  exact if_neg hk

/-- **C161** `p = q` between views changes no table, and `p` then reads and writes what `q` does. -/
theorem C161_copied (d : VDesk Φ) (p q : Nat) (hq : d.views q ≠ none) :
    let d' := (d.step (.copy p q)).1
    (d.step (.copy p q)).2 = .ok .done ∧ d'.heap = d.heap ∧ (∀ row, (d'.step (.read p row)).2 = (d.step (.read q row)).2) ∧
    (∀ row t x, (d'.step (.update p row t x)).2 = (d.step (.update q row t x)).2 ∧ (d'.step (.update p row t x)).1.heap = (d.step (.update q row t x)).1.heap) ∧
    ∀ k, k ≠ p → ∀ row, (d'.step (.read k row)).2 = (d.step (.read k row)).2 := by
  cases hv : d.views q with
  | none => exact absurd hv hq
  | some s =>
    obtain ⟨t, r⟩ := s
    simp only [VDesk.step, hv, VDesk.keep, if_true, true_and, implies_true]
    refine ⟨fun row t' x => ?_, fun k hk row => ?_⟩
    · by_cases e : t' = t
      · subst e
        simp only [dite_true, View.update]
        cases setCell (d.heap.matrix r.owner) row r.view.index (Φ.ser t' x) <;> exact ⟨rfl, rfl⟩
      · simp only [dif_neg e, and_self]
    · rw [if_neg hk]
      cases d.views k <;> rfl

/-! ### examples -/

/-- A view is kept, the table is moved: what the view has read is there, the other row is not; the table moved from gets other data, and the view reads them. -/
example (F : FloatText) (G : StreamText) :
    ((⟨.empty, fun _ => none⟩ : VDesk (asciiFamily F G)).run [.plain (.create exCopyCols [[b!"1"], [b!"2"]]), .hold 3 0 b!"N" .longlong, .read 3 0, .plain (.move 0), .read 3 0, .read 3 1,
        .plain (.create exCopyCols [[b!"5"], [b!"6"]]), .plain (.copyOver 0 2), .read 3 0, .read 3 1, .update 3 0 .longlong (9 : BitVec 64), .plain (.rows 0), .plain (.rows 1),
        .plain (.rows 2), .plain (.destroy 0), .read 3 0, .update 3 0 .longlong (8 : BitVec 64)]).2
      = [.ok (.table 0), .ok .done, .ok (.value .longlong (1 : BitVec 64)), .ok (.table 1), .ok (.value .longlong (1 : BitVec 64)), .error .ub,
         .ok (.table 2), .ok .done, .ok (.value .longlong (1 : BitVec 64)), .ok (.value .longlong (6 : BitVec 64)), .ok .done, .ok (.rows [[b!"9"], [b!"6"]]),
         .ok (.rows [[b!"1"], [b!"2"]]), .ok (.rows [[b!"5"], [b!"6"]]), .ok .done, .ok (.value .longlong (9 : BitVec 64)), .error .ub] := rfl

end Astro
