import Verif.Spec.TableCopy
import Verif.Lemmas.View

/-
Helper lemmas: tables none of whose views point to another table behave like values.
-/

namespace Astro

open Spec

variable {Φ : Family}

/-- The object with identity `i` whose views all point to its own matrix. -/
def Obj.held (i : Nat) (o : Obj Φ) : Held Φ := ⟨o.cols, o.data, fun n => (o.views n).map fun p => ⟨p.1, ⟨i, p.2⟩⟩⟩

/-- All tables as objects whose views point to their own matrices. -/
def Spec.Separate.heap (v : Separate Φ) : Heap Φ := ⟨fun i => (v.get i).map (Obj.held i), v.next⟩

theorem heap_objs (v : Separate Φ) (i : Nat) : v.heap.objs i = (v.get i).map (Obj.held i) := rfl

theorem heap_put (v : Separate Φ) (i : Nat) (o : Option (Obj Φ)) : v.heap.put i (o.map (Obj.held i)) = (v.put i o).heap := by
  unfold Heap.put Separate.heap Separate.put
  simp only [Heap.mk.injEq, and_true]
  funext k
  by_cases h : k = i
  · subst h; simp
  · simp [h]

theorem put_same (v : Separate Φ) {i : Nat} {o : Obj Φ} (h : v.get i = some o) : v.put i (some o) = v := by
  unfold Separate.put
  obtain ⟨g, n⟩ := v
  simp only [Separate.mk.injEq, and_true] at *
  funext k
  by_cases hk : k = i
  · subst hk; simp [h]
  · simp [hk]

theorem put_put (v : Separate Φ) (i : Nat) (a b : Option (Obj Φ)) : (v.put i a).put i b = v.put i b := by
  unfold Separate.put
  simp only [Separate.mk.injEq, and_true]
  funext k
  by_cases hk : k = i
  · simp [hk]
  · simp [hk]

theorem get_put (v : Separate Φ) (i : Nat) (a : Option (Obj Φ)) : (v.put i a).get i = a := by simp [Separate.put]

theorem heap_putView (v : Separate Φ) {i : Nat} {o : Obj Φ} (h : v.get i = some o) (name : Str) (t : Φ.Tag) (w : View (Φ.El t)) :
    v.heap.putView i name t ⟨i, w⟩ = (v.put i (some (o.putView name t w))).heap := by
  unfold Heap.putView
  rw [heap_objs, h]
  simp only [Option.map_some]
  rw [← heap_put]
  congr 2
  unfold Obj.held Obj.putView
  simp only [Held.mk.injEq, true_and]
  funext n
  by_cases hn : n = name
  · simp [hn]
  · simp [hn]

theorem heap_setMatrix (v : Separate Φ) {i : Nat} {o : Obj Φ} (h : v.get i = some o) (d : List (List Str)) :
    v.heap.setMatrix i d = (v.put i (some { o with data := d })).heap := by
  unfold Heap.setMatrix
  rw [heap_objs, h]
  simp only [Option.map_some]
  rw [← heap_put]
  rfl

theorem heap_matrix (v : Separate Φ) {i : Nat} {o : Obj Φ} (h : v.get i = some o) : v.heap.matrix i = o.data := by
  unfold Heap.matrix
  rw [heap_objs, h]; rfl

theorem heap_getColumn (v : Separate Φ) {i : Nat} {o : Obj Φ} (h : v.get i = some o) (name : Str) (t : Φ.Tag) :
    v.heap.getColumn i name t = ((v.put i (some (o.getColumn name t).1)).heap, (o.getColumn name t).2.map (Ref.mk i)) := by
  unfold Heap.getColumn Obj.getColumn
  rw [heap_objs, h]
  simp only [Option.map_some]
  cases hv : o.views name with
  | some p =>
    obtain ⟨t', w⟩ := p
    have e : (Obj.held i o).views name = some ⟨t', ⟨i, w⟩⟩ := by simp [Obj.held, hv]
    simp only [e]
    by_cases ht : t' = t
    · subst ht; simp [put_same v h, Except.map]
    · simp [ht, put_same v h, Except.map]
  | none =>
    have e : (Obj.held i o).views name = none := by simp [Obj.held, hv]
    have ec : (Obj.held i o).cols = o.cols := rfl
    simp only [e, ec]
    cases hc : Table.columnMetadata o.cols name with
    | error e => simp [put_same v h, Except.map]
    | ok c =>
      simp only [Except.map]
      rw [heap_putView v h]

theorem heap_read (v : Separate Φ) {i : Nat} {o : Obj Φ} (h : v.get i = some o) (name : Str) (t : Φ.Tag) (row : Nat) :
    v.heap.read i name t row = ((v.put i (some (o.read name t row).1)).heap, (o.read name t row).2) := by
  unfold Heap.read Obj.read
  rw [heap_getColumn v h]
  rcases hg : o.getColumn name t with ⟨o', r⟩
  cases r with
  | error e => rfl
  | ok w =>
    simp only [Except.map]
    have hg' := get_put v i (some o')
    rw [heap_matrix _ hg', heap_putView _ hg', put_put]

theorem heap_update (v : Separate Φ) {i : Nat} {o : Obj Φ} (h : v.get i = some o) (name : Str) (t : Φ.Tag) (row : Nat) (x : Φ.El t) :
    v.heap.update i name t row x = ((v.put i (some (o.update name t row x).1)).heap, (o.update name t row x).2) := by
  unfold Heap.update Obj.update
  rw [heap_getColumn v h]
  rcases hg : o.getColumn name t with ⟨o', r⟩
  cases r with
  | error e => rfl
  | ok w =>
    simp only [Except.map]
    have hg' := get_put v i (some o')
    rw [heap_matrix _ hg']
    rcases hu : w.update (Φ.ser t) o'.data row x with ⟨w', d⟩
    cases d with
    | error e => simp only [heap_putView _ hg', put_put]
    | ok d =>
      simp only [heap_putView _ hg', put_put]
      rw [heap_setMatrix _ (get_put v i _), put_put]

theorem heap_assign (v : Separate Φ) {i : Nat} {o : Obj Φ} (h : v.get i = some o) (name : Str) (t : Φ.Tag) (row : Nat) (x : Φ.El t) :
    v.heap.assign i name t row x = ((v.put i (some (o.assign name t row x).1)).heap, (o.assign name t row x).2) := by
  unfold Heap.assign Obj.assign
  rw [heap_read v h]
  rcases hg : o.read name t row with ⟨o', r⟩
  cases r with
  | error e => rfl
  | ok w => simp only [heap_update _ (get_put v i (some o')), put_put]

theorem heap_iterateFrom (i : Nat) (name : Str) (t : Φ.Tag) : ∀ (n k : Nat) (v : Separate Φ) (o : Obj Φ), v.get i = some o →
    Heap.iterateFrom i name t n k v.heap
      = ((v.put i (some (Obj.iterateFrom name t n k o).1)).heap, (Obj.iterateFrom name t n k o).2)
  | 0, _, v, o, h => by simp [Heap.iterateFrom, Obj.iterateFrom, put_same v h]
  | n + 1, k, v, o, h => by
    unfold Heap.iterateFrom Obj.iterateFrom
    rw [heap_read v h]
    rcases hg : o.read name t k with ⟨o', r⟩
    cases r with
    | error e => rfl
    | ok x =>
      simp only
      rw [heap_iterateFrom i name t n (k + 1) _ o' (get_put v i _)]
      rcases hi : Obj.iterateFrom name t n (k + 1) o' with ⟨o'', r⟩
      cases r with
      | error e => simp only [put_put]
      | ok l => simp only [put_put]

theorem heap_iterate (v : Separate Φ) {i : Nat} {o : Obj Φ} (h : v.get i = some o) (name : Str) (t : Φ.Tag) :
    v.heap.iterate i name t = ((v.put i (some (o.iterate name t).1)).heap, (o.iterate name t).2) := by
  unfold Heap.iterate Obj.iterate
  rw [heap_getColumn v h]
  rcases hg : o.getColumn name t with ⟨o', r⟩
  cases r with
  | error e => rfl
  | ok w =>
    simp only [Except.map]
    have hg' := get_put v i (some o')
    rw [heap_objs, hg']
    simp only [Option.map_some]
    have e : (Obj.held i o').data = o'.data := rfl
    rw [e, heap_iterateFrom i name t _ _ _ o' hg', put_put]

/-- Without views nothing in an object depends on its identity. -/
theorem held_unviewed {o : Obj Φ} (h : ∀ n, o.views n = none) (i j : Nat) : o.held i = o.held j := by
  unfold Obj.held
  simp [h]

theorem heap_next (v : Separate Φ) (n : Nat) : { v.heap with next := n } = ({ v with next := n } : Separate Φ).heap := rfl

theorem heap_step (v : Separate Φ) (op : HOp Φ) (hc : v.CarefulOp op) : v.heap.step op = ((v.step op).1.heap, (v.step op).2) := by
  cases op with
  | create cols data =>
    have e : (some (⟨cols, data, fun _ => none⟩ : Held Φ)) = (some (Obj.fresh cols data)).map (Obj.held v.next) := rfl
    simp only [Heap.step, Heap.create, Separate.step]
    have : v.heap.next = v.next := rfl
    rw [this, e, heap_put]; rfl
  | copy i =>
    simp only [Heap.step, Heap.copy, Separate.step]
    rw [heap_objs]
    cases h : v.get i with
    | none => rfl
    | some o =>
      simp only [Option.map_some]
      have : v.heap.next = v.next := rfl
      rw [this, held_unviewed (hc o h) i v.next]
      have e : some (Obj.held v.next o) = (some o).map (Obj.held v.next) := rfl
      rw [e, heap_put]; rfl
  | copyOver i j =>
    simp only [Heap.step, Heap.copyOver, Separate.step, Separate.at']
    rw [heap_objs, heap_objs]
    cases hj : v.get j with
    | none => cases hi : v.get i <;> rfl
    | some o =>
      cases hi : v.get i with
      | none => rfl
      | some o' =>
        simp only [Option.map_some]
        have e1 : Obj.held j o = Obj.held i o := by
          rcases hc with e | hc
          · rw [e]
          · exact held_unviewed (hc o hj) j i
        have e : some (Obj.held i o) = (some o).map (Obj.held i) := rfl
        rw [e1, e, heap_put]
  | move i =>
    simp only [Heap.step, Heap.move, Separate.step]
    rw [heap_objs]
    cases h : v.get i with
    | none => rfl
    | some o =>
      simp only [Option.map_some]
      have : v.heap.next = v.next := rfl
      rw [this, held_unviewed (hc o h) i v.next]
      have e : some (Obj.held v.next o) = (some o).map (Obj.held v.next) := rfl
      have e' : (some (⟨[], [], fun _ => none⟩ : Held Φ)) = (some (Obj.fresh [] [])).map (Obj.held i) := rfl
      rw [e, e', heap_put, heap_put]; rfl
  | moveOver i j =>
    simp only [Heap.step, Heap.moveOver, Separate.step]
    by_cases hij : i = j
    · rw [if_pos hij, if_pos hij]; rfl
    · rw [if_neg hij, if_neg hij, heap_objs, heap_objs]
      cases hj : v.get j with
      | none => cases hi : v.get i <;> rfl
      | some o =>
        cases hi : v.get i with
        | none => rfl
        | some o' =>
          simp only [Option.map_some]
          have e1 : Obj.held j o = Obj.held i o := by
            rcases hc with e | hc
            · rw [e]
            · exact held_unviewed (hc o hj) j i
          have e : some (Obj.held i o) = (some o).map (Obj.held i) := rfl
          have e' : (some (⟨[], [], fun _ => none⟩ : Held Φ)) = (some (Obj.fresh [] [])).map (Obj.held j) := rfl
          rw [e1, e, e', heap_put, heap_put]; rfl
  | setRows i d =>
    simp only [Heap.step, Heap.setRows, Separate.step, Separate.at']
    rw [heap_objs]
    cases hi : v.get i with
    | none => rfl
    | some o =>
      have := heap_put v i (some { o with data := d })
      simp only [Option.map_some] at this ⊢
      rw [← this]; rfl
  | destroy i =>
    simp only [Heap.step, Heap.destroy, Separate.step]
    rw [heap_objs]
    cases hi : v.get i with
    | none => rfl
    | some o =>
      have := heap_put v i none
      simp only [Option.map_none] at this
      simp only [Option.map_some, this, Except.map]
  | replace i cols data =>
    simp only [Heap.step, Heap.replace, Separate.step, Separate.at']
    rw [heap_objs]
    cases hi : v.get i with
    | none => rfl
    | some o =>
      have := heap_put v i (some (o.replace cols data))
      simp only [Option.map_some] at this ⊢
      rw [← this]; rfl
  | read i name t row =>
    simp only [Heap.step, Separate.step, Separate.at']
    cases hi : v.get i with
    | none => simp [Heap.read, Heap.getColumn, heap_objs, hi, Except.map]
    | some o => rw [heap_read v hi]
  | update i name t row x =>
    simp only [Heap.step, Separate.step, Separate.at']
    cases hi : v.get i with
    | none => simp [Heap.update, Heap.getColumn, heap_objs, hi, Except.map]
    | some o => rw [heap_update v hi]
  | assign i name t row x =>
    simp only [Heap.step, Separate.step, Separate.at']
    cases hi : v.get i with
    | none => simp [Heap.assign, Heap.read, Heap.getColumn, heap_objs, hi, Except.map]
    | some o => rw [heap_assign v hi]
  | iterate i name t =>
    simp only [Heap.step, Separate.step, Separate.at']
    cases hi : v.get i with
    | none => simp [Heap.iterate, Heap.getColumn, heap_objs, hi, Except.map]
    | some o => rw [heap_iterate v hi]
  | rows i =>
    simp only [Heap.step, Heap.rows, Separate.step, Separate.at']
    rw [heap_objs]
    cases hi : v.get i with
    | none => rfl
    | some o => simp [put_same v hi, Except.map, Obj.held]

theorem heap_run : ∀ (ops : List (HOp Φ)) (v : Separate Φ), v.Careful ops → v.heap.run ops = ((v.run ops).1.heap, (v.run ops).2)
  | [], _, _ => rfl
  | op :: ops, v, h => by
    unfold Heap.run Separate.run
    rw [heap_step v op h.1]
    simp only
    rw [heap_run ops _ h.2]

theorem held_view {o : Obj Φ} {name : Str} {t : Φ.Tag} {w : View (Φ.El t)} (hw : o.views name = some ⟨t, w⟩) (i : Nat) :
    (o.held i).views name = some ⟨t, ⟨i, w⟩⟩ := by simp [Obj.held, hw]

theorem setCell_withCell {data : List (List Str)} {row index : Nat} {s x : Str} (h : cellAt data row index = .ok s) :
    setCell data row index x = .ok (withCell data row index x) := by
  obtain ⟨h1, r0, h2, h3⟩ := cellAt_ok.1 h
  have hg : data.getD row [] = r0 := by rw [List.getD_eq_getElem?_getD, h2]; rfl
  unfold setCell
  rw [h, hg]
  show Except.ok (data.set row (r0.set (index - 1) x)) = _
  congr 1
  apply List.ext_getElem?
  intro r
  unfold withCell
  rw [List.getElem?_mapIdx, List.getElem?_set]
  have hlt := (List.getElem?_eq_some_iff.1 h2).1
  by_cases hr : row = r
  · subst hr
    rw [if_pos rfl, if_pos hlt, h2]
    simp only [Option.map_some, if_true, Option.some.injEq]
    apply List.ext_getElem?
    intro c
    rw [List.getElem?_mapIdx, List.getElem?_set]
    have h3lt := (List.getElem?_eq_some_iff.1 h3).1
    by_cases hc : index - 1 = c
    · subst hc
      have e : index - 1 + 1 = index := by omega
      rw [if_pos rfl, if_pos h3lt, h3]
      simp [e]
    · have e : ¬ c + 1 = index := by omega
      rw [if_neg hc]
      simp [e]
  · have hr' : ¬ r = row := fun h => hr h.symm
    rw [if_neg hr]
    simp [hr']

theorem cellAt_withCell {data : List (List Str)} {row index : Nat} {s x : Str} (h : cellAt data row index = .ok s) (r i : Nat) :
    cellAt (withCell data row index x) r i = if r = row ∧ i = index then .ok x else cellAt data r i := by
  obtain ⟨d, h1, _, h3, _⟩ := setCell_ok (x := x) h
  rw [setCell_withCell h] at h1
  cases h1
  exact h3 r i

/-- Numbers of living tables were given out. -/
theorem numbers_step (v : Separate Φ) (h : ∀ i o, v.get i = some o → i < v.next) (op : HOp Φ) :
    ∀ i o, (v.step op).1.get i = some o → i < (v.step op).1.next := by
  have hput : ∀ (k : Nat) (b : Option (Obj Φ)), (∃ c, v.get k = some c) → ∀ i o, (v.put k b).get i = some o → i < (v.put k b).next := by
    rintro k b ⟨c, hc⟩ i o hi
    by_cases e : i = k
    · subst e; exact h i c hc
    · simp only [Separate.put, if_neg e] at hi; exact h i o hi
  have hat : ∀ {β : Type} (k : Nat) (f : Obj Φ → Obj Φ × Res β) (out : β → HOut Φ),
      ∀ i o, (v.at' k f out).1.get i = some o → i < (v.at' k f out).1.next := by
    intro β k f out i o hi
    unfold Separate.at' at hi ⊢
    cases hk : v.get k with
    | none => rw [hk] at hi; exact h i o hi
    | some c => rw [hk] at hi; exact hput k _ ⟨c, hk⟩ i o hi
  have hnew : ∀ (b : Obj Φ), ∀ i o, ({ (v.put v.next (some b)) with next := v.next + 1 } : Separate Φ).get i = some o → i < v.next + 1 := by
    intro b i o hi
    by_cases e : i = v.next
    · omega
    · simp only [Separate.put, if_neg e] at hi; have := h i o hi; omega
  cases op with
  | create cols data => exact hnew _
  | copy k =>
    intro i o hi
    simp only [Separate.step] at hi ⊢
    cases hk : v.get k with
    | none => rw [hk] at hi; exact h i o hi
    | some c => rw [hk] at hi; exact hnew _ i o hi
  | copyOver k j =>
    intro i o hi
    simp only [Separate.step] at hi ⊢
    cases hk : v.get j with
    | none => rw [hk] at hi; exact h i o hi
    | some c => rw [hk] at hi; exact hat k _ _ i o hi
  | move k =>
    intro i o hi
    simp only [Separate.step] at hi ⊢
    cases hk : v.get k with
    | none => rw [hk] at hi; exact h i o hi
    | some c =>
      rw [hk] at hi
      simp only at hi ⊢
      by_cases e : i = k
      · have := h k c hk; omega
      · by_cases e' : i = v.next
        · omega
        · simp only [Separate.put, if_neg e, if_neg e'] at hi; have := h i o hi; omega
  | moveOver k j =>
    intro i o hi
    simp only [Separate.step] at hi ⊢
    by_cases hkj : k = j
    · rw [if_pos hkj] at hi ⊢; exact h i o hi
    · rw [if_neg hkj] at hi ⊢
      cases hk : v.get k with
      | none => rw [hk] at hi; exact h i o hi
      | some c =>
        cases hj : v.get j with
        | none => rw [hk, hj] at hi; exact h i o hi
        | some c' =>
          rw [hk, hj] at hi
          simp only at hi ⊢
          by_cases e : i = j
          · subst e; exact h i c' hj
          · by_cases e' : i = k
            · subst e'; exact h i c hk
            · simp only [Separate.put, if_neg e, if_neg e'] at hi; exact h i o hi
  | setRows k d => exact hat k _ _
  | destroy k =>
    intro i o hi
    simp only [Separate.step] at hi ⊢
    cases hk : v.get k with
    | none => rw [hk] at hi; exact h i o hi
    | some c => rw [hk] at hi; exact hput k _ ⟨c, hk⟩ i o hi
  | replace k cols data => exact hat k _ _
  | read k name t row => exact hat k _ _
  | update k name t row x => exact hat k _ _
  | assign k name t row x => exact hat k _ _
  | iterate k name t => exact hat k _ _
  | rows k => exact hat k _ _

theorem numbers_run : ∀ (ops : List (HOp Φ)) (v : Separate Φ), (∀ i o, v.get i = some o → i < v.next) →
    ∀ i o, (v.run ops).1.get i = some o → i < (v.run ops).1.next
  | [], _, h => h
  | op :: ops, v, h => numbers_run ops _ (numbers_step v h op)

/-! ### copies of one view -/

namespace Viewers

variable {α : Type} {deser : Str → Nat → Res α} {ser : α → Str}

theorem view_read (data : List (List Str)) (v : View α) (row : Nat) :
    (v.read deser data row).1.index = v.index ∧ (v.read deser data row).1.total = v.total ∧
    (∀ r y, v.cache r = some y → (v.read deser data row).1.cache r = some y) ∧
    (∀ r, r ≠ row → (v.read deser data row).1.cache r = v.cache r) := by
  unfold View.read
  cases hc : v.cache row with
  | some x => exact ⟨rfl, rfl, fun _ _ h => h, fun _ _ => rfl⟩
  | none =>
    simp only
    cases cellAt data row v.index with
    | error e => exact ⟨rfl, rfl, fun _ _ h => h, fun _ _ => rfl⟩
    | ok s =>
      simp only
      cases deser s v.total with
      | error e => exact ⟨rfl, rfl, fun _ _ h => h, fun _ _ => rfl⟩
      | ok x =>
        refine ⟨rfl, rfl, ?_, ?_⟩
        · intro r y h
          have : r ≠ row := by rintro rfl; rw [hc] at h; cases h
          simp [View.remember, this, h]
        · intro r h; simp [View.remember, h]

/-- What one statement does to view `p`. -/
theorem step_view (s : Viewers α) (op : WOp α) {p : Nat} {v : View α} (hp : s.views[p]? = some v) :
    ∃ v', (s.step deser ser op).views[p]? = some v' ∧ v'.index = v.index ∧ v'.total = v.total ∧
      (∀ r y, v.cache r = some y → ¬ writesRow p r op → v'.cache r = some y) ∧
      (∀ r, ¬ touchesRow p r op → v'.cache r = v.cache r) := by
  have hlt := (List.getElem?_eq_some_iff.1 hp).1
  cases op with
  | duplicate q =>
    refine ⟨v, ?_, rfl, rfl, fun _ _ h _ => h, fun _ _ => rfl⟩
    simp only [step, duplicate]
    cases s.views[q]? with
    | none => exact hp
    | some u => simp only; rw [List.getElem?_append_left hlt]; exact hp
  | read q row =>
    simp only [step, read]
    cases hq : s.views[q]? with
    | none => exact ⟨v, hp, rfl, rfl, fun _ _ h _ => h, fun _ _ => rfl⟩
    | some u =>
      obtain ⟨h1, h2, h3, h4⟩ := view_read (deser := deser) s.data u row
      by_cases e : q = p
      · subst e
        rw [hp] at hq; cases hq
        refine ⟨(v.read deser s.data row).1, ?_, h1, h2, fun r y h _ => h3 r y h, ?_⟩
        · simp only; rw [List.getElem?_set_self hlt]
        · intro r hr
          exact h4 r (fun e => hr ⟨rfl, e.symm⟩)
      · refine ⟨v, ?_, rfl, rfl, fun _ _ h _ => h, fun _ _ => rfl⟩
        simp only; rw [List.getElem?_set_ne e]; exact hp
  | update q row x =>
    simp only [step, update]
    cases hq : s.views[q]? with
    | none => exact ⟨v, hp, rfl, rfl, fun _ _ h _ => h, fun _ _ => rfl⟩
    | some u =>
      have key : ∀ d : List (List Str), ∃ v', ((⟨d, s.views.set q (u.remember row x)⟩ : Viewers α)).views[p]? = some v' ∧ v'.index = v.index ∧
          v'.total = v.total ∧ (∀ r y, v.cache r = some y → ¬ writesRow p r (WOp.update q row x) → v'.cache r = some y) ∧
          (∀ r, ¬ touchesRow p r (WOp.update q row x) → v'.cache r = v.cache r) := by
        intro d
        by_cases e : q = p
        · subst e
          rw [hp] at hq; cases hq
          refine ⟨v.remember row x, ?_, rfl, rfl, ?_, ?_⟩
          · simp only; rw [List.getElem?_set_self hlt]
          · intro r y h hr
            have : ¬ r = row := fun e => hr ⟨rfl, e.symm⟩
            simp [View.remember, this, h]
          · intro r hr
            have : ¬ r = row := fun e => hr ⟨rfl, e.symm⟩
            simp [View.remember, this]
        · refine ⟨v, ?_, rfl, rfl, fun _ _ h _ => h, fun _ _ => rfl⟩
          simp only; rw [List.getElem?_set_ne e]; exact hp
      simp only [View.update]
      cases setCell s.data row u.index (ser x) with
      | error e => exact key s.data
      | ok d => exact key d

theorem run_frozen {p row : Nat} {y : α} : ∀ (ops : List (WOp α)) (s : Viewers α) (v : View α), s.views[p]? = some v → v.cache row = some y →
    (∀ op ∈ ops, ¬ writesRow p row op) → ∃ v', (s.run deser ser ops).views[p]? = some v' ∧ v'.cache row = some y
  | [], s, v, h1, h2, _ => ⟨v, h1, h2⟩
  | op :: ops, s, v, h1, h2, h3 => by
    obtain ⟨v', a, _, _, b, _⟩ := step_view (deser := deser) (ser := ser) s op h1
    exact run_frozen ops _ v' a (b row y h2 (h3 op (List.mem_cons_self ..))) (fun o ho => h3 o (List.mem_cons_of_mem _ ho))

/-- All views are of the same column. -/
def OneColumn (s : Viewers α) (idx total : Nat) : Prop := ∀ (p : Nat) (v : View α), s.views[p]? = some v → v.index = idx ∧ v.total = total

theorem step_same {s : Viewers α} {idx total : Nat} (h : s.OneColumn idx total) (op : WOp α) : (s.step deser ser op).OneColumn idx total := by
  intro p v hp
  by_cases hlt : p < s.views.length
  · obtain ⟨v', a, b, c, _, _⟩ := step_view (deser := deser) (ser := ser) s op (List.getElem?_eq_getElem hlt)
    rw [hp] at a; cases a
    rw [b, c]
    exact h p _ (List.getElem?_eq_getElem hlt)
  · cases op with
    | duplicate q =>
      simp only [step, duplicate] at hp
      cases hq : s.views[q]? with
      | none => rw [hq] at hp; exact absurd (List.getElem?_eq_some_iff.1 hp).1 hlt
      | some u =>
        rw [hq] at hp
        simp only at hp
        rw [List.getElem?_append_right (by omega)] at hp
        have : v = u := by
          have hm := List.mem_of_getElem? hp
          simpa using hm
        subst this
        exact h q v hq
    | read q row =>
      simp only [step, read] at hp
      cases hq : s.views[q]? with
      | none => rw [hq] at hp; exact absurd (List.getElem?_eq_some_iff.1 hp).1 hlt
      | some u =>
        rw [hq] at hp
        have := (List.getElem?_eq_some_iff.1 hp).1
        simp only [List.length_set] at this
        exact absurd this hlt
    | update q row x =>
      simp only [step, update] at hp
      cases hq : s.views[q]? with
      | none => rw [hq] at hp; exact absurd (List.getElem?_eq_some_iff.1 hp).1 hlt
      | some u =>
        rw [hq] at hp
        simp only [View.update] at hp
        cases hsc : setCell s.data row u.index (ser x) with
        | error e =>
          rw [hsc] at hp
          have := (List.getElem?_eq_some_iff.1 hp).1
          simp only [List.length_set] at this
          exact absurd this hlt
        | ok d =>
          rw [hsc] at hp
          have := (List.getElem?_eq_some_iff.1 hp).1
          simp only [List.length_set] at this
          exact absurd this hlt

/-- What one statement does to the text of a row. -/
theorem step_text {s : Viewers α} {idx total row : Nat} (h : s.OneColumn idx total) {old : Str} (hc : cellAt s.data row idx = .ok old) (op : WOp α) (ops : List (WOp α))
    (he : WExisting s.views.length (op :: ops)) :
    WExisting (s.step deser ser op).views.length ops ∧
    ∃ new, cellAt (s.step deser ser op).data row idx = .ok new ∧ ∀ l, lastText ser old row (op :: l) = lastText ser new row l := by
  cases op with
  | duplicate q =>
    obtain ⟨hq, he⟩ := he
    simp only [step, duplicate, List.getElem?_eq_getElem hq]
    exact ⟨by simpa using he, old, hc, fun l => rfl⟩
  | read q r =>
    obtain ⟨hq, he⟩ := he
    simp only [step, read, List.getElem?_eq_getElem hq]
    exact ⟨by simpa using he, old, hc, fun l => rfl⟩
  | update q r x =>
    obtain ⟨hq, he⟩ := he
    have hg := List.getElem?_eq_getElem hq
    have hi := (h q _ hg).1
    simp only [step, update, hg, View.update, hi]
    cases hcr : cellAt s.data r idx with
    | error e =>
      have e1 : setCell s.data r idx (ser x) = .error e := by unfold setCell; rw [hcr]; rfl
      have hr : ¬ r = row := by rintro rfl; rw [hc] at hcr; cases hcr
      rw [e1]
      exact ⟨by simpa using he, old, hc, fun l => by simp [lastText, hr]⟩
    | ok s0 =>
      rw [setCell_withCell hcr]
      refine ⟨by simpa using he, if r = row then ser x else old, ?_, fun l => rfl⟩
      simp only
      rw [cellAt_withCell hcr]
      by_cases e : r = row
      · simp [e]
      · have : ¬ row = r := fun h => e h.symm
        simp [e, this, hc]

theorem run_fresh {p row idx total : Nat} : ∀ (ops : List (WOp α)) (s : Viewers α) (v : View α) (old : Str), s.OneColumn idx total → s.views[p]? = some v →
    cellAt s.data row idx = .ok old → WExisting s.views.length ops → (∀ op ∈ ops, ¬ touchesRow p row op) →
    cellAt (s.run deser ser ops).data row idx = .ok (lastText ser old row ops) ∧
    ∃ v', (s.run deser ser ops).views[p]? = some v' ∧ v'.cache row = v.cache row ∧ v'.index = idx ∧ v'.total = total
  | [], s, v, old, h1, h2, h3, _, _ => ⟨h3, v, h2, rfl, h1 p v h2⟩
  | op :: ops, s, v, old, h1, h2, h3, h4, h5 => by
    obtain ⟨v', a, _, _, _, c⟩ := step_view (deser := deser) (ser := ser) s op h2
    obtain ⟨he, new, hn, hl⟩ := step_text (deser := deser) (ser := ser) h1 h3 op ops h4
    obtain ⟨r1, w, r2, r3, r4⟩ := run_fresh ops _ v' new (step_same h1 op) a hn he (fun o ho => h5 o (List.mem_cons_of_mem _ ho))
    refine ⟨?_, w, r2, ?_, r4⟩
    · rw [hl]; exact r1
    · rw [r3]; exact c row (h5 op (List.mem_cons_self ..))

end Viewers

end Astro
