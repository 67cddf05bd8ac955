import Verif.Lemmas.View

/-
Properties C42, C44, C45, C73 and C74: typed access to the columns of a table.
-/

namespace Astro

open Spec

variable {Φ : Family} {ty : Str → Φ.Tag}

/-- One operation on a table object. -/
def Obj.step (o : Obj Φ) : VOp Φ ty → Obj Φ × VOut Φ ty
  | .read name row => ((o.read name (ty name) row).1, .value name (o.read name (ty name) row).2)
  | .write name row x => ((o.update name (ty name) row x).1, .done (o.update name (ty name) row x).2)
  | .assign name row x => ((o.assign name (ty name) row x).1, .done (o.assign name (ty name) row x).2)
  | .iterate name => ((o.iterate name (ty name)).1, .values name (o.iterate name (ty name)).2)

/-- A sequence of operations on a table object. -/
def Obj.run (o : Obj Φ) : List (VOp Φ ty) → Obj Φ × List (VOut Φ ty)
  | [] => (o, [])
  | op :: ops =>
    let (o1, out) := o.step op
    let (o2, outs) := o1.run ops
    (o2, out :: outs)

/-- The number of the first column with this name. -/
def columnNumber (cols : List Column) (name : Str) : Nat :=
  match Table.columnMetadata cols name with
  | .ok c => c.index
  | .error _ => 0

/-- The arrays a table stands for before anything has been done with it: every stored text decoded as the element type of its column. -/
def initialArrays (ty : Str → Φ.Tag) (cols : List Column) (data : List (List Str)) : Arrays Φ ty where
  val name row :=
    match Table.columnMetadata cols name with
    | .ok c => decoded Φ data c (ty name) row
    | .error e => .error e
  text row i :=
    match cellAt data row i with
    | .ok s => some s
    | .error _ => none
  seen _ _ := false

theorem agree_initial {cols : List Column} {data : List (List Str)} (hl : Layout cols data) :
    Agree cols (Obj.fresh cols data : Obj Φ) (initialArrays ty cols data) := by
  refine ⟨rfl, hl, ?_, ?_⟩
  · intro r i s
    simp only [initialArrays, Obj.fresh]
    cases cellAt data r i with
    | ok s' => simp
    | error e => simp
  · intro name c hc
    refine Or.inl ⟨rfl, fun row => ⟨rfl, ?_⟩⟩
    simp only [initialArrays, hc, Obj.fresh]

theorem exists_column {cols : List Column} {name : Str} (h : name ∈ cols.map (·.name)) : ∃ c, Table.columnMetadata cols name = .ok c := by
  cases hc : Table.columnMetadata cols name with
  | ok c => exact ⟨c, rfl⟩
  | error e =>
    exfalso
    obtain ⟨c, h1, h2⟩ := List.mem_map.1 h
    exact ((C43_not_found cols name e).1 hc).2 c h1 h2

theorem step_agree {cols : List Column} {o : Obj Φ} {a : Arrays Φ ty} (h : Agree cols o a) {op : VOp Φ ty}
    (hv : op.Valid (cols.map (·.name)) o.data.length) :
    (o.step op).2 = (a.step (columnNumber cols) o.data.length op).2 ∧ (o.step op).1.data.length = o.data.length ∧
      Agree cols (o.step op).1 (a.step (columnNumber cols) o.data.length op).1 := by
  cases op with
  | read name row =>
    obtain ⟨c, hc⟩ := exists_column hv.1
    obtain ⟨o', e1, e2, e3⟩ := read_agree h hc row
    simp only [Obj.step, Arrays.step, e1]
    exact ⟨trivial, by rw [e2], e3⟩
  | write name row x =>
    obtain ⟨c, hc⟩ := exists_column hv.1
    obtain ⟨o', e1, e2, e3⟩ := update_agree (number := columnNumber cols) h hc (by simp only [columnNumber, hc]) hv.2 x
    simp only [Obj.step, Arrays.step, e1]
    exact ⟨trivial, e2, e3⟩
  | assign name row x =>
    obtain ⟨c, hc⟩ := exists_column hv.1
    obtain ⟨o', e1, e2, e3⟩ := read_agree h hc row
    simp only [Obj.step, Arrays.step, Obj.assign, e1]
    cases hval : a.val name row with
    | error e =>
      simp only
      refine ⟨trivial, by rw [e2], agree_seen e3 rfl rfl ?_⟩
      intro n r
      simp only [Arrays.look]
      by_cases hn : n = name
      · subst hn
        by_cases hr : r = row
        · subst hr; rw [hval]; simp [Except.isOk, Except.toBool]
        · rw [beq_eq_false_iff_ne.2 hr]; simp
      · rw [beq_eq_false_iff_ne.2 hn]; simp
    | ok y =>
      simp only
      obtain ⟨o2, g1, g2, g3⟩ := update_agree (number := columnNumber cols) e3 hc (by simp only [columnNumber, hc]) (by rw [e2]; exact hv.2) x
      rw [g1]
      refine ⟨rfl, by rw [g2, e2], agree_seen g3 rfl rfl ?_⟩
      intro n r
      simp only [Arrays.look, Arrays.set]
      by_cases hn : n = name
      · by_cases hr : r = row
        · subst hn; subst hr; simp
        · rw [beq_eq_false_iff_ne.2 hr]; simp
      · rw [beq_eq_false_iff_ne.2 hn]; simp
  | iterate name =>
    obtain ⟨c, hc⟩ := exists_column hv
    obtain ⟨o', e1, e2, e3⟩ := iterate_agree h hc
    simp only [Obj.step, Arrays.step, e1]
    exact ⟨trivial, by rw [e2], e3⟩

theorem run_agree {cols : List Column} (rows : Nat) : ∀ (ops : List (VOp Φ ty)) {o : Obj Φ} {a : Arrays Φ ty}, Agree cols o a → o.data.length = rows →
    (∀ op ∈ ops, op.Valid (cols.map (·.name)) rows) →
    (o.run ops).2 = (a.run (columnNumber cols) rows ops).2 ∧ (o.run ops).1.data.length = rows ∧
      Agree cols (o.run ops).1 (a.run (columnNumber cols) rows ops).1
  | [], _, _, h, hr, _ => ⟨rfl, hr, h⟩
  | op :: ops, o, a, h, hr, hv => by
    obtain ⟨e1, e2, e3⟩ := step_agree h (hr ▸ hv op List.mem_cons_self)
    rw [hr] at e1 e2 e3
    obtain ⟨g1, g2, g3⟩ := run_agree rows ops e3 e2 fun op' h' => hv op' (List.mem_cons_of_mem _ h')
    simp only [Obj.run, Arrays.run]
    exact ⟨by rw [e1, g1], g2, g3⟩

/-! ## C42 -/

/-- **C42** Any sequence of reads, writes, assignments and loops through the columns of a table (each column used with one element type) has exactly
the results it has on plain arrays of values, initialised by decoding the stored cells; and afterwards the table holds the texts the arrays hold.
(After a result that is undefined behaviour nothing is claimed about the C++ program.) -/
theorem C42_plain_arrays (cols : List Column) (data : List (List Str)) (hl : Layout cols data) (ops : List (VOp Φ ty))
    (hv : ∀ op ∈ ops, op.Valid (cols.map (·.name)) data.length) :
    ((Obj.fresh cols data : Obj Φ).run ops).2 = ((initialArrays ty cols data).run (columnNumber cols) data.length ops).2 ∧
    ((Obj.fresh cols data : Obj Φ).run ops).1.data.length = data.length ∧
    ∀ r i s, cellAt ((Obj.fresh cols data : Obj Φ).run ops).1.data r i = .ok s ↔
      ((initialArrays ty cols data).run (columnNumber cols) data.length ops).1.text r i = some s := by
  obtain ⟨g1, g2, g3⟩ := run_agree data.length ops (agree_initial (Φ := Φ) (ty := ty) hl) rfl hv
  exact ⟨g1, g2, fun r i s => (g3.text r i s).symm⟩

/-- The operation changes this element (if it succeeds). -/
def VOp.Changes (name : Str) (row : Nat) : VOp Φ ty → Prop
  | .write n r _ => n = name ∧ r = row
  | .assign n r _ => n = name ∧ r = row
  | _ => False

/-- **C42** On the arrays: after an element was written, reading it gives the written value as long as no other write to it happened. -/
theorem C42_last_write (number : Str → Nat) (rows : Nat) (name : Str) (row : Nat) (x : Φ.El (ty name)) (ops : List (VOp Φ ty))
    (hno : ∀ op ∈ ops, ¬ VOp.Changes name row op) (a : Arrays Φ ty) :
    (((a.set number name row x).run number rows ops).1.step number rows (.read name row)).2 = .value name (.ok x) := by
  have key : ∀ (ops : List (VOp Φ ty)), (∀ op ∈ ops, ¬ VOp.Changes name row op) → ∀ b : Arrays Φ ty, b.val name row = .ok x →
      (b.run number rows ops).1.val name row = .ok x := by
    intro ops
    induction ops with
    | nil => intro _ b hb; exact hb
    | cons op ops ih =>
      intro hno b hb
      simp only [Arrays.run]
      refine ih (fun o ho => hno o (List.mem_cons_of_mem _ ho)) _ ?_
      have hop := hno op List.mem_cons_self
      have hset : ∀ (n : Str) (r : Nat) (y : Φ.El (ty n)), ¬ (n = name ∧ r = row) → (b.set number n r y).val name row = .ok x := by
        intro n r y hne
        simp only [Arrays.set]
        by_cases h1 : name = n
        · rw [dif_pos h1]
          by_cases h2 : row = r
          · exact absurd ⟨h1.symm, h2.symm⟩ hne
          · rw [if_neg h2]; exact hb
        · rw [dif_neg h1]; exact hb
      cases op with
      | read n r => exact hb
      | iterate n => exact hb
      | write n r y => exact hset n r y hop
      | assign n r y =>
        simp only [Arrays.step]
        cases b.val n r with
        | ok z => exact hset n r y hop
        | error e => exact hb
  simp only [Arrays.step]
  congr 1
  exact key ops hno _ (by simp [Arrays.set])

/-- **C42** Reading and looping never change the stored texts. -/
theorem C42_reads_pure (o : Obj Φ) (name : Str) (t : Φ.Tag) (row : Nat) :
    (o.read name t row).1.data = o.data ∧ (o.iterate name t).1.data = o.data ∧ (o.getColumn name t).1.data = o.data := by
  have hg : ∀ o : Obj Φ, (o.getColumn name t).1.data = o.data := by
    intro o
    unfold Obj.getColumn
    cases o.views name with
    | none =>
      simp only
      cases Table.columnMetadata o.cols name <;> rfl
    | some e =>
      simp only
      split <;> rfl
  have hr : ∀ (o : Obj Φ) (row : Nat), (o.read name t row).1.data = o.data := by
    intro o row
    unfold Obj.read
    have := hg o
    generalize o.getColumn name t = y at *
    obtain ⟨o', r⟩ := y
    cases r with
    | error e => exact this
    | ok v => exact this
  have hi : ∀ (n i : Nat) (o : Obj Φ), (Obj.iterateFrom name t n i o).1.data = o.data := by
    intro n
    induction n with
    | zero => intro i o; rfl
    | succ n ih =>
      intro i o
      unfold Obj.iterateFrom
      have := hr o i
      generalize o.read name t i = y at *
      obtain ⟨o', r⟩ := y
      cases r with
      | error e => exact this
      | ok v =>
        simp only
        have h2 := ih (i + 1) o'
        generalize Obj.iterateFrom name t n (i + 1) o' = z at *
        obtain ⟨o'', r'⟩ := z
        cases r' with
        | error e => exact h2.trans this
        | ok l => exact h2.trans this
  refine ⟨hr o row, ?_, hg o⟩
  unfold Obj.iterate
  have := hg o
  generalize o.getColumn name t = y at *
  obtain ⟨o', r⟩ := y
  cases r with
  | error e => exact this
  | ok v => exact (hi _ _ _).trans this

/-! ## C44 -/

/-- **C44** The table data are replaced (same columns) after any sequence of operations.  Reading an element afterwards gives the old value if the element
was successfully read or written before, and only otherwise what the new data say. -/
theorem C44_stale (cols : List Column) (data : List (List Str)) (hl : Layout cols data) (ops : List (VOp Φ ty))
    (hv : ∀ op ∈ ops, op.Valid (cols.map (·.name)) data.length) (cols' : List Column) (data' : List (List Str))
    (hsame : cols'.map (fun c => (c.name, c.index, c.total)) = cols.map (fun c => (c.name, c.index, c.total)))
    (name : Str) (hname : name ∈ cols.map (·.name)) (row : Nat) :
    let a := ((initialArrays ty cols data).run (columnNumber cols) data.length ops).1
    (((((Obj.fresh cols data : Obj Φ).run ops).1.replace cols' data').read name (ty name) row).2) =
      if a.seen name row then a.val name row else (initialArrays ty cols' data').val name row := by
  intro a
  obtain ⟨_, _, g3⟩ := run_agree data.length ops (agree_initial (Φ := Φ) (ty := ty) hl) rfl hv
  obtain ⟨c, hc⟩ := exists_column hname
  have hc' : ∃ c', Table.columnMetadata cols' name = .ok c' ∧ c'.index = c.index ∧ c'.total = c.total := by
    obtain ⟨p, q, e1, e2, e3⟩ := (C43_first cols name c).1 hc
    rw [e1, List.map_append, List.map_cons] at hsame
    obtain ⟨p', r', rfl, h1, h2⟩ := List.map_eq_append_iff.1 hsame
    obtain ⟨c', q', rfl, h3, h4⟩ := List.map_eq_cons_iff.1 h2
    simp only [Prod.mk.injEq] at h3
    refine ⟨c', (C43_first _ name c').2 ⟨p', q', rfl, by rw [h3.1, e2], ?_⟩, h3.2.1, h3.2.2⟩
    intro b hb hbn
    have : (b.name, b.index, b.total) ∈ p.map (fun c => (c.name, c.index, c.total)) := by
      rw [← h1]; exact List.mem_map.2 ⟨b, hb, rfl⟩
    obtain ⟨b', k1, k2⟩ := List.mem_map.1 this
    simp only [Prod.mk.injEq] at k2
    exact e3 b' k1 (by rw [k2.1, hbn])
  obtain ⟨c', h1, h2, h3⟩ := hc'
  have hnew : (initialArrays ty cols' data').val name row = decoded Φ data' c (ty name) row := by
    simp only [initialArrays, h1, decoded, h2, h3]
  rw [hnew]
  rcases g3.view name c hc with ⟨k1, k2⟩ | ⟨v, k1, k2, k3, k4⟩
  · have hs : a.seen name row = false := (k2 row).1
    rw [hs]
    unfold Obj.read Obj.getColumn
    have : ((((Obj.fresh cols data : Obj Φ).run ops).1).replace cols' data').views name = none := k1
    rw [this]
    simp only [Obj.replace, h1, View.read, decoded, h2, h3, Obj.putView]
    cases cellAt data' row c.index with
    | error e => rfl
    | ok s =>
      simp only
      cases hd : Φ.deser (ty name) s c.total with
      | error e => simp
      | ok x => simp
  · unfold Obj.read Obj.getColumn
    have : ((((Obj.fresh cols data : Obj Φ).run ops).1).replace cols' data').views name = some ⟨ty name, v⟩ := k1
    rw [this]
    simp only [Obj.replace, dif_pos, View.read, decoded, k2, k3]
    rcases k4 row with ⟨x, j1, j2, j3⟩ | ⟨j1, j2, j3⟩
    · rw [j1]
      have : a.seen name row = true := j2
      rw [this, if_pos rfl]
      exact j3.symm
    · rw [j1]
      have : a.seen name row = false := j2
      rw [this]
      simp only
      cases cellAt data' row c.index with
      | error e => rfl
      | ok s =>
        simp only
        cases hd : Φ.deser (ty name) s c.total with
        | error e => simp
        | ok x => simp

/-! ## C45 -/

/-- An access to a column with an element type of the caller's choice. -/
inductive TOp (Φ : Family) where
  | get (name : Str) (t : Φ.Tag)
  | read (name : Str) (t : Φ.Tag) (row : Nat)
  | write (name : Str) (t : Φ.Tag) (row : Nat) (x : Φ.El t)
  | assign (name : Str) (t : Φ.Tag) (row : Nat) (x : Φ.El t)
  | iterate (name : Str) (t : Φ.Tag)
  | replaceData (data : List (List Str))

/-- The column that is accessed and the type used. -/
def TOp.access : TOp Φ → Option (Str × Φ.Tag)
  | .get n t => some (n, t)
  | .read n t _ => some (n, t)
  | .write n t _ _ => some (n, t)
  | .assign n t _ _ => some (n, t)
  | .iterate n t => some (n, t)
  | .replaceData _ => none

/-- The table object afterwards. -/
def TOp.exec (o : Obj Φ) : TOp Φ → Obj Φ
  | .get n t => (o.getColumn n t).1
  | .read n t row => (o.read n t row).1
  | .write n t row x => (o.update n t row x).1
  | .assign n t row x => (o.assign n t row x).1
  | .iterate n t => (o.iterate n t).1
  | .replaceData d => o.replace o.cols d

/-- The element types of the cached views. -/
def viewType (o : Obj Φ) (name : Str) : Option Φ.Tag := (o.views name).map Sigma.fst

/-- Accessing column `n` with type `t`: if the column exists and had no type, it has type `t` now; nothing else changes. -/
def Typed (o o' : Obj Φ) (n : Str) (t : Φ.Tag) : Prop :=
  o'.cols = o.cols ∧ ∀ m, viewType o' m =
    if m = n ∧ viewType o m = none ∧ m ∈ o.cols.map (·.name) then some t else viewType o m

theorem typed_of_view {o o' : Obj Φ} {n : Str} {t : Φ.Tag} (h : viewType o n ≠ none) (hc : o'.cols = o.cols) (hv : ∀ m, viewType o' m = viewType o m) :
    Typed o o' n t := by
  refine ⟨hc, fun m => ?_⟩
  rw [if_neg]
  · exact hv m
  · rintro ⟨rfl, h', _⟩; exact h h'

theorem getColumn_typed (o : Obj Φ) (n : Str) (t : Φ.Tag) :
    Typed o (o.getColumn n t).1 n t ∧ (∀ v, (o.getColumn n t).2 = .ok v → viewType (o.getColumn n t).1 n = some t) := by
  unfold Obj.getColumn
  cases hv : o.views n with
  | some e =>
    obtain ⟨t', v⟩ := e
    simp only
    have h0 : viewType o n = some t' := by simp [viewType, hv]
    by_cases ht : t' = t
    · rw [dif_pos ht]
      exact ⟨typed_of_view (by rw [h0]; simp) rfl fun _ => rfl, fun _ _ => by rw [h0, ht]⟩
    · rw [dif_neg ht]
      exact ⟨typed_of_view (by rw [h0]; simp) rfl fun _ => rfl, fun _ h => by cases h⟩
  | none =>
    simp only
    cases hc : Table.columnMetadata o.cols n with
    | error e =>
      simp only
      refine ⟨⟨rfl, fun m => ?_⟩, fun _ h => by cases h⟩
      rw [if_neg]
      rintro ⟨rfl, _, h⟩
      obtain ⟨c, h1, h2⟩ := List.mem_map.1 h
      exact ((C43_not_found _ _ _).1 hc).2 c h1 h2
    | ok c =>
      simp only
      have hmem : n ∈ o.cols.map (·.name) := by
        obtain ⟨a, b, e, e1, _⟩ := (C43_first _ _ _).1 hc
        exact List.mem_map.2 ⟨c, by rw [e]; simp, e1⟩
      refine ⟨⟨rfl, fun m => ?_⟩, fun _ _ => by simp [viewType, Obj.putView]⟩
      by_cases hm : m = n
      · subst hm
        rw [if_pos ⟨rfl, by simp [viewType, hv], hmem⟩]
        simp [viewType, Obj.putView]
      · rw [if_neg (fun h => hm h.1)]
        simp [viewType, Obj.putView, hm]

theorem putView_type {o : Obj Φ} {n : Str} {t : Φ.Tag} (h : viewType o n = some t) (v : View (Φ.El t)) (m : Str) :
    viewType (o.putView n t v) m = viewType o m := by
  by_cases hm : m = n
  · subst hm; rw [h]; simp [viewType, Obj.putView]
  · simp [viewType, Obj.putView, hm]

theorem Typed.same {o o' o'' : Obj Φ} {n : Str} {t : Φ.Tag} (h : Typed o o' n t) (hc : o''.cols = o'.cols) (hv : ∀ m, viewType o'' m = viewType o' m) :
    Typed o o'' n t := ⟨hc.trans h.1, fun m => (hv m).trans (h.2 m)⟩

theorem Typed.trans {o o' o'' : Obj Φ} {n : Str} {t : Φ.Tag} (h : Typed o o' n t) (h' : Typed o' o'' n t) : Typed o o'' n t := by
  refine ⟨h'.1.trans h.1, fun m => ?_⟩
  rw [h'.2 m, h.1]
  by_cases hm : m = n ∧ viewType o m = none ∧ m ∈ o.cols.map (·.name)
  · rw [if_pos hm, if_neg]
    · rw [h.2 m, if_pos hm]
    · rintro ⟨_, h1, _⟩
      rw [h.2 m, if_pos hm] at h1; cases h1
  · have hm' : viewType o' m = viewType o m := by rw [h.2 m, if_neg hm]
    rw [if_neg hm, hm', if_neg hm]

theorem read_typed (o : Obj Φ) (n : Str) (t : Φ.Tag) (row : Nat) : Typed o (o.read n t row).1 n t := by
  have h := getColumn_typed o n t
  unfold Obj.read
  generalize o.getColumn n t = y at *
  obtain ⟨o', r⟩ := y
  cases r with
  | error e => exact h.1
  | ok v => exact h.1.same rfl (putView_type (h.2 v rfl) _)

theorem update_typed (o : Obj Φ) (n : Str) (t : Φ.Tag) (row : Nat) (x : Φ.El t) : Typed o (o.update n t row x).1 n t := by
  have h := getColumn_typed o n t
  unfold Obj.update
  generalize o.getColumn n t = y at *
  obtain ⟨o', r⟩ := y
  cases r with
  | error e => exact h.1
  | ok v =>
    simp only [View.update]
    cases setCell o'.data row v.index (Φ.ser t x) with
    | error e => exact h.1.same rfl (putView_type (h.2 v rfl) _)
    | ok d => exact h.1.same rfl (putView_type (h.2 v rfl) _)

theorem assign_typed (o : Obj Φ) (n : Str) (t : Φ.Tag) (row : Nat) (x : Φ.El t) : Typed o (o.assign n t row x).1 n t := by
  have h := read_typed o n t row
  unfold Obj.assign
  generalize o.read n t row = y at *
  obtain ⟨o', r⟩ := y
  cases r with
  | error e => exact h
  | ok v => exact h.trans (update_typed o' n t row x)

theorem iterateFrom_typed (n : Str) (t : Φ.Tag) : ∀ (k i : Nat) (o : Obj Φ), (viewType o n = some t) → Typed o (Obj.iterateFrom n t k i o).1 n t := by
  intro k
  induction k with
  | zero => intro i o h; exact typed_of_view (by rw [h]; simp) rfl fun _ => rfl
  | succ k ih =>
    intro i o h
    unfold Obj.iterateFrom
    have h1 := read_typed o n t i
    generalize o.read n t i = y at *
    obtain ⟨o', r⟩ := y
    cases r with
    | error e => exact h1
    | ok v =>
      simp only
      have ht : viewType o' n = some t := by
        have := h1.2 n
        rw [if_neg (by rw [h]; simp)] at this
        rw [this, h]
      have h2 := ih (i + 1) o' ht
      generalize Obj.iterateFrom n t k (i + 1) o' = z at *
      obtain ⟨o'', r'⟩ := z
      cases r' with
      | error e => exact h1.trans h2
      | ok l => exact h1.trans h2

theorem iterate_typed (o : Obj Φ) (n : Str) (t : Φ.Tag) : Typed o (o.iterate n t).1 n t := by
  have h := getColumn_typed o n t
  unfold Obj.iterate
  generalize o.getColumn n t = y at *
  obtain ⟨o', r⟩ := y
  cases r with
  | error e => exact h.1
  | ok v => exact h.1.trans (iterateFrom_typed n t _ _ _ (h.2 v rfl))

theorem exec_typed (o : Obj Φ) (op : TOp Φ) (n : Str) (t : Φ.Tag) (h : op.access = some (n, t)) : Typed o (op.exec o) n t := by
  cases op with
  | get => cases h; exact (getColumn_typed o n t).1
  | read => cases h; exact read_typed o n t _
  | write => cases h; exact update_typed o n t _ _
  | assign => cases h; exact assign_typed o n t _ _
  | iterate => cases h; exact iterate_typed o n t
  | replaceData => cases h

/-- The type used in the first access to `name`. -/
def firstAccess (name : Str) : List (TOp Φ) → Option Φ.Tag
  | [] => none
  | op :: ops =>
    match op.access with
    | some (n, t) => if n = name then some t else firstAccess name ops
    | none => firstAccess name ops

/-- **C45** After any history of accesses (of any kinds, types and outcomes, with the data replaced in between) a column is obtained exactly with the
type of its first access; with any other type the access fails with bad_get.  A column not accessed before can be obtained with every type, and a
name that belongs to no column gives column-not-found. -/
theorem C45_first_type (cols : List Column) (data : List (List Str)) (ops : List (TOp Φ)) (name : Str) (t : Φ.Tag) :
    let o := ops.foldl TOp.exec (Obj.fresh cols data : Obj Φ)
    (name ∈ cols.map (·.name) → ∀ t₀, firstAccess name ops = some t₀ →
      ((t = t₀ → ∃ v, (o.getColumn name t).2 = .ok v) ∧ (t ≠ t₀ → (o.getColumn name t).2 = .error .badGet))) ∧
    (name ∈ cols.map (·.name) → firstAccess name ops = none → ∃ v, (o.getColumn name t).2 = .ok v) ∧
    (name ∉ cols.map (·.name) → (o.getColumn name t).2 = .error .columnNotFound) := by
  intro o
  have key : ∀ (ops : List (TOp Φ)) (o : Obj Φ), o.cols = cols →
      (ops.foldl TOp.exec o).cols = cols ∧
      (name ∈ cols.map (·.name) → viewType (ops.foldl TOp.exec o) name = (viewType o name).or (firstAccess name ops)) ∧
      (name ∉ cols.map (·.name) → viewType o name = none → viewType (ops.foldl TOp.exec o) name = none) := by
    intro ops
    induction ops with
    | nil => intro o ho; exact ⟨ho, fun _ => by simp [firstAccess], fun _ h => h⟩
    | cons op ops ih =>
      intro o ho
      rw [List.foldl_cons]
      cases hacc : op.access with
      | none =>
        have hd : ∃ d, op = .replaceData d := by
          cases op <;> first | exact ⟨_, rfl⟩ | cases hacc
        obtain ⟨d, rfl⟩ := hd
        exact ih (TOp.exec o (.replaceData d)) ho
      | some p =>
        obtain ⟨n, u⟩ := p
        have ht := exec_typed o op n u hacc
        obtain ⟨g1, g2, g3⟩ := ih (op.exec o) (ht.1.trans ho)
        refine ⟨g1, ?_, ?_⟩
        · intro hm
          rw [g2 hm, ht.2 name]
          simp only [firstAccess, hacc]
          by_cases hn : name = n
          · subst hn
            rw [if_pos rfl]
            cases hvt : viewType o name with
            | none => rw [if_pos ⟨rfl, rfl, by rw [ho]; exact hm⟩]; rfl
            | some w => rw [if_neg (by simp)]; rfl
          · rw [if_neg (fun h => hn h.1), if_neg (fun h => hn h.symm)]
        · intro hm hnone
          refine g3 hm ?_
          rw [ht.2 name, if_neg]
          · exact hnone
          · rintro ⟨_, _, h⟩; rw [ho] at h; exact hm h
  obtain ⟨k1, k2, k3⟩ := key ops (Obj.fresh cols data) rfl
  have hview : ∀ w, viewType o name = some w → ∃ v, o.views name = some ⟨w, v⟩ := by
    intro w hw
    unfold viewType at hw
    cases hv : o.views name with
    | none => rw [hv] at hw; cases hw
    | some e => rw [hv] at hw; cases hw; exact ⟨e.2, rfl⟩
  have hnone : viewType o name = none → o.views name = none := by
    intro hw
    unfold viewType at hw
    cases hv : o.views name with
    | none => rfl
    | some e => rw [hv] at hw; cases hw
  refine ⟨?_, ?_, ?_⟩
  · intro hm t₀ hf
    have : viewType o name = some t₀ := by
      rw [show viewType o name = _ from k2 hm, hf]; rfl
    obtain ⟨v, hv⟩ := hview t₀ this
    unfold Obj.getColumn
    rw [hv]
    simp only
    constructor
    · rintro rfl; rw [dif_pos rfl]; exact ⟨v, rfl⟩
    · intro hne; rw [dif_neg (fun h => hne h.symm)]
  · intro hm hf
    have : viewType o name = none := by
      rw [show viewType o name = _ from k2 hm, hf]; rfl
    obtain ⟨c, hc⟩ := exists_column hm
    unfold Obj.getColumn
    rw [hnone this, show o.cols = cols from k1, hc]
    exact ⟨_, rfl⟩
  · intro hm
    have : viewType o name = none := k3 hm rfl
    unfold Obj.getColumn
    rw [hnone this, show o.cols = cols from k1]
    cases hc : Table.columnMetadata cols name with
    | error e => simp only; rw [((C43_not_found _ _ _).1 hc).1]
    | ok c =>
      exfalso
      obtain ⟨a, b, e, e1, _⟩ := (C43_first _ _ _).1 hc
      exact hm (List.mem_map.2 ⟨c, by rw [e]; simp, e1⟩)

/-! ## C73 -/

/-- **C73** `column[row] = x` decodes the old cell first: if the old text cannot be decoded, the assignment fails with that error and the table is
unchanged, although writing the same value through `update_value` succeeds. -/
theorem C73_assign_needs_old_value (cols : List Column) (data : List (List Str)) (hl : Layout cols data) (name : Str) (c : Column)
    (hc : Table.columnMetadata cols name = .ok c) (t : Φ.Tag) (row : Nat) (hr : row < data.length) (s : Str) (hs : cellAt data row c.index = .ok s)
    (e : Err) (he : Φ.deser t s c.total = .error e) (x : Φ.El t) :
    let o : Obj Φ := Obj.fresh cols data
    (o.assign name t row x).2 = .error e ∧ (o.assign name t row x).1.data = data ∧
    (o.update name t row x).2 = .ok () ∧ cellAt (o.update name t row x).1.data row c.index = .ok (Φ.ser t x) := by
  intro o
  have hA : Agree (ty := fun _ => t) cols o (initialArrays (fun _ => t) cols data) := agree_initial hl
  have hval : (initialArrays (fun _ => t) cols data : Arrays Φ (fun _ => t)).val name row = .error e := by
    simp only [initialArrays, hc, decoded, hs, he]
  obtain ⟨o1, e1, e2, _⟩ := read_agree hA hc row
  obtain ⟨o2, g1, _, g3⟩ := update_agree (number := columnNumber cols) hA hc (by simp only [columnNumber, hc]) hr x
  rw [hval] at e1
  refine ⟨?_, ?_, ?_, ?_⟩
  · unfold Obj.assign; rw [e1]
  · unfold Obj.assign; rw [e1]; exact e2
  · rw [g1]
  · rw [g1]
    rw [← g3.text]
    simp [Arrays.set, columnNumber, hc]

/-! ## C74 -/

/-- **C74** What a number read from a binary table cell is, in terms of the field in the file: white-space bytes at the ends of the field are dropped
before decoding, so the number is right only if there are none; one such byte at the end is replaced by zero, one at the beginning shifts the number;
with two or more the code reads outside the string. -/
theorem C74_numeric_cell (w : Nat) (field x : Str) (hw : field.length = w) (ht : IsTrim field x) :
    (NoOuterWhite field → ∃ v, Bin.elementToNumeric w x = .ok v ∧ v.toNat = bigEndian field) ∧
    (∀ b, field = x ++ [b] → ∃ v, Bin.elementToNumeric w x = .ok v ∧ v.toNat + b.toNat = bigEndian field) ∧
    (∀ b, field = b :: x → ∃ v, Bin.elementToNumeric w x = .ok v ∧ v.toNat = bigEndian x * 256) ∧
    (x.length + 2 ≤ field.length → Bin.elementToNumeric w x = .error .ub) := by
  have hbe : ∀ (s : Str) (b : Byte), bigEndian (s ++ [b]) = bigEndian s * 256 + b.toNat := by
    intro s b
    induction s with
    | nil => simp [bigEndian]
    | cons a s ih =>
      rw [List.cons_append, bigEndian, bigEndian, ih, List.length_append, List.length_singleton, Nat.pow_succ, Nat.add_mul, Nat.mul_assoc]
      omega
  obtain ⟨c1, c2, c3⟩ := C15_decode w x
  refine ⟨?_, ?_, ?_, ?_⟩
  · intro hn
    have : x = field := (C38_exact field x ht).1.2 hn
    subst this
    obtain ⟨v, h1, h2⟩ := c3 (by omega)
    refine ⟨v, h1, ?_⟩
    rw [← h2, List.take_of_length_le (by omega)]
  · intro b hb
    have hl : x.length + 1 = w := by rw [← hw, hb]; simp
    obtain ⟨v, h1, h2⟩ := c2 (by omega)
    refine ⟨v, h1, ?_⟩
    rw [List.take_of_length_le (by simp; omega), hbe] at h2
    rw [← h2, hb, hbe]
    simp
  · intro b hb
    have hl : x.length + 1 = w := by rw [← hw, hb]; simp
    obtain ⟨v, h1, h2⟩ := c2 (by omega)
    refine ⟨v, h1, ?_⟩
    rw [List.take_of_length_le (by simp; omega), hbe] at h2
    rw [← h2]
    simp
  · intro h
    exact c1 (by omega)

/-! ### examples -/

def exCols : List Column := [⟨1, b!"N", 1, b!"I2", [], none, none, [], [], [], 0⟩, ⟨2, b!"V", 3, b!"I2", [], none, none, [], [], [], 0⟩]

theorem exLayout : Layout exCols [[b!"1", b!"2"], [b!"", b!"4"]] := by
  refine ⟨?_, by decide⟩
  intro j c h
  match j with
  | 0 => cases h; rfl
  | 1 => cases h; rfl
  | j + 2 => simp [exCols] at h

/-- C42: read the first cell, overwrite it, read it again, and loop over the second column. -/
example (F : FloatText) (G : StreamText) : let ops : List (VOp (asciiFamily F G) (fun _ => .longlong)) :=
      [.read b!"N" 0, .write b!"N" 0 (7 : BitVec 64), .read b!"N" 0, .assign b!"N" 1 (5 : BitVec 64), .iterate b!"V"]
    ((Obj.fresh exCols [[b!"1", b!"2"], [b!"", b!"4"]]).run ops).2 =
      [.value b!"N" (.ok (1 : BitVec 64)), .done (.ok ()), .value b!"N" (.ok (7 : BitVec 64)), .done (.error .invalidCast),
       .values b!"V" (.ok [(2 : BitVec 64), (4 : BitVec 64)])] := rfl

/-- C44: the first row was read before the data were replaced, the second was not. -/
example (F : FloatText) (G : StreamText) :
    let o := ((Obj.fresh exCols [[b!"1", b!"2"], [b!"3", b!"4"]] : Obj (asciiFamily F G)).read b!"N" .longlong 0).1.replace exCols [[b!"8", b!"9"], [b!"6", b!"7"]]
    (o.read b!"N" .longlong 0).2 = .ok (1 : BitVec 64) ∧ (o.read b!"N" .longlong 1).2 = .ok (6 : BitVec 64) := ⟨rfl, rfl⟩

/-- C45: the second type is refused. -/
example (F : FloatText) (G : StreamText) :
    let o := ((Obj.fresh exCols [[b!"1", b!"2"]] : Obj (asciiFamily F G)).read b!"N" .longlong 0).1
    (o.getColumn b!"N" .double).2 = .error .badGet := rfl

/-- C74: 0x0120 is read as 0x0100. -/
example : Bin.elementToNumeric 2 (trim [1, 32]) = .ok 0x0100#16 := by decide +kernel

end Astro
