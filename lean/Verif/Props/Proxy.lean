import Verif.Model.Proxy
import Verif.Spec.Proxy
import Verif.Props.View

/-
C144: elements of a column held in variables.
-/

namespace Astro

open Spec

variable {Φ : Family} {ty : Str → Φ.Tag}

/-- One operation on a table and proxies in variables.  A variable that does not exist or has another type is an error of the compiler in C++. -/
def Desk.step (d : Desk Φ) : POp Φ ty → Desk Φ × POut Φ ty
  | .plain op => ({ d with obj := (d.obj.step op).1 }, .plain (d.obj.step op).2)
  | .take p name row =>
    match d.obj.take name (ty name) row with
    | (o, .ok q) => (({ d with obj := o } : Desk Φ).keep p q, .done (.ok ()))
    | (o, .error e) => ({ d with obj := o }, .done (.error e))
  | .get p =>
    match d.vars p with
    | some q => (d, .value (.ok ⟨q.tag, q.get⟩))
    | none => (d, .value (.error .ub))
  | .put p t x =>
    match d.vars p with
    | some q => if h : t = q.tag then ({ d with obj := (q.put (h ▸ x) d.obj).1 }, .done (q.put (h ▸ x) d.obj).2) else (d, .done (.error .ub))
    | none => (d, .done (.error .ub))
  | .copy p q =>
    match d.vars p, d.vars q with
    | some x, some y => if x.tag = y.tag then (d.keep p (x.copyFrom y), .done (.ok ())) else (d, .done (.error .ub))
    | _, _ => (d, .done (.error .ub))
  | .move name row name' row' =>
    ({ d with obj := (d.obj.moveCell (ty name) name row name' row').1 }, .done ((d.obj.moveCell (ty name) name row name' row').2.map fun _ => ()))

/-- A sequence of operations. -/
def Desk.run (d : Desk Φ) : List (POp Φ ty) → Desk Φ × List (POut Φ ty)
  | [] => (d, [])
  | op :: ops =>
    let (d1, out) := d.step op
    let (d2, outs) := d1.run ops
    (d2, out :: outs)

/-- A table as constructed, and no proxies. -/
def Desk.fresh (cols : List Column) (data : List (List Str)) : Desk Φ := ⟨Obj.fresh cols data, fun _ => none⟩

/-- The arrays of such a table, and no notes. -/
def initialNotes (ty : Str → Φ.Tag) (cols : List Column) (data : List (List Str)) : Notes Φ ty := ⟨initialArrays ty cols data, fun _ => none⟩

/-- The table and its arrays agree, and so do proxies and notes. -/
structure DeskAgree (cols : List Column) (rows : Nat) (d : Desk Φ) (s : Notes Φ ty) : Prop where
  obj : Agree cols d.obj s.arrays
  height : d.obj.data.length = rows
  vars : ∀ k, (d.vars k = none ∧ s.note k = none) ∨
    ∃ n : Note Φ ty, s.note k = some n ∧ d.vars k = some ⟨n.name, ty n.name, n.row, n.value⟩ ∧ n.name ∈ cols.map (·.name) ∧ n.row < rows ∧
      s.arrays.seen n.name n.row = true

theorem seen_look (a : Arrays Φ ty) (name : Str) (f : Nat → Bool) {n : Str} {r : Nat} (h : a.seen n r = true) : (a.look name f).seen n r = true := by
  simp [Arrays.look, h]

theorem seen_set (number : Str → Nat) (a : Arrays Φ ty) (name : Str) (row : Nat) (x : Φ.El (ty name)) {n : Str} {r : Nat} (h : a.seen n r = true) :
    (a.set number name row x).seen n r = true := by
  simp [Arrays.set, h]

theorem seen_step (number : Str → Nat) (rows : Nat) (a : Arrays Φ ty) (op : VOp Φ ty) {n : Str} {r : Nat} (h : a.seen n r = true) :
    (a.step number rows op).1.seen n r = true := by
  cases op with
  | read name row => exact seen_look _ _ _ h
  | write name row x => exact seen_set _ _ _ _ _ h
  | assign name row x =>
    simp only [Arrays.step]
    cases a.val name row with
    | ok y => exact seen_set _ _ _ _ _ h
    | error e => exact h
  | iterate name => exact seen_look _ _ _ h

/-- Changing the table and the arrays only. -/
theorem DeskAgree.table {cols : List Column} {rows : Nat} {d : Desk Φ} {s : Notes Φ ty} (h : DeskAgree cols rows d s) {o : Obj Φ} {a : Arrays Φ ty}
    (ha : Agree cols o a) (hr : o.data.length = rows) (hs : ∀ n r, s.arrays.seen n r = true → a.seen n r = true) :
    DeskAgree cols rows { d with obj := o } { s with arrays := a } := by
  refine ⟨ha, hr, fun k => ?_⟩
  rcases h.vars k with h0 | ⟨n, e1, e2, e3, e4, e5⟩
  · exact Or.inl h0
  · exact Or.inr ⟨n, e1, e2, e3, e4, hs _ _ e5⟩

/-- A new proxy and its note. -/
theorem DeskAgree.keep {cols : List Column} {rows : Nat} {d : Desk Φ} {s : Notes Φ ty} (h : DeskAgree cols rows d s) (k : Nat) (n : Note Φ ty)
    (hn : n.name ∈ cols.map (·.name)) (hr : n.row < rows) (hs : s.arrays.seen n.name n.row = true) :
    DeskAgree cols rows (d.keep k ⟨n.name, ty n.name, n.row, n.value⟩) (s.make k n) := by
  refine ⟨h.obj, h.height, fun i => ?_⟩
  by_cases hi : i = k
  · exact Or.inr ⟨n, by simp [Notes.make, hi], by simp [Desk.keep, hi], hn, hr, hs⟩
  · simp only [Notes.make, Desk.keep, if_neg hi]
    exact h.vars i

theorem desk_step {cols : List Column} {rows : Nat} {d : Desk Φ} {s : Notes Φ ty} (h : DeskAgree cols rows d s) {op : POp Φ ty}
    (hv : op.Valid (cols.map (·.name)) rows) :
    (d.step op).2 = (s.step (columnNumber cols) rows op).2 ∧ DeskAgree cols rows (d.step op).1 (s.step (columnNumber cols) rows op).1 := by
  cases op with
  | plain op =>
    obtain ⟨e1, e2, e3⟩ := step_agree h.obj (h.height ▸ hv : op.Valid _ d.obj.data.length)
    rw [h.height] at e1 e2 e3
    simp only [Desk.step, Notes.step]
    exact ⟨by rw [e1], h.table e3 e2 fun n r => seen_step _ _ _ _⟩
  | take p name row =>
    obtain ⟨c, hc⟩ := exists_column hv.1
    obtain ⟨o', e1, e2, e3⟩ := read_agree h.obj hc row
    have hT := h.table e3 (e2 ▸ h.height) fun n r => seen_look _ _ _
    simp only [Desk.step, Notes.step, Obj.take, e1, Arrays.step]
    cases hval : s.arrays.val name row with
    | error e =>
      simp only [hval] at hT ⊢
      exact ⟨trivial, hT⟩
    | ok x =>
      simp only
      refine ⟨trivial, hT.keep p ⟨name, row, x⟩ hv.1 hv.2 ?_⟩
      simp [Arrays.look, hval, Except.isOk, Except.toBool]
  | get p =>
    simp only [Desk.step, Notes.step]
    rcases h.vars p with ⟨h1, h2⟩ | ⟨n, h1, h2, -⟩
    · rw [h1, h2]; exact ⟨rfl, h⟩
    · rw [h1, h2]; exact ⟨rfl, h⟩
  | put p t x =>
    simp only [Desk.step, Notes.step]
    rcases h.vars p with ⟨h1, h2⟩ | ⟨n, h1, h2, h3, h4, h5⟩
    · rw [h1, h2]; exact ⟨rfl, h⟩
    · rw [h1, h2]
      simp only
      by_cases ht : t = ty n.name
      · subst ht
        obtain ⟨c, hc⟩ := exists_column h3
        have hview : ∃ v, d.obj.views n.name = some ⟨ty n.name, v⟩ := by
          rcases h.obj.view n.name c hc with ⟨-, g⟩ | ⟨v, g, -⟩
          · rw [(g n.row).1] at h5; cases h5
          · exact ⟨v, g⟩
        obtain ⟨v, hvw⟩ := hview
        obtain ⟨o', e1, e2, e3⟩ := update_agree (number := columnNumber cols) h.obj hc (by simp only [columnNumber, hc]) (h.height.symm ▸ h4) x
        simp only [dite_true, Proxy.put, hvw, if_true, e1]
        exact ⟨trivial, h.table e3 (e2.trans h.height) fun n r => seen_set _ _ _ _ _⟩
      · rw [dif_neg ht, dif_neg ht]
        exact ⟨rfl, h⟩
  | copy p q =>
    simp only [Desk.step, Notes.step]
    rcases h.vars p with ⟨h1, h2⟩ | ⟨m, h1, h2, -⟩
    · rw [h1, h2]; exact ⟨rfl, h⟩
    · rcases h.vars q with ⟨g1, g2⟩ | ⟨n, g1, g2, g3, g4, g5⟩
      · rw [h1, h2, g1, g2]; exact ⟨rfl, h⟩
      · rw [h1, h2, g1, g2]
        simp only
        by_cases ht : ty m.name = ty n.name
        · rw [if_pos ht, if_pos ht]
          exact ⟨rfl, h.keep p n g3 g4 g5⟩
        · rw [if_neg ht, if_neg ht]
          exact ⟨rfl, h⟩
  | move name row name' row' =>
    obtain ⟨v1, v2, v3, v4, v5⟩ := hv
    obtain ⟨c', hc'⟩ := exists_column v3
    obtain ⟨c, hc⟩ := exists_column v1
    obtain ⟨o1, e1, e2, e3⟩ := read_agree h.obj hc' row'
    have hT := h.table e3 (e2 ▸ h.height) fun n r => seen_look _ _ _
    obtain ⟨o2, f1, f2, f3⟩ := read_agree e3 hc row
    have hT2 := hT.table f3 (f2 ▸ e2 ▸ h.height) fun n r => seen_look _ _ _
    have e1' : ∃ r, d.obj.read name' (ty name) row' = (o1, r) ∧ r.map (fun _ => ()) = (s.arrays.val name' row').map (fun _ => ()) := by
      rw [← v5]
      exact ⟨_, e1, rfl⟩
    obtain ⟨r, e1', er⟩ := e1'
    simp only [Desk.step, Notes.step, Obj.moveCell, Obj.take, e1', Arrays.step]
    cases hval : s.arrays.val name' row' with
    | error e =>
      rw [hval] at er
      cases r with
      | ok y => cases er
      | error e' =>
        cases er
        simp only [hval] at hT ⊢
        exact ⟨rfl, hT⟩
    | ok x =>
      rw [hval] at er
      cases r with
      | error e' => cases er
      | ok y =>
        rw [look_one_val] at f1
        simp only [f1]
        cases hval2 : s.arrays.val name row with
        | error e => exact ⟨rfl, hT2⟩
        | ok y => exact ⟨rfl, hT2⟩

theorem desk_run {cols : List Column} {rows : Nat} : ∀ (ops : List (POp Φ ty)) {d : Desk Φ} {s : Notes Φ ty}, DeskAgree cols rows d s →
    (∀ op ∈ ops, op.Valid (cols.map (·.name)) rows) →
    (d.run ops).2 = (s.run (columnNumber cols) rows ops).2 ∧ DeskAgree cols rows (d.run ops).1 (s.run (columnNumber cols) rows ops).1
  | [], _, _, h, _ => ⟨rfl, h⟩
  | op :: ops, d, s, h, hv => by
    obtain ⟨e1, e2⟩ := desk_step h (hv op List.mem_cons_self)
    obtain ⟨g1, g2⟩ := desk_run ops e2 fun op' h' => hv op' (List.mem_cons_of_mem _ h')
    simp only [Desk.run, Notes.run]
    exact ⟨by rw [e1, g1], g2⟩

theorem desk_initial {cols : List Column} {data : List (List Str)} (hl : Layout cols data) :
    DeskAgree cols data.length (Desk.fresh cols data : Desk Φ) (initialNotes ty cols data) :=
  ⟨agree_initial hl, rfl, fun _ => Or.inl ⟨rfl, rfl⟩⟩

/-- **C144** Any sequence of operations on the columns of a table and on elements kept in variables has exactly the results it has on plain arrays and
notes: a variable gives the value its element had when it was taken, assigning a value to it writes to the element, assigning another variable to it
writes nothing, and neither does `column[row] = column'[row']`. -/
theorem C144_notes (cols : List Column) (data : List (List Str)) (hl : Layout cols data) (ops : List (POp Φ ty))
    (hv : ∀ op ∈ ops, op.Valid (cols.map (·.name)) data.length) :
    ((Desk.fresh cols data : Desk Φ).run ops).2 = ((initialNotes ty cols data).run (columnNumber cols) data.length ops).2 ∧
    ∀ r i s, cellAt ((Desk.fresh cols data : Desk Φ).run ops).1.obj.data r i = .ok s ↔
      ((initialNotes ty cols data).run (columnNumber cols) data.length ops).1.arrays.text r i = some s := by
  obtain ⟨g1, g2⟩ := desk_run ops (desk_initial (Φ := Φ) (ty := ty) hl) hv
  exact ⟨g1, fun r i s => (g2.obj.text r i s).symm⟩

theorem vars_step (d : Desk Φ) (op : POp Φ ty) (p : Nat) (h : ¬ op.Rebinds p) : (d.step op).1.vars p = d.vars p := by
  cases op with
  | plain op => rfl
  | take k name row =>
    simp only [Desk.step]
    rcases d.obj.take name (ty name) row with ⟨o, e | q⟩
    · rfl
    · have : ¬ p = k := fun e => h e.symm
      simp [Desk.keep, this]
  | get k => simp only [Desk.step]; cases d.vars k <;> rfl
  | put k t x =>
    simp only [Desk.step]
    cases d.vars k with
    | none => rfl
    | some q => by_cases ht : t = q.tag <;> simp [ht]
  | copy k q =>
    have : ¬ p = k := fun e => h e.symm
    simp only [Desk.step]
    cases d.vars k with
    | none => rfl
    | some x =>
      cases d.vars q with
      | none => rfl
      | some y => by_cases ht : x.tag = y.tag <;> simp [ht, Desk.keep, this]
  | move name row name' row' => rfl

/-- **C144** A variable goes on giving the value its element had when it was taken, whatever is stored in the table in the meantime, through the
variable itself or otherwise. -/
theorem C144_snapshot (d : Desk Φ) (p : Nat) (name : Str) (row : Nat) (x : Φ.El (ty name))
    (ht : (d.step (.plain (.read name row) : POp Φ ty)).2 = .plain (.value name (.ok x))) (ops : List (POp Φ ty)) (hno : ∀ op ∈ ops, ¬ op.Rebinds p) :
    ((((d.step (.take p name row : POp Φ ty)).1.run ops).1).step (.get p : POp Φ ty)).2 = .value (.ok ⟨ty name, x⟩) := by
  have key : ∀ (ops : List (POp Φ ty)), (∀ op ∈ ops, ¬ op.Rebinds p) → ∀ d : Desk Φ, (d.run ops).1.vars p = d.vars p := by
    intro ops
    induction ops with
    | nil => intro _ d; rfl
    | cons op ops ih =>
      intro hno d
      simp only [Desk.run]
      rw [ih (fun o ho => hno o (List.mem_cons_of_mem _ ho)), vars_step d op p (hno op List.mem_cons_self)]
  have hr : (d.obj.read name (ty name) row).2 = .ok x := by
    simp only [Desk.step, Obj.step] at ht
    injection ht with ht
    injection ht
  have h1 : (d.step (.take p name row : POp Φ ty)).1.vars p = some ⟨name, ty name, row, x⟩ := by
    simp only [Desk.step, Obj.take]
    rcases hread : d.obj.read name (ty name) row with ⟨o, r⟩
    rw [hread] at hr
    simp only at hr
    subst hr
    simp [Desk.keep]
  have h2 := (key ops hno (d.step (.take p name row : POp Φ ty)).1).trans h1
  generalize ((d.step (.take p name row : POp Φ ty)).1.run ops).1 = d' at *
  simp only [Desk.step, h2, Proxy.get]

/-- **C144** Whatever is done with elements and variables, as long as no value is stored the table keeps its texts: copying elements to elements, which
looks like storing (`a[i] = b[j]`, or `p = q`), never changes it. -/
theorem C144_no_store (ops : List (POp Φ ty)) (hno : ∀ op ∈ ops, ¬ op.Stores) (d : Desk Φ) : (d.run ops).1.obj.data = d.obj.data := by
  have take_data : ∀ (o : Obj Φ) n t r, (o.take n t r).1.data = o.data := by
    intro o n t r
    have := (C42_reads_pure o n t r).1
    unfold Obj.take
    rcases hread : o.read n t r with ⟨o', e | q⟩ <;> rw [hread] at this <;> exact this
  induction ops generalizing d with
  | nil => rfl
  | cons op ops ih =>
    simp only [Desk.run]
    rw [ih (fun o ho => hno o (List.mem_cons_of_mem _ ho))]
    have hop := hno op List.mem_cons_self
    cases op with
    | plain op =>
      cases op with
      | read n r => exact (C42_reads_pure d.obj n (ty n) r).1
      | iterate n => exact (C42_reads_pure d.obj n (ty n) 0).2.1
      | write n r x => exact absurd trivial hop
      | assign n r x => exact absurd trivial hop
    | take k n r =>
      have := take_data d.obj n (ty n) r
      simp only [Desk.step]
      rcases hread : d.obj.take n (ty n) r with ⟨o', e | q⟩ <;> rw [hread] at this <;> exact this
    | get k => simp only [Desk.step]; cases d.vars k <;> rfl
    | put k t x => exact absurd trivial hop
    | copy k q =>
      simp only [Desk.step]
      cases d.vars k with
      | none => rfl
      | some x =>
        cases d.vars q with
        | none => rfl
        | some y => by_cases ht : x.tag = y.tag <;> simp [ht, Desk.keep]
    | move n r n' r' =>
      simp only [Desk.step, Obj.moveCell]
      have h1 := take_data d.obj n' (ty n) r'
      rcases hread : d.obj.take n' (ty n) r' with ⟨o1, e | q⟩
      · rw [hread] at h1; exact h1
      · rw [hread] at h1
        have h2 := take_data o1 n (ty n) r
        simp only
        rcases hread2 : o1.take n (ty n) r with ⟨o2, e | q2⟩ <;> rw [hread2] at h2 <;> exact h2.trans h1

/-- **C144** The value of the expression `a[i] = b[j]` is the left element, overwritten by the right one: it gives the value of `b[j]`, and assigning to it goes to `b[j]`. -/
theorem C144_moved (o : Obj Φ) (t : Φ.Tag) (name : Str) (row : Nat) (name' : Str) (row' : Nat) (p : Proxy Φ) (h : (o.moveCell t name row name' row').2 = .ok p) :
    ∃ x, (o.read name' t row').2 = .ok x ∧ p = ⟨name', t, row', x⟩ := by
  unfold Obj.moveCell Obj.take at h
  rcases e1 : o.read name' t row' with ⟨o1, e | x⟩
  · rw [e1] at h; cases h
  · rw [e1] at h
    simp only at h
    rcases e2 : o1.read name t row with ⟨o2, e | y⟩
    · rw [e2] at h; cases h
    · rw [e2] at h
      cases h
      exact ⟨x, rfl, rfl⟩

/-- **C144** After `auto p = column[row]; p = x;` the element is `x` for every later read and in the table, but `p` still gives the old value. -/
theorem C144_put (cols : List Column) (data : List (List Str)) (hl : Layout cols data) (before : List (POp Φ ty))
    (hv : ∀ op ∈ before, op.Valid (cols.map (·.name)) data.length) (p : Nat) (name : Str) (row : Nat) (hn : name ∈ cols.map (·.name))
    (hr : row < data.length) (old x : Φ.El (ty name))
    (ht : (((Desk.fresh cols data : Desk Φ).run before).1.step (.plain (.read name row) : POp Φ ty)).2 = .plain (.value name (.ok old))) :
    (((Desk.fresh cols data : Desk Φ).run before).1.run [.take p name row, .put p (ty name) x, .plain (.read name row), .get p]).2 =
      [.done (.ok ()), .done (.ok ()), .plain (.value name (.ok x)), .value (.ok ⟨ty name, old⟩)] ∧
    cellAt (((Desk.fresh cols data : Desk Φ).run before).1.run [(.take p name row : POp Φ ty), .put p (ty name) x]).1.obj.data row (columnNumber cols name) =
      .ok (Φ.ser (ty name) x) := by
  obtain ⟨-, hA⟩ := desk_run before (desk_initial (Φ := Φ) (ty := ty) hl) hv
  generalize ((Desk.fresh cols data : Desk Φ).run before).1 = d at *
  generalize ((initialNotes ty cols data).run (columnNumber cols) data.length before).1 = s at *
  have hold : s.arrays.val name row = .ok old := by
    have := (desk_step hA (op := .plain (.read name row)) ⟨hn, hr⟩).1
    rw [ht] at this
    simp only [Notes.step, Arrays.step] at this
    injection this with this
    injection this with _ this
    exact this.symm
  obtain ⟨g1, -⟩ := desk_run [.take p name row, .put p (ty name) x, .plain (.read name row), .get p] hA (by
    intro op hop
    simp only [List.mem_cons, List.not_mem_nil, or_false] at hop
    rcases hop with rfl | rfl | rfl | rfl
    · exact ⟨hn, hr⟩
    · trivial
    · exact ⟨hn, hr⟩
    · trivial)
  obtain ⟨-, g2⟩ := desk_run [.take p name row, .put p (ty name) x] hA (by
    intro op hop
    simp only [List.mem_cons, List.not_mem_nil, or_false] at hop
    rcases hop with rfl | rfl
    · exact ⟨hn, hr⟩
    · trivial)
  refine ⟨?_, ?_⟩
  · rw [g1]
    simp [Notes.run, Notes.step, hold, Notes.make, Arrays.step, Arrays.set]
  · rw [← g2.obj.text]
    simp [Notes.run, Notes.step, hold, Notes.make, Arrays.set]

/-- Swapping two elements the usual way, `auto t = N[0]; N[0] = N[1]; auto u = N[1]; u = t;`: all statements succeed and the table is as it was.  After
that `u = 9` goes to row 0, because `u` is now a copy of `t`, and `u` still gives 1. -/
example (F : FloatText) (G : StreamText) : let ops : List (POp (asciiFamily F G) (fun _ => .longlong)) :=
      [.take 0 b!"N" 0, .move b!"N" 0 b!"N" 1, .take 1 b!"N" 1, .copy 1 0, .plain (.iterate b!"N"), .put 1 .longlong (9 : BitVec 64), .get 1,
       .plain (.iterate b!"N")]
    ((Desk.fresh exCols [[b!"1", b!"2"], [b!"3", b!"4"]]).run ops).2 =
      [.done (.ok ()), .done (.ok ()), .done (.ok ()), .done (.ok ()), .plain (.values b!"N" (.ok [(1 : BitVec 64), (3 : BitVec 64)])),
       .done (.ok ()), .value (.ok ⟨.longlong, (1 : BitVec 64)⟩), .plain (.values b!"N" (.ok [(9 : BitVec 64), (3 : BitVec 64)]))] := rfl

/-- `N[0] = N[1]` is an element in row 1 with the value 3. -/
example (F : FloatText) (G : StreamText) : ((Obj.fresh exCols [[b!"1", b!"2"], [b!"3", b!"4"]] : Obj (asciiFamily F G)).moveCell .longlong b!"N" 0 b!"N" 1).2 =
    .ok ⟨b!"N", .longlong, 1, (3 : BitVec 64)⟩ := rfl

end Astro
