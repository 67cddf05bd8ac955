import Verif.Spec.View
import Verif.Props.TableData

/-
Helper lemmas about column views.
-/

namespace Astro

open Spec

variable {Φ : Family} {ty : Str → Φ.Tag}

/-- The stored text of column `c` in row `row`, decoded. -/
def decoded (Φ : Family) (data : List (List Str)) (c : Column) (t : Φ.Tag) (row : Nat) : Res (Φ.El t) :=
  match cellAt data row c.index with
  | .error e => .error e
  | .ok s => Φ.deser t s c.total

/-- Columns are numbered from 1 on and every row of the matrix has one cell for each. -/
structure Layout (cols : List Column) (data : List (List Str)) : Prop where
  index : ∀ (j : Nat) (c : Column), cols[j]? = some c → c.index = j + 1
  width : ∀ row ∈ data, row.length = cols.length

theorem cellAt_ok {data : List (List Str)} {row index : Nat} {s : Str} :
    cellAt data row index = .ok s ↔ 1 ≤ index ∧ ∃ r, data[row]? = some r ∧ r[index - 1]? = some s := by
  unfold cellAt
  cases hr : data[row]? with
  | none => simp
  | some r =>
    simp only
    by_cases h0 : index = 0
    · simp [h0]
    · rw [if_neg h0]
      cases hc : r[index - 1]? with
      | none => simp only [reduceCtorEq, false_iff]; rintro ⟨_, r', h1, h2⟩; cases h1; rw [hc] at h2; cases h2
      | some s' =>
        simp only [Except.ok.injEq]
        constructor
        · rintro rfl; exact ⟨by omega, r, rfl, hc⟩
        · rintro ⟨_, r', h1, h2⟩; cases h1; rw [hc] at h2; cases h2; rfl

theorem cellAt_total {cols : List Column} {data : List (List Str)} (hl : Layout cols data) {name : Str} {c : Column}
    (hc : Table.columnMetadata cols name = .ok c) {row : Nat} (hr : row < data.length) : ∃ s, cellAt data row c.index = .ok s := by
  obtain ⟨a, b, e, _, _⟩ := (C43_first cols name c).1 hc
  have hj : cols[a.length]? = some c := by rw [e]; simp
  have hi := hl.index _ c hj
  have hw := hl.width _ (List.getElem_mem hr)
  have hlt : a.length < data[row].length := by
    rw [hw]; exact (List.getElem?_eq_some_iff.1 hj).1
  refine ⟨data[row][a.length], cellAt_ok.2 ⟨by omega, data[row], List.getElem?_eq_getElem hr, ?_⟩⟩
  rw [hi, Nat.add_sub_cancel]; exact List.getElem?_eq_getElem hlt

theorem name_of_index {cols : List Column} {data : List (List Str)} (hl : Layout cols data) {n n' : Str} {c c' : Column}
    (h : Table.columnMetadata cols n = .ok c) (h' : Table.columnMetadata cols n' = .ok c') (hi : c.index = c'.index) : n = n' := by
  obtain ⟨a, b, e, e1, _⟩ := (C43_first cols n c).1 h
  obtain ⟨a', b', e', e1', _⟩ := (C43_first cols n' c').1 h'
  have hj : cols[a.length]? = some c := by rw [e]; simp
  have hj' : cols[a'.length]? = some c' := by rw [e']; simp
  have h1 := hl.index _ c hj
  have h2 := hl.index _ c' hj'
  have : a.length = a'.length := by omega
  rw [this, hj'] at hj
  cases hj
  rw [← e1, ← e1']

theorem setCell_ok {data : List (List Str)} {row index : Nat} {s x : Str} (h : cellAt data row index = .ok s) :
    ∃ d, setCell data row index x = .ok d ∧ d.length = data.length ∧
      (∀ r i, cellAt d r i = if r = row ∧ i = index then .ok x else cellAt data r i) ∧
      (∀ cols : List Column, (∀ r ∈ data, r.length = cols.length) → ∀ r ∈ d, r.length = cols.length) := by
  obtain ⟨h1, r0, h2, h3⟩ := cellAt_ok.1 h
  obtain ⟨hlt, hr0⟩ := List.getElem?_eq_some_iff.1 h2
  have hg : data.getD row [] = r0 := by rw [List.getD_eq_getElem?_getD, h2]; rfl
  refine ⟨data.set row (r0.set (index - 1) x), ?_, by simp, ?_, ?_⟩
  · unfold setCell; rw [h, hg]; rfl
  · intro r i
    unfold cellAt
    rw [List.getElem?_set]
    by_cases hr : row = r
    · subst hr
      rw [if_pos rfl, if_pos hlt, h2]
      simp only
      by_cases hi0 : i = 0
      · have : ¬ (0 = index) := by omega
        simp [hi0, this]
      · rw [if_neg hi0, if_neg hi0, List.getElem?_set]
        have h3lt := (List.getElem?_eq_some_iff.1 h3).1
        by_cases hi : index - 1 = i - 1
        · have : i = index := by omega
          subst this
          rw [if_pos rfl, if_pos h3lt]; simp
        · have : ¬ i = index := by omega
          rw [if_neg hi]; simp [this]
    · rw [if_neg hr]
      have : ¬ r = row := fun h => hr h.symm
      simp [this]
  · intro cols hw r hr
    rcases List.mem_or_eq_of_mem_set hr with hr | rfl
    · exact hw r hr
    · rw [List.length_set]
      exact hw r0 (List.mem_of_getElem? h2)

/-- The table object and the arrays agree. -/
structure Agree (cols : List Column) (o : Obj Φ) (a : Arrays Φ ty) : Prop where
  metadata : o.cols = cols
  layout : Layout cols o.data
  text : ∀ r i s, a.text r i = some s ↔ cellAt o.data r i = .ok s
  view : ∀ name c, Table.columnMetadata cols name = .ok c →
    (o.views name = none ∧ ∀ row, a.seen name row = false ∧ a.val name row = decoded Φ o.data c (ty name) row) ∨
    (∃ v : View (Φ.El (ty name)), o.views name = some ⟨ty name, v⟩ ∧ v.index = c.index ∧ v.total = c.total ∧
      ∀ row, (∃ x, v.cache row = some x ∧ a.seen name row = true ∧ a.val name row = .ok x) ∨
        (v.cache row = none ∧ a.seen name row = false ∧ a.val name row = decoded Φ o.data c (ty name) row))

/-- The second case of `Agree.view`. -/
def ViewOk (a : Arrays Φ ty) (data : List (List Str)) (c : Column) (name : Str) (v : View (Φ.El (ty name))) : Prop :=
  v.index = c.index ∧ v.total = c.total ∧
    ∀ row, (∃ x, v.cache row = some x ∧ a.seen name row = true ∧ a.val name row = .ok x) ∨
      (v.cache row = none ∧ a.seen name row = false ∧ a.val name row = decoded Φ data c (ty name) row)

theorem getColumn_agree {cols : List Column} {o : Obj Φ} {a : Arrays Φ ty} (h : Agree cols o a) {name : Str} {c : Column}
    (hc : Table.columnMetadata cols name = .ok c) :
    ∃ o' v, o.getColumn name (ty name) = (o', .ok v) ∧ o'.data = o.data ∧ o'.views name = some ⟨ty name, v⟩ ∧ ViewOk a o.data c name v ∧
      Agree cols o' a := by
  rcases h.view name c hc with ⟨h1, h2⟩ | ⟨v, h1, h2⟩
  · refine ⟨o.putView name (ty name) ⟨c.index, c.total, fun _ => none⟩, ⟨c.index, c.total, fun _ => none⟩, ?_, rfl, ?_, ?_, ?_⟩
    · unfold Obj.getColumn
      rw [h1, h.metadata, hc]
    · simp [Obj.putView]
    · exact ⟨rfl, rfl, fun row => Or.inr ⟨rfl, h2 row⟩⟩
    · refine ⟨h.metadata, h.layout, h.text, ?_⟩
      intro n c' hc'
      by_cases hn : n = name
      · subst hn
        rw [hc] at hc'; cases hc'
        exact Or.inr ⟨⟨c.index, c.total, fun _ => none⟩, by simp [Obj.putView], rfl, rfl, fun row => Or.inr ⟨rfl, h2 row⟩⟩
      · have : (o.putView name (ty name) ⟨c.index, c.total, fun _ => none⟩).views n = o.views n := by simp [Obj.putView, hn]
        rw [this]
        exact h.view n c' hc'
  · refine ⟨o, v, ?_, rfl, h1, h2, h⟩
    unfold Obj.getColumn
    rw [h1]
    simp

/-- Storing a view that agrees with changed arrays. -/
theorem putView_agree {cols : List Column} {o : Obj Φ} {a : Arrays Φ ty} (h : Agree cols o a) {name : Str} {c : Column}
    (hc : Table.columnMetadata cols name = .ok c) {v' : View (Φ.El (ty name))} {a' : Arrays Φ ty} {d : List (List Str)}
    (hl : Layout cols d) (ht : ∀ r i s, a'.text r i = some s ↔ cellAt d r i = .ok s)
    (hv : ViewOk a' d c name v')
    (ho : ∀ n c', n ≠ name → Table.columnMetadata cols n = .ok c' → ∀ row, a'.seen n row = a.seen n row ∧ a'.val n row = a.val n row ∧
      decoded Φ d c' (ty n) row = decoded Φ o.data c' (ty n) row) :
    Agree cols { o.putView name (ty name) v' with data := d } a' := by
  refine ⟨h.metadata, hl, ht, ?_⟩
  intro n c' hc'
  by_cases hn : n = name
  · subst hn
    rw [hc] at hc'; cases hc'
    exact Or.inr ⟨v', by simp [Obj.putView], hv⟩
  · have : (({ o.putView name (ty name) v' with data := d } : Obj Φ)).views n = o.views n := by simp [Obj.putView, hn]
    rw [this]
    simp only
    rcases h.view n c' hc' with ⟨h1, h2⟩ | ⟨v, h1, h2, h3, h4⟩
    · refine Or.inl ⟨h1, fun row => ?_⟩
      obtain ⟨k1, k2, k3⟩ := ho n c' hn hc' row
      rw [k1, k2, k3]; exact h2 row
    · refine Or.inr ⟨v, h1, h2, h3, fun row => ?_⟩
      obtain ⟨k1, k2, k3⟩ := ho n c' hn hc' row
      rw [k1, k2, k3]; exact h4 row

/-- One element looked at. -/
theorem look_one_val (a : Arrays Φ ty) (name : Str) (p : Nat → Bool) : (a.look name p).val = a.val := rfl

theorem viewOk_look {a : Arrays Φ ty} {data : List (List Str)} {c : Column} {name : Str} {v : View (Φ.El (ty name))}
    (h : ViewOk a data c name v) (row : Nat) : ∃ v', v.read (Φ.deser (ty name)) data row = (v', a.val name row) ∧
      ViewOk (a.look name fun r => r == row && (a.val name r).isOk) data c name v' := by
  obtain ⟨i1, i2, i3⟩ := h
  have same : (∀ x, a.val name row = .ok x → v.cache row = some x) → ViewOk (a.look name fun r => r == row && (a.val name r).isOk) data c name v := by
    intro hcase
    refine ⟨i1, i2, fun r => ?_⟩
    rcases i3 r with ⟨y, j1, j2, j3⟩ | ⟨j1, j2, j3⟩
    · exact Or.inl ⟨y, j1, by simp [Arrays.look, j2], j3⟩
    · refine Or.inr ⟨j1, ?_, j3⟩
      by_cases hr : r = row
      · subst hr
        cases hv : a.val name r with
        | ok x => rw [hcase x hv] at j1; cases j1
        | error e => simp [Arrays.look, j2, hv, Except.isOk, Except.toBool]
      · simp [Arrays.look, j2, hr]
  unfold View.read
  rcases i3 row with ⟨x, k1, k2, k3⟩ | ⟨k1, k2, k3⟩
  · rw [k1, k3]
    exact ⟨v, rfl, same fun y hy => by rw [k3] at hy; cases hy; exact k1⟩
  · rw [k1]
    simp only
    unfold decoded at k3
    rw [i1, i2]
    cases hcell : cellAt data row c.index with
    | error e =>
      rw [hcell] at k3
      simp only at k3 ⊢
      rw [k3]
      exact ⟨v, rfl, same fun y hy => by rw [k3] at hy; cases hy⟩
    | ok s =>
      rw [hcell] at k3
      simp only at k3 ⊢
      cases hds : Φ.deser (ty name) s c.total with
      | error e =>
        rw [hds] at k3
        simp only
        rw [k3]
        exact ⟨v, rfl, same fun y hy => by rw [k3] at hy; cases hy⟩
      | ok x =>
        rw [hds] at k3
        simp only
        rw [k3]
        refine ⟨_, rfl, i1, i2, fun r => ?_⟩
        by_cases hr : r = row
        · subst hr
          exact Or.inl ⟨x, by simp [View.remember], by simp [Arrays.look, k3, Except.isOk, Except.toBool], k3⟩
        · rcases i3 r with ⟨y, j1, j2, j3⟩ | ⟨j1, j2, j3⟩
          · exact Or.inl ⟨y, by simp [View.remember, hr, j1], by simp [Arrays.look, j2], j3⟩
          · exact Or.inr ⟨by simp [View.remember, hr, j1], by simp [Arrays.look, j2, hr], j3⟩

theorem read_agree {cols : List Column} {o : Obj Φ} {a : Arrays Φ ty} (h : Agree cols o a) {name : Str} {c : Column}
    (hc : Table.columnMetadata cols name = .ok c) (row : Nat) :
    ∃ o', o.read name (ty name) row = (o', a.val name row) ∧ o'.data = o.data ∧
      Agree cols o' (a.look name fun r => r == row && (a.val name r).isOk) := by
  obtain ⟨o1, v, e1, e2, e3, hv, hA⟩ := getColumn_agree h hc
  rw [← e2] at hv
  obtain ⟨v', g1, g2⟩ := viewOk_look hv row
  refine ⟨o1.putView name (ty name) v', ?_, e2, ?_⟩
  · unfold Obj.read
    rw [e1]
    simp only
    rw [g1]
  · exact putView_agree (o := o1) (d := o1.data) hA hc hA.layout hA.text g2 fun n c' hn _ r => ⟨by simp [Arrays.look, hn], rfl, rfl⟩

theorem update_agree {cols : List Column} {o : Obj Φ} {a : Arrays Φ ty} {number : Str → Nat} (h : Agree cols o a) {name : Str} {c : Column}
    (hc : Table.columnMetadata cols name = .ok c) (hn : number name = c.index) {row : Nat} (hr : row < o.data.length) (x : Φ.El (ty name)) :
    ∃ o', o.update name (ty name) row x = (o', .ok ()) ∧ o'.data.length = o.data.length ∧ Agree cols o' (a.set number name row x) := by
  obtain ⟨o1, v, e1, e2, e3, ⟨i1, i2, i3⟩, hA⟩ := getColumn_agree h hc
  obtain ⟨s, hs⟩ := cellAt_total h.layout hc hr
  obtain ⟨d, d1, d2, d3, d4⟩ := setCell_ok (x := Φ.ser (ty name) x) hs
  unfold Obj.update
  rw [e1]
  simp only [View.update]
  rw [e2, i1, d1]
  simp only
  refine ⟨_, rfl, by simpa using d2, ?_⟩
  refine putView_agree hA hc ⟨h.layout.index, d4 cols h.layout.width⟩ ?_ ⟨i1, i2, ?_⟩ ?_
  · intro r i s'
    rw [d3]
    simp only [Arrays.set, hn]
    by_cases hri : r = row ∧ i = c.index
    · rw [if_pos hri, if_pos hri]; simp
    · rw [if_neg hri, if_neg hri]; exact h.text r i s'
  · intro r
    by_cases hrr : r = row
    · subst hrr
      exact Or.inl ⟨x, by simp [View.remember], by simp [Arrays.set], by simp [Arrays.set]⟩
    · have hdec : decoded Φ d c (ty name) r = decoded Φ o.data c (ty name) r := by
        unfold decoded; rw [d3, if_neg (fun hh => hrr hh.1)]
      rcases i3 r with ⟨y, j1, j2, j3⟩ | ⟨j1, j2, j3⟩
      · exact Or.inl ⟨y, by simp [View.remember, hrr, j1], by simp [Arrays.set, j2], by simp [Arrays.set, hrr, j3]⟩
      · exact Or.inr ⟨by simp [View.remember, hrr, j1], by simp [Arrays.set, j2, hrr], by rw [hdec]; simp [Arrays.set, hrr, j3]⟩
  · intro n c' hne hc' r
    refine ⟨by simp [Arrays.set, hne], by simp [Arrays.set, hne], ?_⟩
    have : ¬ (r = row ∧ c'.index = c.index) := fun hh => hne (name_of_index h.layout hc' hc hh.2)
    unfold decoded
    rw [d3, if_neg this, e2]

theorem agree_seen {cols : List Column} {o : Obj Φ} {a b : Arrays Φ ty} (h : Agree cols o a) (hv : a.val = b.val) (ht : a.text = b.text)
    (hs : ∀ n r, a.seen n r = b.seen n r) : Agree cols o b := by
  have : a.seen = b.seen := funext fun n => funext fun r => hs n r
  cases a; cases b
  simp only at hv ht this
  subst hv; subst ht; subst this
  exact h

theorem iterateFrom_agree {cols : List Column} {name : Str} {c : Column} (hc : Table.columnMetadata cols name = .ok c) :
    ∀ (n i : Nat) {o : Obj Φ} {a : Arrays Φ ty}, Agree cols o a →
    ∃ o', Obj.iterateFrom name (ty name) n i o = (o', ((List.range' i n).mapM (a.val name))) ∧ o'.data = o.data ∧
      Agree cols o' (a.look name fun r => decide (i ≤ r ∧ r < i + n) && (List.range' i (r + 1 - i)).all fun k => (a.val name k).isOk) := by
  intro n
  induction n with
  | zero =>
    intro i o a h
    refine ⟨o, rfl, rfl, agree_seen h rfl rfl ?_⟩
    intro m r
    have : ¬ (i ≤ r ∧ r < i + 0) := by omega
    simp only [Arrays.look, decide_eq_false this, Bool.false_and, Bool.and_false, Bool.false_or]
  | succ n ih =>
    intro i o a h
    obtain ⟨o1, e1, e2, h1⟩ := read_agree h hc i
    unfold Obj.iterateFrom
    rw [e1, List.range'_succ, List.mapM_cons]
    cases hv : a.val name i with
    | error e =>
      simp only [bind, Except.bind]
      refine ⟨o1, rfl, e2, agree_seen h1 rfl rfl ?_⟩
      intro m r
      simp only [Arrays.look]
      by_cases hm : m = name
      · subst hm
        by_cases hir : i ≤ r
        · have hr1 : r + 1 - i = (r - i) + 1 := by omega
          have hall : ((List.range' i (r + 1 - i)).all fun k => (a.val m k).isOk) = false := by
            rw [hr1, List.range'_succ, List.all_cons, hv]; rfl
          rw [hall]
          by_cases hri : r = i
          · subst hri; simp [hv, Except.isOk, Except.toBool]
          · simp [hri]
        · have hne : r ≠ i := by omega
          have : ¬ (i ≤ r ∧ r < i + (n + 1)) := by omega
          simp [hne, this]
      · rw [beq_eq_false_iff_ne.2 hm]; simp only [Bool.false_and]
    | ok x =>
      simp only
      obtain ⟨o2, g1, g2, h2⟩ := ih (i + 1) h1
      rw [g1, look_one_val]
      simp only [bind, Except.bind]
      have hagree : Agree cols o2 (a.look name fun r => decide (i ≤ r ∧ r < i + (n + 1)) && (List.range' i (r + 1 - i)).all fun k => (a.val name k).isOk) := by
        refine agree_seen h2 rfl rfl ?_
        intro m r
        simp only [Arrays.look]
        by_cases hm : m = name
        · subst hm
          rcases Nat.lt_trichotomy r i with hlt | heq | hgt
          · have c1 : ¬ (i + 1 ≤ r ∧ r < i + 1 + n) := by omega
            have c2 : ¬ (i ≤ r ∧ r < i + (n + 1)) := by omega
            have c3 : r ≠ i := by omega
            simp [c1, c2, c3]
          · subst heq
            have c1 : ¬ (r + 1 ≤ r ∧ r < r + 1 + n) := by omega
            have c2 : r ≤ r ∧ r < r + (n + 1) := by omega
            have c3 : r + 1 - r = 1 := by omega
            simp [c1, c2, c3, hv, Except.isOk, Except.toBool]
          · have c3 : r ≠ i := by omega
            have c4 : r + 1 - i = (r + 1 - (i + 1)) + 1 := by omega
            have c5 : (i + 1 ≤ r ∧ r < i + 1 + n) ↔ (i ≤ r ∧ r < i + (n + 1)) := by omega
            rw [c4, List.range'_succ, List.all_cons, hv]
            have c6 : (r == i) = false := beq_eq_false_iff_ne.2 c3
            rw [c6]
            simp only [c5, Bool.false_and, Bool.and_false, Bool.false_or]; rfl
        · rw [beq_eq_false_iff_ne.2 hm]; simp only [Bool.false_and, Bool.false_or]
      cases hm : (List.range' (i + 1) n).mapM (a.val name) with
      | error e => exact ⟨o2, rfl, by rw [g2, e2], hagree⟩
      | ok l => exact ⟨o2, rfl, by rw [g2, e2], hagree⟩

theorem iterate_agree {cols : List Column} {o : Obj Φ} {a : Arrays Φ ty} (h : Agree cols o a) {name : Str} {c : Column}
    (hc : Table.columnMetadata cols name = .ok c) :
    ∃ o', o.iterate name (ty name) = (o', (List.range o.data.length).mapM (a.val name)) ∧ o'.data = o.data ∧
      Agree cols o' (a.look name fun r => decide (r < o.data.length) && (List.range (r + 1)).all fun i => (a.val name i).isOk) := by
  obtain ⟨o1, v, e1, e2, e3, _, hA⟩ := getColumn_agree h hc
  unfold Obj.iterate
  rw [e1]
  simp only
  obtain ⟨o2, g1, g2, g3⟩ := iterateFrom_agree hc o1.data.length 0 hA
  refine ⟨o2, by rw [g1, e2, List.range_eq_range'], by rw [g2, e2], agree_seen g3 rfl rfl ?_⟩
  intro m r
  simp [Arrays.look, e2, List.range_eq_range']

end Astro
