import Verif.Lemmas.Session
import Verif.Lemmas.FitsCopy

/-
Helper lemmas: views that belong to the columns of their table, and what an operation does to the cells.
-/

namespace Astro

open Spec

section

variable {Φ : Family} {ty : Str → Φ.Tag}

/-- Every view is one of the column of its name, with the type that is used for this column. -/
def ViewsOk (cols : List Column) (ty : Str → Φ.Tag) (views : Views Φ) : Prop :=
  ∀ name τ (v : View (Φ.El τ)), views name = some ⟨τ, v⟩ → τ = ty name ∧ ∃ c, Table.columnMetadata cols name = .ok c ∧ v.index = c.index ∧ v.total = c.total

theorem viewsOk_none (cols : List Column) : ViewsOk cols ty (fun _ => none) := by
  intro name τ v h; cases h

theorem viewsOk_put {o : Obj Φ} (h : ViewsOk o.cols ty o.views) {name : Str} {v : View (Φ.El (ty name))} {c : Column} (hc : Table.columnMetadata o.cols name = .ok c)
    (h1 : v.index = c.index) (h2 : v.total = c.total) : ViewsOk o.cols ty (o.putView name (ty name) v).views := by
  intro n τ w hw
  unfold Obj.putView at hw
  simp only at hw
  split at hw
  · rename_i e
    subst e
    cases hw
    exact ⟨rfl, c, hc, h1, h2⟩
  · exact h n τ w hw

theorem getColumn_ok {o : Obj Φ} (h : ViewsOk o.cols ty o.views) (name : Str) :
    ((o.getColumn name (ty name)).1.data = o.data ∧ ViewsOk o.cols ty (o.getColumn name (ty name)).1.views) ∧
    (∀ v, (o.getColumn name (ty name)).2 = .ok v → ∃ c, Table.columnMetadata o.cols name = .ok c ∧ v.index = c.index ∧ v.total = c.total) ∧
    (∀ c, Table.columnMetadata o.cols name = .ok c → ∃ v, (o.getColumn name (ty name)).2 = .ok v ∧ v.index = c.index ∧ v.total = c.total) := by
  unfold Obj.getColumn
  cases hv : o.views name with
  | some p =>
    obtain ⟨τ, v⟩ := p
    obtain ⟨rfl, c, h1, h2, h3⟩ := h name τ v hv
    simp only [dif_pos]
    refine ⟨⟨trivial, h⟩, ?_, ?_⟩
    · intro w hw; cases hw; exact ⟨c, h1, h2, h3⟩
    · intro c' hc'; rw [h1] at hc'; cases hc'; exact ⟨v, rfl, h2, h3⟩
  | none =>
    simp only
    cases hc : Table.columnMetadata o.cols name with
    | error e => exact ⟨⟨rfl, h⟩, (fun v hv => by cases hv), (fun c hc => by cases hc)⟩
    | ok c =>
      simp only
      refine ⟨⟨rfl, viewsOk_put h hc rfl rfl⟩, ?_, ?_⟩
      · intro v hv; cases hv; exact ⟨c, rfl, rfl, rfl⟩
      · intro c' hc'; cases hc'; exact ⟨_, rfl, rfl, rfl⟩

theorem view_read_same {α : Type} (d : Str → Nat → Res α) (data : List (List Str)) (v : View α) (row : Nat) :
    (v.read d data row).1.index = v.index ∧ (v.read d data row).1.total = v.total := by
  unfold View.read
  split
  · exact ⟨rfl, rfl⟩
  · split
    · exact ⟨rfl, rfl⟩
    · split <;> exact ⟨rfl, rfl⟩

theorem read_same {o : Obj Φ} (h : ViewsOk o.cols ty o.views) (name : Str) (row : Nat) :
    (o.read name (ty name) row).1.data = o.data ∧ ViewsOk o.cols ty (o.read name (ty name) row).1.views := by
  obtain ⟨⟨g1, g2⟩, g3, _⟩ := getColumn_ok h name
  have hcols := getColumn_cols o name (ty name)
  unfold Obj.read
  split
  next o' e he => rw [he] at g1 g2; exact ⟨g1, g2⟩
  next o' v he =>
    rw [he] at g1 g2 g3 hcols
    simp only at g1 g2 g3 hcols
    obtain ⟨c, c1, c2, c3⟩ := g3 v rfl
    obtain ⟨w1, w2⟩ := view_read_same (Φ.deser (ty name)) o'.data v row
    refine ⟨g1, ?_⟩
    rw [← hcols] at c1 g2 ⊢
    exact viewsOk_put g2 c1 (w1.trans c2) (w2.trans c3)

theorem iterateFrom_same (name : Str) : ∀ (n i : Nat) {o : Obj Φ}, ViewsOk o.cols ty o.views →
    (Obj.iterateFrom name (ty name) n i o).1.data = o.data ∧ ViewsOk o.cols ty (Obj.iterateFrom name (ty name) n i o).1.views
  | 0, _, _, h => ⟨rfl, h⟩
  | n + 1, i, o, h => by
    obtain ⟨g1, g2⟩ := read_same h name i
    have hcols := read_cols o name (ty name) i
    unfold Obj.iterateFrom
    split
    next o' e he => rw [he] at g1 g2; exact ⟨g1, g2⟩
    next o' v he =>
      rw [he] at g1 g2 hcols
      simp only at g1 g2 hcols
      rw [← hcols] at g2
      have h2 := iterateFrom_same name n (i + 1) g2
      split
      next o'' e he2 => rw [he2, hcols] at h2; exact ⟨h2.1.trans g1, h2.2⟩
      next o'' l he2 => rw [he2, hcols] at h2; exact ⟨h2.1.trans g1, h2.2⟩

theorem iterate_same {o : Obj Φ} (h : ViewsOk o.cols ty o.views) (name : Str) :
    (o.iterate name (ty name)).1.data = o.data ∧ ViewsOk o.cols ty (o.iterate name (ty name)).1.views := by
  obtain ⟨⟨g1, g2⟩, _, _⟩ := getColumn_ok h name
  have hcols := getColumn_cols o name (ty name)
  unfold Obj.iterate
  split
  next o' e he => rw [he] at g1 g2; exact ⟨g1, g2⟩
  next o' v he =>
    rw [he] at g1 g2 hcols
    simp only at g1 g2 hcols
    rw [← hcols] at g2 ⊢
    have := iterateFrom_same name o'.data.length 0 g2
    exact ⟨this.1.trans g1, this.2⟩

theorem update_cell {o : Obj Φ} (h : ViewsOk o.cols ty o.views) {name : Str} {c : Column} (hc : Table.columnMetadata o.cols name = .ok c) (row : Nat) {s : Str}
    (hs : cellAt o.data row c.index = .ok s) (x : Φ.El (ty name)) :
    (o.update name (ty name) row x).2 = .ok () ∧
    (o.update name (ty name) row x).1.data = o.data.set row ((o.data.getD row []).set (c.index - 1) (Φ.ser (ty name) x)) ∧
    ViewsOk o.cols ty (o.update name (ty name) row x).1.views := by
  obtain ⟨⟨g1, g2⟩, _, g4⟩ := getColumn_ok h name
  obtain ⟨v, hv, i1, i2⟩ := g4 c hc
  have hcols := getColumn_cols o name (ty name)
  unfold Obj.update
  rcases hg : o.getColumn name (ty name) with ⟨o', r⟩
  rw [hg] at hv g1 g2 hcols
  simp only at hv g1 g2 hcols
  subst hv
  simp only [View.update, setCell, g1, i1, hs, bind, Except.bind, pure, Except.pure]
  refine ⟨trivial, trivial, ?_⟩
  rw [← hcols] at hc g2 ⊢
  exact viewsOk_put g2 hc i1 i2

theorem assign_cell {o : Obj Φ} (h : ViewsOk o.cols ty o.views) {name : Str} {c : Column} (hc : Table.columnMetadata o.cols name = .ok c) (row : Nat) {s : Str}
    (hs : cellAt o.data row c.index = .ok s) {y : Φ.El (ty name)} (hy : Φ.deser (ty name) s c.total = .ok y) (x : Φ.El (ty name)) :
    (o.assign name (ty name) row x).2 = .ok () ∧
    (o.assign name (ty name) row x).1.data = o.data.set row ((o.data.getD row []).set (c.index - 1) (Φ.ser (ty name) x)) ∧
    ViewsOk o.cols ty (o.assign name (ty name) row x).1.views := by
  obtain ⟨g1, g2⟩ := read_same h name row
  have hcols := read_cols o name (ty name) row
  have hok : ∃ z, (o.read name (ty name) row).2 = .ok z := by
    obtain ⟨⟨q1, _⟩, _, q4⟩ := getColumn_ok h name
    obtain ⟨v, hv, i1, i2⟩ := q4 c hc
    unfold Obj.read
    rcases hg : o.getColumn name (ty name) with ⟨o', r⟩
    rw [hg] at hv q1
    simp only at hv q1
    subst hv
    simp only [View.read]
    split
    · exact ⟨_, rfl⟩
    · rw [q1, i1, hs]
      simp only
      rw [i2, hy]
      exact ⟨_, rfl⟩
  obtain ⟨z, hz⟩ := hok
  unfold Obj.assign
  rcases hr : o.read name (ty name) row with ⟨o', r⟩
  rw [hr] at hz g1 g2 hcols
  simp only at hz g1 g2 hcols
  subst hz
  simp only
  rw [← hcols] at g2 hc ⊢
  rw [← g1] at hs ⊢
  exact update_cell g2 hc row hs x

end

/-! Overwriting bytes. -/

theorem window_outside_patch {d s : Str} {off p n : Nat} (h : off + s.length ≤ d.length) (hp : p + n ≤ off ∨ off + s.length ≤ p) :
    window (d.take off ++ s ++ d.drop (off + s.length)) p n = window d p n := by
  unfold window
  apply List.map_congr_left
  intro i hi
  rw [List.mem_range] at hi
  have hl : (d.take off).length = off := by rw [List.length_take]; omega
  simp only [List.getD_eq_getElem?_getD]
  congr 1
  rcases hp with hp | hp
  · rw [List.append_assoc, List.getElem?_append_left (by omega), List.getElem?_take, if_pos (by omega)]
  · rw [List.getElem?_append_right (by rw [List.length_append, hl]; omega), List.length_append, hl, List.getElem?_drop]
    congr 1; omega

theorem window_patch {d s : Str} {off : Nat} (h : off ≤ d.length) : window (d.take off ++ s ++ d.drop (off + s.length)) off s.length = s := by
  have := window_at (d.take off) s (d.drop (off + s.length))
  rwa [List.length_take, Nat.min_eq_left h] at this

theorem sum_take_succ (ws : List Nat) : ∀ (j w : Nat), ws[j]? = some w → (ws.take (j + 1)).sum = (ws.take j).sum + w := by
  intro j w h
  rw [List.take_add_one, h]; simp

theorem sum_take_le (ws : List Nat) {i j : Nat} (h : i ≤ j) : (ws.take i).sum ≤ (ws.take j).sum := by
  obtain ⟨n, rfl⟩ := Nat.exists_eq_add_of_le h
  rw [List.take_add, List.sum_append]; omega

/-- Different fields of a table whose columns fill the rows have no byte in common. -/
theorem fields_apart {ws : List Nat} {r j r' j' w w' : Nat} (h : ws[j]? = some w) (h' : ws[j']? = some w') (hne : r ≠ r' ∨ j ≠ j') :
    r' * ws.sum + (ws.take j').sum + w' ≤ r * ws.sum + (ws.take j).sum ∨ r * ws.sum + (ws.take j).sum + w ≤ r' * ws.sum + (ws.take j').sum := by
  have e := sum_take_succ ws j w h
  have e' := sum_take_succ ws j' w' h'
  have top : ∀ i, (ws.take i).sum ≤ ws.sum := fun i => by
    have := sum_take_le ws (Nat.le_max_left i ws.length)
    rwa [List.take_of_length_le (Nat.le_max_right i ws.length)] at this
  have t := top (j + 1)
  have t' := top (j' + 1)
  rcases Nat.lt_trichotomy r r' with hr | hr | hr
  · right
    have := Nat.mul_le_mul_right ws.sum (show r + 1 ≤ r' from hr)
    rw [Nat.add_mul, Nat.one_mul] at this
    omega
  · subst hr
    rcases Nat.lt_trichotomy j j' with hj | hj | hj
    · right; have := sum_take_le ws (show j + 1 ≤ j' from hj); omega
    · exact absurd hj (by simpa using hne)
    · left; have := sum_take_le ws (show j' + 1 ≤ j from hj); omega
  · left
    have := Nat.mul_le_mul_right ws.sum (show r' + 1 ≤ r from hr)
    rw [Nat.add_mul, Nat.one_mul] at this
    omega

theorem field_inside {ws : List Nat} {r j w rows : Nat} (h : ws[j]? = some w) (hr : r < rows) : r * ws.sum + (ws.take j).sum + w ≤ ws.sum * rows := by
  have e := sum_take_succ ws j w h
  have := sum_take_le ws (Nat.le_max_left (j + 1) ws.length)
  rw [List.take_of_length_le (Nat.le_max_right (j + 1) ws.length)] at this
  have := Nat.mul_le_mul_right ws.sum (show r + 1 ≤ rows from hr)
  rw [Nat.add_mul, Nat.one_mul, Nat.mul_comm rows] at this
  omega

end Astro
