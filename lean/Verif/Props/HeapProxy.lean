import Verif.Spec.HeapProxy
import Verif.Props.TableCopy

/-
Property C160: elements kept in variables while tables are copied, moved and destroyed.
-/

namespace Astro

open Spec

variable {Φ : Family}

/-- **C160** A variable goes on giving the value its element had when it was taken, whatever becomes of the tables: they may be changed, copied, moved, overwritten or destroyed. -/
theorem C160_snapshot (d : HDesk Φ) (p i : Nat) (name : Str) (t : Φ.Tag) (row : Nat) (x : Φ.El t) (hx : (d.heap.read i name t row).2 = .ok x) (ops : List (HPOp Φ))
    (hno : ∀ op ∈ ops, ¬ Retakes p op) : (((d.step (.take p i name t row)).1.run ops).1.step (.get p)).2 = .ok (.value t x) := by
  have key : ∀ (ops : List (HPOp Φ)) (d : HDesk Φ), (∀ op ∈ ops, ¬ Retakes p op) → (∃ q, d.vars p = some q ∧ q.tag = t ∧ HEq q.value x) →
      ∃ q, (d.run ops).1.vars p = some q ∧ q.tag = t ∧ HEq q.value x := by
    intro ops
    induction ops with
    | nil => intro d _ h; exact h
    | cons op ops ih =>
      intro d hno ⟨q, h1, h2, h3⟩
      simp only [HDesk.run]
      apply ih _ fun o ho => hno o (List.mem_cons_of_mem _ ho)
      have hop := hno op List.mem_cons_self
      cases op with
      | plain op =>
        simp only [HDesk.step]
        rcases d.heap.step op with ⟨h, e | r⟩
        · exact ⟨q, h1, h2, h3⟩
        · exact ⟨{ q with table := q.table.bind fun i => op.follow d.heap i }, by simp only [h1, Option.map_some], h2, h3⟩
      | take k i' name' t' row' =>
        simp only [HDesk.step]
        rcases d.heap.read i' name' t' row' with ⟨h, e | y⟩
        · exact ⟨q, h1, h2, h3⟩
        · exact ⟨q, by simp only [HDesk.keep]; rw [if_neg (fun hc => hop hc.symm)]; exact h1, h2, h3⟩
      | get k =>
        simp only [HDesk.step]
        cases d.vars k <;> exact ⟨q, h1, h2, h3⟩
      | put k t' y =>
        simp only [HDesk.step]
        cases hk : d.vars k with
        | none => exact ⟨q, h1, h2, h3⟩
        | some q' =>
          simp only
          split <;> exact ⟨q, h1, h2, h3⟩
      | copy k k' =>
        simp only [HDesk.step]
        cases d.vars k' with
        | none => exact ⟨q, h1, h2, h3⟩
        | some y => exact ⟨q, by simp only [HDesk.keep]; rw [if_neg (fun hc => hop hc.symm)]; exact h1, h2, h3⟩
  obtain ⟨q, h1, h2, h3⟩ := key ops (d.step (.take p i name t row)).1 hno (by
    simp only [HDesk.step]
    rcases hr : d.heap.read i name t row with ⟨h, e | y⟩ <;> rw [hr] at hx
    · cases hx
    · cases hx
      exact ⟨_, by simp only [HDesk.keep, if_true]; rfl, rfl, HEq.rfl⟩)
  generalize ((d.step (.take p i name t row)).1.run ops).1 = d' at h1
  simp only [HDesk.step, h1]
  obtain ⟨a, b, c, e, f⟩ := q
  simp only at h2 h3
  subst h2
  rw [eq_of_heq h3]

/-- Table `i` has a view of type `t` for column `name`. -/
def Heap.Has (h : Heap Φ) (i : Nat) (name : Str) (t : Φ.Tag) : Prop := i < h.next ∧ ∃ o r, h.objs i = some o ∧ o.views name = some ⟨t, r⟩

section has

variable {h : Heap Φ} {i : Nat} {name : Str} {t : Φ.Tag}

theorem Heap.Has.put (H : h.Has i name t) {k : Nat} (hk : k ≠ i) (o : Option (Held Φ)) : (h.put k o).Has i name t := by
  obtain ⟨h0, o', r, h1, h2⟩ := H
  exact ⟨h0, o', r, by simp only [Heap.put]; rw [if_neg fun e => hk e.symm]; exact h1, h2⟩

theorem Heap.Has.grow (H : h.Has i name t) (n : Nat) (hn : h.next ≤ n) : ({ h with next := n } : Heap Φ).Has i name t :=
  ⟨Nat.lt_of_lt_of_le H.1 hn, H.2⟩

theorem Heap.Has.put_views (H : h.Has i name t) {k : Nat} {o o' : Held Φ} (ho : h.objs k = some o) (hv : o'.views = o.views) : (h.put k (some o')).Has i name t := by
  by_cases hk : k = i
  · subst hk
    obtain ⟨h0, a, r, h1, h2⟩ := H
    rw [ho] at h1
    cases h1
    exact ⟨h0, o', r, by simp [Heap.put], by rw [hv]; exact h2⟩
  · exact H.put hk _

theorem Heap.Has.setMatrix (H : h.Has i name t) (k : Nat) (d : List (List Str)) : (h.setMatrix k d).Has i name t := by
  unfold Heap.setMatrix
  cases hk : h.objs k with
  | none => exact H
  | some o => exact H.put_views hk rfl

theorem Heap.Has.putView (H : h.Has i name t) {k : Nat} {n : Str} {t' : Φ.Tag} (r : Ref (Φ.El t')) (hsame : k = i → n = name → t' = t) : (h.putView k n t' r).Has i name t := by
  unfold Heap.putView
  cases hk : h.objs k with
  | none => exact H
  | some o =>
    by_cases hki : k = i
    · subst hki
      obtain ⟨h0, a, r', h1, h2⟩ := H
      rw [hk] at h1
      cases h1
      by_cases hn : name = n
      · have ht := hsame rfl hn.symm
        subst ht
        exact ⟨h0, _, r, by simp only [Heap.put, if_true]; rfl, by simp [hn]⟩
      · exact ⟨h0, _, r', by simp only [Heap.put, if_true]; rfl, by simp [hn, h2]⟩
    · exact H.put hki _

theorem Heap.Has.getColumn (H : h.Has i name t) (k : Nat) (n : Str) (t' : Φ.Tag) :
    (h.getColumn k n t').1.Has i name t ∧ ∀ r, (h.getColumn k n t').2 = .ok r → k = i → n = name → t' = t := by
  unfold Heap.getColumn
  cases hk : h.objs k with
  | none => exact ⟨H, fun r hr => by cases hr⟩
  | some o =>
    simp only
    cases hv : o.views n with
    | some s =>
      obtain ⟨t0, r0⟩ := s
      simp only
      by_cases he : t0 = t'
      · rw [dif_pos he]
        refine ⟨H, fun r _ hki hn => ?_⟩
        obtain ⟨_, a, r', h1, h2⟩ := H
        subst hki hn
        rw [hk] at h1
        cases h1
        rw [hv] at h2
        cases h2
        exact he.symm
      · rw [dif_neg he]
        exact ⟨H, fun r hr => by cases hr⟩
    | none =>
      have hno : ¬ (k = i ∧ n = name) := by
        rintro ⟨rfl, rfl⟩
        obtain ⟨_, a, r', h1, h2⟩ := H
        rw [hk] at h1
        cases h1
        rw [hv] at h2
        cases h2
      simp only
      cases Table.columnMetadata o.cols n with
      | error e => exact ⟨H, fun r hr => by cases hr⟩
      | ok c => exact ⟨H.putView _ fun h1 h2 => absurd ⟨h1, h2⟩ hno, fun r _ h1 h2 => absurd ⟨h1, h2⟩ hno⟩

theorem Heap.Has.read (H : h.Has i name t) (k : Nat) (n : Str) (t' : Φ.Tag) (row : Nat) : (h.read k n t' row).1.Has i name t := by
  obtain ⟨h1, h2⟩ := H.getColumn k n t'
  unfold Heap.read
  rcases hg : h.getColumn k n t' with ⟨h', e | r⟩ <;> rw [hg] at h1 h2
  · exact h1
  · exact h1.putView _ (h2 r rfl)

theorem Heap.Has.update (H : h.Has i name t) (k : Nat) (n : Str) (t' : Φ.Tag) (row : Nat) (x : Φ.El t') : (h.update k n t' row x).1.Has i name t := by
  obtain ⟨h1, h2⟩ := H.getColumn k n t'
  unfold Heap.update
  rcases hg : h.getColumn k n t' with ⟨h', e | r⟩ <;> rw [hg] at h1 h2
  · exact h1
  · simp only
    rcases r.view.update (Φ.ser t') (h'.matrix r.owner) row x with ⟨v, e | d⟩
    · exact h1.putView _ (h2 r rfl)
    · exact (h1.putView _ (h2 r rfl)).setMatrix _ _

theorem Heap.Has.assign (H : h.Has i name t) (k : Nat) (n : Str) (t' : Φ.Tag) (row : Nat) (x : Φ.El t') : (h.assign k n t' row x).1.Has i name t := by
  have h1 := H.read k n t' row
  unfold Heap.assign
  rcases hg : h.read k n t' row with ⟨h', e | r⟩ <;> rw [hg] at h1
  · exact h1
  · exact h1.update k n t' row x

theorem Heap.Has.iterateFrom (k : Nat) (n : Str) (t' : Φ.Tag) (m : Nat) : ∀ (row : Nat) {h : Heap Φ}, h.Has i name t → (Heap.iterateFrom k n t' m row h).1.Has i name t := by
  induction m with
  | zero => intro row h H; exact H
  | succ m ih =>
    intro row h H
    have h1 := H.read k n t' row
    unfold Heap.iterateFrom
    rcases hg : h.read k n t' row with ⟨h', e | r⟩ <;> rw [hg] at h1
    · exact h1
    · have h2 := ih (row + 1) h1
      simp only
      rcases hf : Heap.iterateFrom k n t' m (row + 1) h' with ⟨h'', e | l⟩ <;> rw [hf] at h2 <;> exact h2

theorem Heap.Has.iterate (H : h.Has i name t) (k : Nat) (n : Str) (t' : Φ.Tag) : (h.iterate k n t').1.Has i name t := by
  obtain ⟨h1, h2⟩ := H.getColumn k n t'
  unfold Heap.iterate
  rcases hg : h.getColumn k n t' with ⟨h', e | r⟩ <;> rw [hg] at h1 h2
  · exact h1
  · simp only
    cases h'.objs r.owner with
    | none => exact h1
    | some o => exact Heap.Has.iterateFrom k n t' _ _ h1

theorem Heap.Has.step (H : h.Has i name t) (op : HOp Φ) (hop : ¬ Displaces i (.plain op)) : (h.step op).1.Has i name t := by
  have hnx : h.next ≠ i := Nat.ne_of_gt H.1
  cases op with
  | create cols data => exact (H.put hnx _).grow _ (Nat.le_succ _)
  | copy k =>
    simp only [Heap.step, Heap.copy]
    cases h.objs k with
    | none => exact H
    | some o => exact (H.put hnx _).grow _ (Nat.le_succ _)
  | copyOver k j =>
    simp only [Heap.step, Heap.copyOver]
    cases h.objs k <;> cases h.objs j <;> first | exact H | exact H.put hop _
  | move k =>
    simp only [Heap.step, Heap.move]
    cases h.objs k with
    | none => exact H
    | some o => exact ((H.put hnx _).put hop _).grow _ (Nat.le_succ _)
  | moveOver k j =>
    simp only [Heap.step, Heap.moveOver]
    split
    · exact H
    · cases h.objs k <;> cases h.objs j <;> first | exact H | exact (H.put (fun e => hop (.inl e)) _).put (fun e => hop (.inr e)) _
  | setRows k d =>
    simp only [Heap.step, Heap.setRows]
    cases hk : h.objs k with
    | none => exact H
    | some o => exact H.put_views hk rfl
  | destroy k =>
    simp only [Heap.step, Heap.destroy]
    cases h.objs k with
    | none => exact H
    | some o => exact H.put hop _
  | replace k cols data =>
    simp only [Heap.step, Heap.replace]
    cases hk : h.objs k with
    | none => exact H
    | some o => exact H.put_views hk rfl
  | read k n t' row => exact H.read k n t' row
  | update k n t' row x => exact H.update k n t' row x
  | assign k n t' row x => exact H.assign k n t' row x
  | iterate k n t' => exact H.iterate k n t'
  | rows k => exact H

end has

/-- Pointers to a table that is not taken apart lead to it. -/
theorem follow_same (h : Heap Φ) (i : Nat) (op : HOp Φ) (hop : ¬ Displaces i (.plain op)) : op.follow h i = some i := by
  cases op <;> simp only [HOp.follow, Displaces] at hop ⊢
  case move k => exact if_neg fun e => hop e.symm
  case copyOver k j => exact if_neg fun e => hop e.1.symm
  case moveOver k j => rw [if_neg fun e => hop (.inr e.symm), if_neg fun e => hop (.inl e.symm)]
  case destroy k => exact if_neg fun e => hop e.symm

/-- An assignment to a variable changes tables as update_value does. -/
theorem store_has {h : Heap Φ} {i : Nat} {name : Str} {t : Φ.Tag} (H : h.Has i name t) (q : HProxy Φ) (x : Φ.El q.tag) : (HDesk.store h q x).1.Has i name t := by
  unfold HDesk.store
  cases q.table with
  | none => exact H
  | some k =>
    simp only
    cases h.objs k with
    | none => exact H
    | some o =>
      simp only
      cases o.views q.name with
      | none => exact H
      | some s =>
        simp only
        split
        · exact H.update _ _ _ _ _
        · exact H

/-- Reading an element leaves a view. -/
theorem read_has {h : Heap Φ} {i : Nat} (hi : i < h.next) {name : Str} {t : Φ.Tag} {row : Nat} {y : Φ.El t} (hy : (h.read i name t row).2 = .ok y) : (h.read i name t row).1.Has i name t := by
  have hg : ∀ h' r, h.getColumn i name t = (h', .ok r) → h'.Has i name t := by
    intro h' r hr
    unfold Heap.getColumn at hr
    cases hk : h.objs i with
    | none => rw [hk] at hr; cases hr
    | some o =>
      rw [hk] at hr
      simp only at hr
      cases hv : o.views name with
      | some s =>
        obtain ⟨t0, r0⟩ := s
        rw [hv] at hr
        simp only at hr
        by_cases he : t0 = t
        · subst he
          rw [dif_pos rfl] at hr
          cases hr
          exact ⟨hi, o, r0, hk, hv⟩
        · rw [dif_neg he] at hr
          cases hr
      | none =>
        rw [hv] at hr
        simp only at hr
        cases hc : Table.columnMetadata o.cols name with
        | error e => rw [hc] at hr; cases hr
        | ok c =>
          rw [hc] at hr
          cases hr
          simp only [Heap.putView, hk]
          exact ⟨hi, _, _, by simp only [Heap.put, if_true]; rfl, by simp only [if_true]; rfl⟩
  unfold Heap.read at hy ⊢
  rcases hr : h.getColumn i name t with ⟨h', e | r⟩ <;> rw [hr] at hy
  · cases hy
  · exact (hg h' r hr).putView _ fun _ _ => rfl

/-- **C160** As long as its table is not moved from, assigned to or destroyed, a variable leads to its element: `p = x` does to the tables exactly what
`table.get_column<T>(name).update_value(row, x)` does there and then, whatever else the program did between, copies of the table included. -/
theorem C160_lasting (d : HDesk Φ) (p i : Nat) (hi : i < d.heap.next) (name : Str) (t : Φ.Tag) (row : Nat) (y : Φ.El t) (hy : (d.heap.read i name t row).2 = .ok y)
    (ops : List (HPOp Φ)) (hno : ∀ op ∈ ops, ¬ Retakes p op ∧ ¬ Displaces i op) (x : Φ.El t) :
    let d' := ((d.step (.take p i name t row)).1.run ops).1
    ((d'.step (.put p t x)).1.heap, (d'.step (.put p t x)).2) = d'.heap.step (.update i name t row x) := by
  have key : ∀ (ops : List (HPOp Φ)) (d : HDesk Φ), (∀ op ∈ ops, ¬ Retakes p op ∧ ¬ Displaces i op) → d.vars p = some ⟨some i, name, t, row, y⟩ → d.heap.Has i name t →
      (d.run ops).1.vars p = some ⟨some i, name, t, row, y⟩ ∧ (d.run ops).1.heap.Has i name t := by
    intro ops
    induction ops with
    | nil => intro d _ h H; exact ⟨h, H⟩
    | cons op ops ih =>
      intro d hno h1 H
      simp only [HDesk.run]
      obtain ⟨hop, hdi⟩ := hno op List.mem_cons_self
      have : (d.step op).1.vars p = some ⟨some i, name, t, row, y⟩ ∧ (d.step op).1.heap.Has i name t := by
        cases op with
        | plain op =>
          have H' := H.step op hdi
          have hf := follow_same d.heap i op hdi
          simp only [HDesk.step]
          rcases hs : d.heap.step op with ⟨h, e | r⟩ <;> rw [hs] at H'
          · exact ⟨h1, H'⟩
          · exact ⟨by simp only [h1, Option.map_some, Option.bind_some, hf], H'⟩
        | take k i' name' t' row' =>
          have H' := H.read i' name' t' row'
          simp only [HDesk.step]
          rcases hs : d.heap.read i' name' t' row' with ⟨h, e | y'⟩ <;> rw [hs] at H'
          · exact ⟨h1, H'⟩
          · exact ⟨by simp only [HDesk.keep]; rw [if_neg (fun hc => hop hc.symm)]; exact h1, H'⟩
        | get k =>
          simp only [HDesk.step]
          cases d.vars k <;> exact ⟨h1, H⟩
        | put k t' z =>
          simp only [HDesk.step]
          cases hk : d.vars k with
          | none => exact ⟨h1, H⟩
          | some q' =>
            simp only
            split
            · exact ⟨h1, store_has H _ _⟩
            · exact ⟨h1, H⟩
        | copy k k' =>
          simp only [HDesk.step]
          cases d.vars k' with
          | none => exact ⟨h1, H⟩
          | some z => exact ⟨by simp only [HDesk.keep]; rw [if_neg (fun hc => hop hc.symm)]; exact h1, H⟩
      exact ih _ (fun o ho => hno o (List.mem_cons_of_mem _ ho)) this.1 this.2
  intro d'
  obtain ⟨k1, k2⟩ := key ops (d.step (.take p i name t row)).1 hno (by
      simp only [HDesk.step]
      rcases hr : d.heap.read i name t row with ⟨h, e | z⟩ <;> rw [hr] at hy <;> cases hy
      simp only [HDesk.keep, if_true]) (by
      have hh := read_has hi hy
      simp only [HDesk.step]
      rcases hr : d.heap.read i name t row with ⟨h, e | z⟩ <;> rw [hr] at hh <;> exact hh)
  change d'.vars p = _ at k1
  change d'.heap.Has _ _ _ at k2
  generalize d' = d' at k1 k2
  obtain ⟨_, o, r, ho, hv⟩ := k2
  simp only [HDesk.step, k1, dite_true, HDesk.store, ho, hv, if_true, Heap.step]

/-- Only numbers given out are in use. -/
def Heap.Numbered (h : Heap Φ) : Prop := ∀ i, h.next ≤ i → h.objs i = none

section numbered

variable {h : Heap Φ}

theorem Heap.Numbered.lt (N : h.Numbered) {i : Nat} {o : Held Φ} (ho : h.objs i = some o) : i < h.next := by
  rcases Nat.lt_or_ge i h.next with hl | hl
  · exact hl
  · rw [N i hl] at ho; cases ho

theorem Heap.Numbered.put (N : h.Numbered) {i : Nat} (hi : i < h.next) (o : Option (Held Φ)) : (h.put i o).Numbered := by
  intro k hk
  have hk' : h.next ≤ k := hk
  simp only [Heap.put]
  rw [if_neg (by omega)]
  exact N k hk'

theorem Heap.Numbered.fresh (N : h.Numbered) (o : Option (Held Φ)) : ({ (h.put h.next o) with next := h.next + 1 } : Heap Φ).Numbered := by
  intro k hk
  have hk' : h.next + 1 ≤ k := hk
  simp only [Heap.put]
  rw [if_neg (by omega)]
  exact N k (by omega)

theorem Heap.Numbered.setMatrix (N : h.Numbered) (k : Nat) (d : List (List Str)) : (h.setMatrix k d).Numbered := by
  unfold Heap.setMatrix
  cases hk : h.objs k with
  | none => exact N
  | some o => exact N.put (N.lt hk) _

theorem Heap.Numbered.putView (N : h.Numbered) (k : Nat) (n : Str) (t : Φ.Tag) (r : Ref (Φ.El t)) : (h.putView k n t r).Numbered := by
  unfold Heap.putView
  cases hk : h.objs k with
  | none => exact N
  | some o => exact N.put (N.lt hk) _

theorem Heap.Numbered.getColumn (N : h.Numbered) (k : Nat) (n : Str) (t : Φ.Tag) : (h.getColumn k n t).1.Numbered := by
  unfold Heap.getColumn
  cases h.objs k with
  | none => exact N
  | some o =>
    simp only
    cases o.views n with
    | some s =>
      simp only
      split <;> exact N
    | none =>
      simp only
      cases Table.columnMetadata o.cols n with
      | error e => exact N
      | ok c => exact N.putView _ _ _ _

theorem Heap.Numbered.read (N : h.Numbered) (k : Nat) (n : Str) (t : Φ.Tag) (row : Nat) : (h.read k n t row).1.Numbered := by
  have h1 := N.getColumn k n t
  unfold Heap.read
  rcases hg : h.getColumn k n t with ⟨h', e | r⟩ <;> rw [hg] at h1
  · exact h1
  · exact h1.putView _ _ _ _

theorem Heap.Numbered.update (N : h.Numbered) (k : Nat) (n : Str) (t : Φ.Tag) (row : Nat) (x : Φ.El t) : (h.update k n t row x).1.Numbered := by
  have h1 := N.getColumn k n t
  unfold Heap.update
  rcases hg : h.getColumn k n t with ⟨h', e | r⟩ <;> rw [hg] at h1
  · exact h1
  · simp only
    rcases r.view.update (Φ.ser t) (h'.matrix r.owner) row x with ⟨v, e | d⟩
    · exact h1.putView _ _ _ _
    · exact (h1.putView _ _ _ _).setMatrix _ _

theorem Heap.Numbered.assign (N : h.Numbered) (k : Nat) (n : Str) (t : Φ.Tag) (row : Nat) (x : Φ.El t) : (h.assign k n t row x).1.Numbered := by
  have h1 := N.read k n t row
  unfold Heap.assign
  rcases hg : h.read k n t row with ⟨h', e | r⟩ <;> rw [hg] at h1
  · exact h1
  · exact h1.update k n t row x

theorem Heap.Numbered.iterateFrom (k : Nat) (n : Str) (t : Φ.Tag) (m : Nat) : ∀ (row : Nat) {h : Heap Φ}, h.Numbered → (Heap.iterateFrom k n t m row h).1.Numbered := by
  induction m with
  | zero => intro row h N; exact N
  | succ m ih =>
    intro row h N
    have h1 := N.read k n t row
    unfold Heap.iterateFrom
    rcases hg : h.read k n t row with ⟨h', e | r⟩ <;> rw [hg] at h1
    · exact h1
    · have h2 := ih (row + 1) h1
      simp only
      rcases hf : Heap.iterateFrom k n t m (row + 1) h' with ⟨h'', e | l⟩ <;> rw [hf] at h2 <;> exact h2

theorem Heap.Numbered.step (N : h.Numbered) (op : HOp Φ) : (h.step op).1.Numbered := by
  cases op with
  | create cols data => exact N.fresh _
  | copy k =>
    simp only [Heap.step, Heap.copy]
    cases h.objs k with
    | none => exact N
    | some o => exact N.fresh _
  | copyOver k j =>
    simp only [Heap.step, Heap.copyOver]
    cases hk : h.objs k <;> cases h.objs j <;> first | exact N | exact N.put (N.lt hk) _
  | move k =>
    simp only [Heap.step, Heap.move]
    cases hk : h.objs k with
    | none => exact N
    | some o => exact (N.fresh (some o)).put (Nat.lt_succ_of_lt (N.lt hk)) _
  | moveOver k j =>
    simp only [Heap.step, Heap.moveOver]
    split
    · exact N
    · cases hk : h.objs k <;> cases hj : h.objs j <;> first | exact N | exact (N.put (N.lt hk) _).put (N.lt hj) _
  | setRows k d =>
    simp only [Heap.step, Heap.setRows]
    cases hk : h.objs k with
    | none => exact N
    | some o => exact N.put (N.lt hk) _
  | destroy k =>
    simp only [Heap.step, Heap.destroy]
    cases hk : h.objs k with
    | none => exact N
    | some o => exact N.put (N.lt hk) _
  | replace k cols data =>
    simp only [Heap.step, Heap.replace]
    cases hk : h.objs k with
    | none => exact N
    | some o => exact N.put (N.lt hk) _
  | read k n t row => exact N.read k n t row
  | update k n t row x => exact N.update k n t row x
  | assign k n t row x => exact N.assign k n t row x
  | iterate k n t =>
    have h1 := N.getColumn k n t
    simp only [Heap.step, Heap.iterate]
    rcases hg : h.getColumn k n t with ⟨h', e | r⟩ <;> rw [hg] at h1
    · exact h1
    · simp only
      cases h'.objs r.owner with
      | none => exact h1
      | some o => exact Heap.Numbered.iterateFrom k n t _ _ h1
  | rows k => exact N

end numbered

/-- Reading succeeds only in a table there is. -/
theorem read_there {h : Heap Φ} (N : h.Numbered) {i : Nat} {name : Str} {t : Φ.Tag} {row : Nat} {y : Φ.El t} (hy : (h.read i name t row).2 = .ok y) : i < h.next := by
  cases ho : h.objs i with
  | none => simp only [Heap.read, Heap.getColumn, ho] at hy; cases hy
  | some o => exact N.lt ho

/-- The variables stand for what the environment says, and the views are there. -/
def StandsIn (d : HDesk Φ) (env : Nat → Option (Place Φ)) : Prop :=
  ∀ k pl, env k = some pl → (∃ y, d.vars k = some ⟨some pl.table, pl.name, pl.tag, pl.row, y⟩) ∧ d.heap.Has pl.table pl.name pl.tag

/-- The induction behind C160_plain. -/
theorem plain_run : ∀ (ops : List (HPOp Φ)) (d : HDesk Φ) (env : Nat → Option (Place Φ)) (l : List (HOp Φ)), d.heap.Numbered → StandsIn d env → withoutVariables env ops = some l →
    (∀ r ∈ (d.run ops).2, ∃ y, r = .ok y) → (d.run ops).1.heap = (d.heap.run l).1 := by
  intro ops
  induction ops with
  | nil => intro d env l _ _ hl _; cases hl; rfl
  | cons op ops ih =>
    intro d env l N S hl hok
    simp only [HDesk.run] at hok ⊢
    have hr := hok _ List.mem_cons_self
    have hok' := fun r hr => hok r (List.mem_cons_of_mem _ hr)
    clear hok
    cases op with
    | plain op =>
      simp only [withoutVariables, Option.map_eq_some_iff] at hl
      obtain ⟨l', hl', rfl⟩ := hl
      have N' := N.step op
      have S' := fun i name t (H : d.heap.Has i name t) hd => H.step op hd
      simp only [Heap.run]
      simp only [HDesk.step] at hr hok' ⊢
      rcases hs : d.heap.step op with ⟨h, e | r⟩
      · rw [hs] at hr
        obtain ⟨y, hy⟩ := hr
        cases hy
      · rw [hs] at hok' N'
        simp only [hs] at S'
        refine ih _ _ l' N' ?_ hl' hok'
        intro k pl hk
        simp only [Option.filter_eq_some_iff, decide_eq_true_eq] at hk
        obtain ⟨hk, hd⟩ := hk
        obtain ⟨⟨y, hy⟩, H⟩ := S k pl hk
        exact ⟨⟨y, by simp only [hy, Option.map_some, Option.bind_some, follow_same d.heap pl.table op hd]⟩, S' _ _ _ H hd⟩
    | take p i name t row =>
      simp only [withoutVariables, Option.map_eq_some_iff] at hl
      obtain ⟨l', hl', rfl⟩ := hl
      have N' := N.read i name t row
      have S' := fun i' name' t' (H : d.heap.Has i' name' t') => H.read i name t row
      have R := fun y (hy : (d.heap.read i name t row).2 = .ok y) => read_has (read_there N hy) hy
      simp only [Heap.run, Heap.step]
      simp only [HDesk.step] at hr hok' ⊢
      rcases hs : d.heap.read i name t row with ⟨h, e | x⟩
      · rw [hs] at hr
        obtain ⟨y, hy⟩ := hr
        cases hy
      · rw [hs] at hok' N'
        simp only [hs] at S' R
        refine ih _ _ l' N' ?_ hl' hok'
        intro k pl hk
        simp only at hk
        simp only [HDesk.keep]
        by_cases hkp : k = p
        · rw [if_pos hkp] at hk ⊢
          cases hk
          exact ⟨⟨x, rfl⟩, R x rfl⟩
        · rw [if_neg hkp] at hk ⊢
          obtain ⟨hy, H⟩ := S k pl hk
          exact ⟨hy, S' _ _ _ H⟩
    | get p =>
      simp only [HDesk.step] at hok' ⊢
      simp only [withoutVariables] at hl
      cases hv : d.vars p with
      | none => rw [hv] at hok'; exact ih _ _ l N S hl hok'
      | some q => rw [hv] at hok'; exact ih _ _ l N S hl hok'
    | put p t x =>
      simp only [withoutVariables] at hl
      cases he : env p with
      | none => rw [he] at hl; cases hl
      | some pl =>
        rw [he] at hl
        simp only at hl
        by_cases ht : pl.tag = t
        · rw [if_pos ht] at hl
          simp only [Option.map_eq_some_iff] at hl
          obtain ⟨l', hl', rfl⟩ := hl
          subst ht
          obtain ⟨⟨y, hy⟩, H⟩ := S p pl he
          obtain ⟨_, o, r, ho, hv⟩ := H
          simp only [Heap.run, Heap.step]
          simp only [HDesk.step, hy, dite_true, HDesk.store, ho, hv, if_true] at hok' ⊢
          refine ih _ _ l' (N.update _ _ _ _ _) ?_ hl' hok'
          intro k pl' hk
          obtain ⟨hy', H'⟩ := S k pl' hk
          exact ⟨hy', H'.update _ _ _ _ _⟩
        · rw [if_neg ht] at hl; cases hl
    | copy p q =>
      simp only [withoutVariables] at hl
      simp only [HDesk.step] at hr hok' ⊢
      cases hv : d.vars q with
      | none =>
        rw [hv] at hr
        obtain ⟨y, hy⟩ := hr
        cases hy
      | some z =>
        rw [hv] at hok'
        refine ih (d.keep p z) _ l N ?_ hl hok'
        intro k pl hk
        simp only at hk
        simp only [HDesk.keep]
        by_cases hkp : k = p
        · rw [if_pos hkp] at hk ⊢
          rw [← hv]
          exact S q pl hk
        · rw [if_neg hkp] at hk ⊢
          exact S k pl hk

/-- **C160** Variables add nothing: a program that runs without an error does to the tables what the program without variables does, in which taking an element is reading it and
`p = x` is update_value of what `p` stands for.  If that program copies and moves no table with a viewed column, every table ends up as if tables were independent values. -/
theorem C160_plain (ops : List (HPOp Φ)) (l : List (HOp Φ)) (hl : withoutVariables (fun _ => none) ops = some l)
    (hok : ∀ r ∈ ((⟨.empty, fun _ => none⟩ : HDesk Φ).run ops).2, ∃ y, r = .ok y) :
    ((⟨.empty, fun _ => none⟩ : HDesk Φ).run ops).1.heap = (Heap.run .empty l).1 ∧
    (Separate.Careful .empty l → ∀ i, ((⟨.empty, fun _ => none⟩ : HDesk Φ).run ops).1.heap.rows i =
      match (Separate.run .empty l).1.get i with | some o => .ok o.data | none => .error .ub) := by
  have h1 := plain_run ops (⟨.empty, fun _ => none⟩ : HDesk Φ) _ l (fun _ _ => rfl) (fun k pl hk => by cases hk) hl hok
  refine ⟨h1, fun hc i => ?_⟩
  rw [h1]
  change (Heap.run .empty l).1.rows i = _
  rw [(C109_values l hc).2.1, Heap.rows, heap_objs]
  cases (Separate.run .empty l).1.get i <;> rfl

/-- What it takes to read the element: it is remembered or decoded. -/
theorem viewed_read {w : View α} {deser : Str → Nat → Res α} {data : List (List Str)} {row : Nat} {s : Str} (hs : cellAt data row w.index = .ok s) {y : α}
    (hy : rememberedOr w row (deser s w.total) = .ok y) :
    ∃ w', w.read deser data row = (w', .ok y) ∧ w'.index = w.index ∧ w'.total = w.total := by
  unfold rememberedOr at hy
  unfold View.read
  cases hc : w.cache row with
  | some z => rw [hc] at hy; cases hy; exact ⟨w, rfl, rfl, rfl⟩
  | none =>
    rw [hc] at hy
    simp only [hs]
    simp only at hy
    rw [hy]
    exact ⟨_, rfl, rfl, rfl⟩

/-- **C160** An element of a column is taken into a variable, then the table is copied: the variable stays with the original.  `p = x` changes the original, not the copy. -/
theorem C160_original (v : Separate Φ) (i : Nat) (o : Obj Φ) (hi : v.get i = some o) (hn : i < v.next) (name : Str) (t : Φ.Tag) (w : View (Φ.El t))
    (hw : o.views name = some ⟨t, w⟩) (row : Nat) (s : Str) (hs : cellAt o.data row w.index = .ok s) (y x : Φ.El t) (hy : rememberedOr w row (Φ.deser t s w.total) = .ok y)
    (vars : Nat → Option (HProxy Φ)) (p : Nat) :
    ((⟨v.heap, vars⟩ : HDesk Φ).run [.take p i name t row, .plain (.copy i), .put p t x, .plain (.rows v.next), .plain (.rows i), .get p]).2 =
      [.ok .done, .ok (.table v.next), .ok .done, .ok (.rows o.data), .ok (.rows (withCell o.data row w.index (Φ.ser t x))), .ok (.value t y)] := by
  have hne : ¬ v.next = i := by omega
  have hne' : ¬ i = v.next := by omega
  have ho := heap_objs v i
  rw [hi] at ho
  simp only [Option.map_some] at ho
  have hv := held_view hw i
  have hnx : v.heap.next = v.next := rfl
  have hd : (o.held i).data = o.data := rfl
  have hset := setCell_withCell (x := Φ.ser t x) hs
  obtain ⟨w', r1, r2, r3⟩ := viewed_read (deser := Φ.deser t) hs hy
  generalize v.heap = h at *
  simp [HDesk.run, HDesk.step, HDesk.store, HDesk.keep, HOp.follow, Heap.step, Heap.copy, ho, Heap.update, Heap.getColumn, Heap.put, hnx, hv, Heap.matrix, hne, hne', View.update,
    hset, hd, Heap.putView, Heap.setMatrix, Heap.rows, Heap.read, r1, r2, View.remember, Except.map]

/-- **C160** Taken from a copy whose column was viewed before it was copied, the variable leads to the original as well: `p = x` changes the original, and the copy stays as it was. -/
theorem C160_copy (v : Separate Φ) (i : Nat) (o : Obj Φ) (hi : v.get i = some o) (hn : i < v.next) (name : Str) (t : Φ.Tag) (w : View (Φ.El t))
    (hw : o.views name = some ⟨t, w⟩) (row : Nat) (s : Str) (hs : cellAt o.data row w.index = .ok s) (y x : Φ.El t) (hy : rememberedOr w row (Φ.deser t s w.total) = .ok y)
    (vars : Nat → Option (HProxy Φ)) (p : Nat) :
    ((⟨v.heap, vars⟩ : HDesk Φ).run [.plain (.copy i), .take p v.next name t row, .put p t x, .plain (.rows v.next), .plain (.rows i), .get p]).2 =
      [.ok (.table v.next), .ok .done, .ok .done, .ok (.rows o.data), .ok (.rows (withCell o.data row w.index (Φ.ser t x))), .ok (.value t y)] := by
  have hne : ¬ v.next = i := by omega
  have hne' : ¬ i = v.next := by omega
  have ho := heap_objs v i
  rw [hi] at ho
  simp only [Option.map_some] at ho
  have hv := held_view hw i
  have hnx : v.heap.next = v.next := rfl
  have hd : (o.held i).data = o.data := rfl
  have hset := setCell_withCell (x := Φ.ser t x) hs
  obtain ⟨w', r1, r2, r3⟩ := viewed_read (deser := Φ.deser t) hs hy
  generalize v.heap = h at *
  simp [HDesk.run, HDesk.step, HDesk.store, HDesk.keep, HOp.follow, Heap.step, Heap.copy, ho, Heap.update, Heap.getColumn, Heap.put, hnx, hv, Heap.matrix, hne, hne', View.update,
    hset, hd, Heap.putView, Heap.setMatrix, Heap.rows, Heap.read, r1, r2, View.remember, Except.map]

/-- **C160** After the table was moved, destroyed or overwritten by another one, the variable still gives its value, but `p = x` is undefined behaviour. -/
theorem C160_gone (v : Separate Φ) (i : Nat) (o : Obj Φ) (hi : v.get i = some o) (hn : i < v.next) (name : Str) (t : Φ.Tag) (w : View (Φ.El t))
    (hw : o.views name = some ⟨t, w⟩) (row : Nat) (s : Str) (hs : cellAt o.data row w.index = .ok s) (y x : Φ.El t) (hy : rememberedOr w row (Φ.deser t s w.total) = .ok y)
    (vars : Nat → Option (HProxy Φ)) (p : Nat) :
    ((⟨v.heap, vars⟩ : HDesk Φ).run [.take p i name t row, .plain (.move i), .get p, .put p t x]).2 = [.ok .done, .ok (.table v.next), .ok (.value t y), .error .ub] ∧
    ((⟨v.heap, vars⟩ : HDesk Φ).run [.take p i name t row, .plain (.destroy i), .get p, .put p t x]).2 = [.ok .done, .ok .done, .ok (.value t y), .error .ub] ∧
    ∀ j o', j ≠ i → v.get j = some o' →
      ((⟨v.heap, vars⟩ : HDesk Φ).run [.take p i name t row, .plain (.copyOver i j), .get p, .put p t x]).2 = [.ok .done, .ok .done, .ok (.value t y), .error .ub] := by
  have hne : ¬ v.next = i := by omega
  have hne' : ¬ i = v.next := by omega
  have ho := heap_objs v i
  rw [hi] at ho
  simp only [Option.map_some] at ho
  have hv := held_view hw i
  have hnx : v.heap.next = v.next := rfl
  have hd : (o.held i).data = o.data := rfl
  obtain ⟨w', r1, r2, r3⟩ := viewed_read (deser := Φ.deser t) hs hy
  have hempty : setCell [] row w.index (Φ.ser t x) = .error .ub := rfl
  refine ⟨?_, ?_, fun j o' hj hj' => ?_⟩
  · generalize v.heap = h at *
    simp [HDesk.run, HDesk.step, HDesk.store, HDesk.keep, HOp.follow, Heap.step, Heap.move, ho, Heap.update, Heap.getColumn, Heap.put, hnx, hv, Heap.matrix, hne, View.update,
      hempty, hd, Heap.putView, Heap.read, r1, r2, Except.map]
  · generalize v.heap = h at *
    simp [HDesk.run, HDesk.step, HDesk.store, HDesk.keep, HOp.follow, Heap.step, Heap.destroy, ho, Heap.getColumn, Heap.put, hnx, hv, Heap.matrix,
      hd, Heap.putView, Heap.read, r1, Except.map]
  · have hoj := heap_objs v j
    rw [hj'] at hoj
    simp only [Option.map_some] at hoj
    have hij : ¬ i = j := fun hc => hj hc.symm
    generalize v.heap = h at *
    simp [HDesk.run, HDesk.step, HDesk.store, HDesk.keep, HOp.follow, Heap.step, Heap.copyOver, ho, hoj, hj, hij, Heap.getColumn, Heap.put, hnx, hv, Heap.matrix,
      hd, Heap.putView, Heap.read, r1, Except.map]

/-- **C160** Where the pointers lead after a move: the table moved from gets new data, and `p = x` writes the cell there, while the column of the table moved to shows `x` although its
cell is what it was; with the move constructor and with `j = std::move(i)`. -/
theorem C160_refilled (v : Separate Φ) (i : Nat) (o : Obj Φ) (hi : v.get i = some o) (hn : i < v.next) (name : Str) (t : Φ.Tag) (w : View (Φ.El t))
    (hw : o.views name = some ⟨t, w⟩) (row : Nat) (s : Str) (hs : cellAt o.data row w.index = .ok s) (y x : Φ.El t) (hy : rememberedOr w row (Φ.deser t s w.total) = .ok y)
    (vars : Nat → Option (HProxy Φ)) (p : Nat) (cols : List Column) (d : List (List Str)) (s' : Str) (hs' : cellAt d row w.index = .ok s') :
    ((⟨v.heap, vars⟩ : HDesk Φ).run [.take p i name t row, .plain (.move i), .plain (.replace i cols d), .put p t x, .plain (.rows i), .plain (.rows v.next),
        .plain (.read v.next name t row)]).2 =
      [.ok .done, .ok (.table v.next), .ok .done, .ok .done, .ok (.rows (withCell d row w.index (Φ.ser t x))), .ok (.rows o.data), .ok (.value t x)] ∧
    ∀ j o', j ≠ i → v.get j = some o' →
      ((⟨v.heap, vars⟩ : HDesk Φ).run [.take p i name t row, .plain (.moveOver j i), .plain (.replace i cols d), .put p t x, .plain (.rows i), .plain (.rows j),
          .plain (.read j name t row)]).2 =
        [.ok .done, .ok .done, .ok .done, .ok .done, .ok (.rows (withCell d row w.index (Φ.ser t x))), .ok (.rows o.data), .ok (.value t x)] := by
  have hne : ¬ v.next = i := by omega
  have hne' : ¬ i = v.next := by omega
  have ho := heap_objs v i
  rw [hi] at ho
  simp only [Option.map_some] at ho
  have hv := held_view hw i
  have hnx : v.heap.next = v.next := rfl
  have hd : (o.held i).data = o.data := rfl
  have hset := setCell_withCell (x := Φ.ser t x) hs'
  obtain ⟨w', r1, r2, r3⟩ := viewed_read (deser := Φ.deser t) hs hy
  have hrem : ∀ (data : List (List Str)) (u : View (Φ.El t)), View.read (Φ.deser t) data (u.remember row x) row = (u.remember row x, .ok x) := fun data u => by
    simp [View.read, View.remember]
  refine ⟨?_, fun j o' hj hj' => ?_⟩
  · generalize v.heap = h at *
    simp [HDesk.run, HDesk.step, HDesk.store, HDesk.keep, HOp.follow, Heap.step, Heap.move, Heap.replace, ho, Heap.update, Heap.getColumn, Heap.put, hnx, hv, Heap.matrix, hne, hne',
      View.update, hset, hd, Heap.putView, Heap.setMatrix, Heap.rows, Heap.read, r1, r2, hrem, Except.map]
  · have hoj := heap_objs v j
    rw [hj'] at hoj
    simp only [Option.map_some] at hoj
    have hij : ¬ i = j := fun hc => hj hc.symm
    generalize v.heap = h at *
    simp [HDesk.run, HDesk.step, HDesk.store, HDesk.keep, HOp.follow, Heap.step, Heap.moveOver, Heap.replace, ho, hoj, hj, hij, Heap.update, Heap.getColumn, Heap.put, hv, Heap.matrix,
      View.update, hset, hd, Heap.putView, Heap.setMatrix, Heap.rows, Heap.read, r1, r2, hrem, Except.map]

/-- **C160** `p = q` between variables changes no table, and from then on `p` is as good as `q`: it gives the same value, and assigning to it does the same. -/
theorem C160_alias (d : HDesk Φ) (p q : Nat) (hq : (d.step (.get q)).2 ≠ .error .ub) :
    let d' := (d.step (.copy p q)).1
    d'.heap = d.heap ∧ (d.step (.copy p q)).2 = .ok .done ∧ (d'.step (.get p)).2 = (d.step (.get q)).2 ∧
    (∀ t x, (d'.step (.put p t x)).1.heap = (d.step (.put q t x)).1.heap ∧ (d'.step (.put p t x)).2 = (d.step (.put q t x)).2) ∧
    ∀ k, k ≠ p → (d'.step (.get k)).2 = (d.step (.get k)).2 := by
  cases hv : d.vars q with
  | none => simp only [HDesk.step, hv] at hq; exact absurd rfl hq
  | some y =>
    simp only [HDesk.step, hv, HDesk.keep, if_true, true_and]
    refine ⟨fun t x => ?_, fun k hk => ?_⟩
    · by_cases he : t = y.tag
      · simp only [dif_pos he, and_self]
      · simp only [dif_neg he, and_self]
    · rw [if_neg hk]
      cases d.vars k <;> rfl

/-! ### examples -/

/-- The table is copied between: the variable stays with table 0.  It is moved from then: the value is still there, the element is not. -/
example (F : FloatText) (G : StreamText) :
    ((⟨.empty, fun _ => none⟩ : HDesk (asciiFamily F G)).run [.plain (.create exCopyCols [[b!"1"], [b!"2"]]), .take 5 0 b!"N" .longlong 1, .plain (.copy 0),
        .put 5 .longlong (7 : BitVec 64), .plain (.rows 0), .plain (.rows 1), .get 5, .plain (.move 0), .get 5, .put 5 .longlong (8 : BitVec 64)]).2
      = [.ok (.table 0), .ok .done, .ok (.table 1), .ok .done, .ok (.rows [[b!"1"], [b!"7"]]), .ok (.rows [[b!"1"], [b!"2"]]), .ok (.value .longlong (2 : BitVec 64)),
         .ok (.table 2), .ok (.value .longlong (2 : BitVec 64)), .error .ub] := rfl

/-- C160_plain: the variable stands for an element of table 0, a fresh copy is independent. -/
example (F : FloatText) (G : StreamText) :
    let ops : List (HPOp (asciiFamily F G)) := [.plain (.create exCopyCols [[b!"1"], [b!"2"]]), .plain (.copy 0), .take 5 0 b!"N" .longlong 1, .copy 6 5, .get 5,
      .put 6 .longlong (7 : BitVec 64)]
    withoutVariables (fun _ => none) ops = some [.create exCopyCols [[b!"1"], [b!"2"]], .copy 0, .read 0 b!"N" .longlong 1, .update 0 b!"N" .longlong 1 (7 : BitVec 64)] ∧
    ((⟨.empty, fun _ => none⟩ : HDesk (asciiFamily F G)).run ops).2 =
      [.ok (.table 0), .ok (.table 1), .ok .done, .ok .done, .ok (.value .longlong (2 : BitVec 64)), .ok .done] ∧
    ((⟨.empty, fun _ => none⟩ : HDesk (asciiFamily F G)).run ops).1.heap.rows 0 = .ok [[b!"1"], [b!"7"]] ∧
    ((⟨.empty, fun _ => none⟩ : HDesk (asciiFamily F G)).run ops).1.heap.rows 1 = .ok [[b!"1"], [b!"2"]] := ⟨rfl, rfl, rfl, rfl⟩

end Astro
