import Verif.Spec.Edited
import Verif.Lemmas.Edited
import Verif.Props.Resaved
import Verif.Props.ForeignCells
import Verif.Props.Session

/-
Property C157: files of other programs whose tables are changed and saved.
-/

namespace Astro

open Spec Header Reader

variable {F : FloatText} {G : StreamText} {tyA : Nat → Str → AsciiTag} {tyB : Nat → Str → BinTag}

theorem overwrite_length {d s : Str} {off : Nat} (h : off + s.length ≤ d.length) : (overwrite d off s).length = d.length := by
  unfold overwrite
  simp only [List.length_append, List.length_take, List.length_drop]; omega

/-- One cell of the matrix after it was set. -/
theorem set_cell_get {data : List (List Str)} {row i r j : Nat} {s cell : Str} {l : List Str} (hrow : row < data.length)
    (hi : i < (data.getD row []).length) (hr : (data.set row ((data.getD row []).set i s))[r]? = some l) (hj : l[j]? = some cell) :
    (r = row ∧ j = i ∧ cell = s) ∨ ((r ≠ row ∨ j ≠ i) ∧ ∃ l', data[r]? = some l' ∧ l'[j]? = some cell) := by
  by_cases hrr : r = row
  · subst hrr
    rw [List.getElem?_set_self hrow] at hr
    cases hr
    have hd : data[r]? = some (data.getD r []) := by rw [List.getD_eq_getElem?_getD, List.getElem?_eq_getElem hrow]; rfl
    by_cases hji : j = i
    · subst hji
      rw [List.getElem?_set_self hi] at hj
      cases hj
      exact .inl ⟨rfl, rfl, rfl⟩
    · rw [List.getElem?_set_ne (Ne.symm hji)] at hj
      exact .inr ⟨.inr hji, _, hd, hj⟩
  · rw [List.getElem?_set_ne (Ne.symm hrr)] at hr
    exact .inr ⟨.inl hrr, l, hr, hj⟩

theorem set_row_length {data : List (List Str)} {row i r n : Nat} {s : Str} {l : List Str} (h : ∀ (r : Nat) (l : List Str), data[r]? = some l → l.length = n)
    (hrow : row < data.length) (hr : (data.set row ((data.getD row []).set i s))[r]? = some l) : l.length = n := by
  by_cases hrr : r = row
  · subst hrr
    rw [List.getElem?_set_self hrow] at hr
    cases hr
    rw [List.length_set]
    exact h r _ (by rw [List.getD_eq_getElem?_getD, List.getElem?_eq_getElem hrow]; rfl)
  · rw [List.getElem?_set_ne (Ne.symm hrr)] at hr
    exact h r l hr

theorem binaryField_edit {data s : Str} {rowLen rows : Nat} {cols : List (Nat × Byte)} (hw : rowLen = (columnBytes cols).sum) (hd : data.length = rowLen * rows)
    {row j : Nat} {c : Nat × Byte} (hj : cols[j]? = some c) (hr : row < rows) (hs : s.length = fieldBytes c) {r i : Nat} {c' : Nat × Byte} (hi : cols[i]? = some c') :
    binaryField (overwrite data (row * rowLen + ((columnBytes cols).take j).sum) s) rowLen cols r i c' =
      if r = row ∧ i = j then s else binaryField data rowLen cols r i c' := by
  have hj' : (columnBytes cols)[j]? = some (fieldBytes c) := by unfold columnBytes; rw [List.getElem?_map, hj]; rfl
  have hi' : (columnBytes cols)[i]? = some (fieldBytes c') := by unfold columnBytes; rw [List.getElem?_map, hi]; rfl
  have hin := field_inside hj' hr
  rw [← hw] at hin
  unfold binaryField overwrite
  split
  · rename_i h
    obtain ⟨rfl, rfl⟩ := h
    rw [hj] at hi; cases hi
    rw [← hs]
    exact window_patch (by omega)
  · rename_i h
    apply window_outside_patch (by omega)
    have := fields_apart (r := row) (r' := r) hj' hi' (by rw [not_and_or] at h; exact h.imp Ne.symm Ne.symm)
    rw [← hw] at this
    omega

theorem asciiField_edit {data f : Str} {rowLen rows : Nat} {cols : List (Nat × Nat)} (hw : (cols.map (·.2)).sum = rowLen)
    (ht : ∀ j c, cols[j]? = some c → c.1 = ((cols.map (·.2)).take j).sum + 1) (hd : data.length = rowLen * rows)
    {row j : Nat} {c : Nat × Nat} (hj : cols[j]? = some c) (hr : row < rows) (hs : f.length = c.2) {r i : Nat} {c' : Nat × Nat} (hi : cols[i]? = some c') :
    asciiField (overwrite data (row * rowLen + c.1 - 1) f) rowLen r c' = if r = row ∧ i = j then f else asciiField data rowLen r c' := by
  have hj' : (cols.map (·.2))[j]? = some c.2 := by rw [List.getElem?_map, hj]; rfl
  have hi' : (cols.map (·.2))[i]? = some c'.2 := by rw [List.getElem?_map, hi]; rfl
  have hin := field_inside hj' hr
  rw [hw] at hin
  have e1 := ht j c hj
  have e2 := ht i c' hi
  unfold asciiField overwrite
  split
  · rename_i h
    obtain ⟨rfl, rfl⟩ := h
    rw [hj] at hi; cases hi
    rw [← hs]
    exact window_patch (by omega)
  · rename_i h
    apply window_outside_patch (by omega)
    have := fields_apart (r := row) (r' := r) hj' hi' (by rw [not_and_or] at h; exact h.imp Ne.symm Ne.symm)
    rw [hw] at this
    omega

/-- The views of the table in the list belong to it. -/
def LiveOk (tyA : Str → AsciiTag) (tyB : Str → BinTag) : Live F G → Prop
  | .binary t v => ViewsOk (Φ := binFamily) t.cols tyB v
  | .ascii t v => ViewsOk (Φ := asciiFamily F G) t.cols tyA v
  | _ => True

/-- The table holds exactly the bytes of the fields. -/
structure ExactBinary (t : Table) (cards : List Str) (rowLen rows : Nat) (cols : List (Nat × Byte)) (data : Str) : Prop where
  head : ∃ d0 data0, ShowsBinary { t with data := d0 } cards rowLen rows cols data0
  rows : t.data.length = rows
  row : ∀ (r : Nat) (l : List Str), t.data[r]? = some l → l.length = cols.length
  cell : ∀ (r j : Nat) (l : List Str) (c : Nat × Byte) (x : Str), t.data[r]? = some l → cols[j]? = some c → l[j]? = some x → x = binaryField data rowLen cols r j c

/-- The object holds the HDU. -/
inductive Kept (F : FloatText) (u : ForeignHdu) : Hdu → Prop
  | other (x : Hdu) : Shows F u x → Lossless F u → (∀ t, x ≠ .binary t) → Kept F u x
  | binary (t : Table) (rowLen rows : Nat) (cols : List (Nat × Byte)) : BinaryTableCards F u.cards rowLen rows 0 cols → u.data.length = rowLen * rows →
      ExactBinary t u.cards rowLen rows cols u.data → Kept F u (.binary t)

theorem kept_start {u : ForeignHdu} {x : Hdu} (h : Shows F u x) (hl : Lossless F u) : Kept F u x := by
  cases h with
  | @binary t rowLen rows cols h1 h2 h3 =>
    refine .binary t rowLen rows cols h1 h2 ⟨⟨t.data, u.data, h3⟩, h3.rows, h3.row, fun r j l c x g1 g2 g3 => ?_⟩
    have hr : r < rows := by rw [← h3.rows]; exact (List.getElem?_eq_some_iff.1 g1).1
    exact (trim_outer (h3.cell r j l c x g1 g2 g3)).2.1 (hl.binary _ _ _ h1 r j c hr g2)
  | image b axes ext h1 h2 h3 h4 h5 h6 h7 h8 h9 => exact .other _ (.image b axes ext h1 h2 h3 h4 h5 h6 h7 h8 h9) hl (by intro t e; cases e)
  | ascii a b c h1 h2 h3 => exact .other _ (.ascii a b c h1 h2 h3) hl (by intro t e; cases e)
  | other kind h1 h2 => exact .other _ (.other kind h1 h2) hl (by intro t e; cases e)

theorem kept_ascii {u : ForeignHdu} {x : Hdu} (h : Kept F u x) {rowLen rows : Nat} {cols : List (Nat × Nat)} (hh : AsciiTableCards F u.cards rowLen rows 0 cols) :
    Shows F u x ∧ Lossless F u := by
  cases h with
  | other _ h1 h2 _ => exact ⟨h1, h2⟩
  | binary t a b c h1 _ _ => exact absurd (says_string_fun h1.xtension (says_string (F := F) hh.xtension)) (by decide)

theorem kept_binary {u : ForeignHdu} {x : Hdu} (h : Kept F u x) {rowLen rows : Nat} {cols : List (Nat × Byte)} (hh : BinaryTableCards F u.cards rowLen rows 0 cols) :
    ∃ t, x = .binary t ∧ u.data.length = rowLen * rows ∧ ExactBinary t u.cards rowLen rows cols u.data := by
  cases h with
  | other _ h1 _ h3 =>
    obtain ⟨t, _, _, _, e, _⟩ := (shows_kind h1 hh.xtension).1 rfl
    exact absurd e (h3 t)
  | binary t a b c h1 h2 h3 =>
    obtain ⟨rfl, rfl, rfl⟩ := binaryCards_unique hh h1
    exact ⟨t, rfl, h2, h3⟩

/-- What the object is saved as. -/
theorem kept_holds {u : ForeignHdu} {x : Hdu} (h : Kept F u x) {cards : List Str} {data : Str} (hx : Holds x cards data) : cards = u.cards ∧ data = u.data := by
  cases h with
  | other _ h1 h2 _ =>
    obtain ⟨g1, g2⟩ := shows_holds h1 hx
    exact ⟨g1, resaved_lossless h2 g2⟩
  | binary t rowLen rows cols h1 h2 h3 =>
    obtain ⟨rfl, rfl⟩ := hx
    obtain ⟨_, _, h0⟩ := h3.head
    refine ⟨h0.raws, rows_joined u.data rowLen rows (columnBytes cols) _ h1.width.symm h2 h3.rows (fun r l hl => ?_) fun r j l w x g1 g2 g3 => ?_⟩
    · rw [h3.row r l hl]; unfold columnBytes; rw [List.length_map]
    · unfold columnBytes at g2
      rw [List.getElem?_map] at g2
      obtain ⟨c, hc, rfl⟩ := Option.map_eq_some_iff.1 g2
      exact h3.cell r j l c x g1 hc g3

theorem kept_written {us : List ForeignHdu} {xs : List Hdu} (h : List.Forall₂ (Kept F) us xs) {texts : List Str} (ht : List.Forall₂ HduText xs texts) :
    Written us texts.flatten := by
  refine ⟨texts, rfl, ?_⟩
  induction h generalizing texts with
  | nil => cases ht; exact .nil
  | @cons u x us xs hu _ ih =>
    cases ht with
    | @cons _ t _ ts hx hxs =>
      refine .cons ?_ (ih hxs)
      have key : (∃ cards data u1 u2, Holds x cards data ∧ Filled cards.flatten u1 ∧ Filled data u2 ∧ t = u1 ++ u2) →
          ∃ u1 u2, Filled u.cards.flatten u1 ∧ Filled u.data u2 ∧ t = u1 ++ u2 := by
        rintro ⟨cards, data, u1, u2, q1, q2, q3, q4⟩
        obtain ⟨rfl, rfl⟩ := kept_holds hu q1
        exact ⟨u1, u2, q2, q3, q4⟩
      cases x with
      | blank =>
        cases hu with
        | other _ h1 h2 _ =>
          cases h1 with
          | other kind k1 k2 => exact absurd (h2.other kind k1) (fun h => h.elim k2.1 k2.2)
      | primary p => exact key hx
      | ascii p => exact key hx
      | binary p => exact key hx

theorem kept_saved {us : List ForeignHdu} {xs : List Hdu} (h : List.Forall₂ (Kept F) us xs) :
    ∃ s, writeAll xs = .ok s ∧ (s.content.length + 2880 < 2 ^ 63 → Written us s.content) := by
  have hw : ∃ s, writeAll xs = .ok s := by
    cases e : writeAll xs with
    | ok s => exact ⟨s, rfl⟩
    | error er =>
      obtain ⟨t, row, j, x, g1, g2, g3, g4⟩ := (C35_fails_iff xs).1 ⟨er, e⟩
      obtain ⟨u, _, hu⟩ := forall2_mem_right h g1
      cases hu with
      | other _ hu _ _ =>
        cases hu with
        | @ascii _ rowLen rows cols k1 _ k2 =>
          obtain ⟨r, hr⟩ := List.mem_iff_getElem?.1 g2
          have hj : j < cols.length := by rw [← k2.row r row hr]; exact (List.getElem?_eq_some_iff.1 g3).1
          have hj' : j < t.cols.length := by rw [k2.columns]; exact hj
          have w := g4 _ _ (List.getElem?_eq_getElem hj') (k2.widths j _ _ (List.getElem?_eq_getElem hj') (List.getElem?_eq_getElem hj))
          have := (trim_outer (k2.cell r j row _ x hr (List.getElem?_eq_getElem hj) g3)).1
          rw [window_length] at this
          omega
  obtain ⟨s, hs'⟩ := hw
  refine ⟨s, hs', fun hb' => ?_⟩
  obtain ⟨texts, k1, k2⟩ := C35_written xs s hs' hb'
  rw [k1]
  exact kept_written h k2

/-- The open file holds the HDUs `us`. -/
structure Open (F : FloatText) (G : StreamText) (tyA : Nat → Str → AsciiTag) (tyB : Nat → Str → BinTag) (us : List ForeignHdu) (live : List (Live F G)) : Prop where
  length : live.length = us.length
  shows : ∀ (k : Nat) u x, us[k]? = some u → live[k]? = some x → Kept F u x.hdu
  views : ∀ (k : Nat) x, live[k]? = some x → LiveOk (tyA k) (tyB k) x

theorem open_set {us : List ForeignHdu} {live : List (Live F G)} (h : Open F G tyA tyB us live) {k : Nat} {u : ForeignHdu} {x : Live F G}
    (hk : k < us.length) (hs : Kept F u x.hdu) (hv : LiveOk (tyA k) (tyB k) x) : Open F G tyA tyB (us.set k u) (live.set k x) := by
  refine ⟨by simp [h.length], ?_, ?_⟩
  · intro i u' x' h1 h2
    by_cases hi : i = k
    · subst hi
      rw [List.getElem?_set_self hk] at h1
      rw [List.getElem?_set_self (by rw [h.length]; exact hk)] at h2
      cases h1; cases h2; exact hs
    · rw [List.getElem?_set_ne (Ne.symm hi)] at h1 h2
      exact h.shows i u' x' h1 h2
  · intro i x' h2
    by_cases hi : i = k
    · subst hi
      rw [List.getElem?_set_self (by rw [h.length]; exact hk)] at h2
      cases h2; exact hv
    · rw [List.getElem?_set_ne (Ne.symm hi)] at h2
      exact h.views i x' h2

theorem atHdu_some {β : Type} {live : List (Live F G)} {k : Nat} {x : Live F G} (h : live[k]? = some x) (f : Live F G → Live F G × Res β) :
    (atHdu live k f).1 = live.set k (f x).1 := by
  unfold atHdu
  rw [if_neg (by omega), Int.toNat_natCast, h]

theorem atHdu_none {β : Type} {live : List (Live F G)} {k : Nat} (h : live[k]? = none) (f : Live F G → Live F G × Res β) : (atHdu live k f).1 = live := by
  unfold atHdu
  rw [if_neg (by omega), Int.toNat_natCast, h]

theorem open_same {us : List ForeignHdu} {live : List (Live F G)} (h : Open F G tyA tyB us live) {k : Nat} {x y : Live F G} (hx : live[k]? = some x)
    (hh : y.hdu = x.hdu) (hv : LiveOk (tyA k) (tyB k) y) : Open F G tyA tyB us (live.set k y) := by
  have hk : k < us.length := by rw [← h.length]; exact (List.getElem?_eq_some_iff.1 hx).1
  have hu := List.getElem?_eq_getElem hk
  have := open_set h hk (u := us[k]) (x := y) (by rw [hh]; exact h.shows k _ x hu hx) hv
  rwa [List.set_getElem_self hk] at this

theorem inBinary_look {us : List ForeignHdu} {live : List (Live F G)} (h : Open F G tyA tyB us live) (k : Nat) {β : Type} (f : Obj binFamily → Obj binFamily × β)
    (hc : ∀ o, (f o).1.cols = o.cols) (hf : ∀ o, ViewsOk o.cols (tyB k) o.views → (f o).1.data = o.data ∧ ViewsOk o.cols (tyB k) (f o).1.views) :
    Open F G tyA tyB us (atHdu live k fun x => x.inBinary f).1 := by
  cases hx : live[k]? with
  | none => rw [atHdu_none hx]; exact h
  | some x =>
    rw [atHdu_some hx]
    have hv := h.views k x hx
    refine open_same h hx ?_ ?_
    · cases x with
      | binary t v =>
        simp only [Live.inBinary, Live.hdu]
        rw [hc, (hf ⟨t.cols, t.data, v⟩ hv).1]
      | _ => rfl
    · cases x with
      | binary t v =>
        simp only [Live.inBinary, LiveOk]
        have := (hf ⟨t.cols, t.data, v⟩ hv).2
        rw [hc]; exact this
      | _ => exact hv

theorem inAscii_look {us : List ForeignHdu} {live : List (Live F G)} (h : Open F G tyA tyB us live) (k : Nat) {β : Type}
    (f : Obj (asciiFamily F G) → Obj (asciiFamily F G) × β)
    (hc : ∀ o, (f o).1.cols = o.cols) (hf : ∀ o, ViewsOk o.cols (tyA k) o.views → (f o).1.data = o.data ∧ ViewsOk o.cols (tyA k) (f o).1.views) :
    Open F G tyA tyB us (atHdu live k fun x => x.inAscii f).1 := by
  cases hx : live[k]? with
  | none => rw [atHdu_none hx]; exact h
  | some x =>
    rw [atHdu_some hx]
    have hv := h.views k x hx
    refine open_same h hx ?_ ?_
    · cases x with
      | ascii t v =>
        simp only [Live.inAscii, Live.hdu]
        rw [hc, (hf ⟨t.cols, t.data, v⟩ hv).1]
      | _ => rfl
    · cases x with
      | ascii t v =>
        simp only [Live.inAscii, LiveOk]
        have := (hf ⟨t.cols, t.data, v⟩ hv).2
        rw [hc]; exact this
      | _ => exact hv

theorem step_looks {us : List ForeignHdu} {live : List (Live F G)} (h : Open F G tyA tyB us live) {op : SOp F G tyA tyB} (ho : Looks op) :
    Open F G tyA tyB us (sessionStep live op).1 := by
  cases ho with
  | readAscii k name row => exact inAscii_look h k _ (fun o => step_cols o _) fun o hv => read_same hv name row
  | loopAscii k name => exact inAscii_look h k _ (fun o => step_cols o _) fun o hv => iterate_same hv name
  | readBinary k name row => exact inBinary_look h k _ (fun o => step_cols o _) fun o hv => read_same hv name row
  | loopBinary k name => exact inBinary_look h k _ (fun o => step_cols o _) fun o hv => iterate_same hv name


/-- The column of the name in an open binary table. -/
theorem binary_column {t : Table} {cards : List Str} {rowLen rows : Nat} {cols : List (Nat × Byte)} {data : Str}
    (hh : BinaryTableCards F cards rowLen rows 0 cols) (hs : ExactBinary t cards rowLen rows cols data) {name : Str} {j row : Nat} {c : Nat × Byte} (hj : cols[j]? = some c)
    (hf : FirstCalled cards name j) (hr : row < rows) :
    ∃ col x, Table.columnMetadata t.cols name = .ok col ∧ col.index = j + 1 ∧ col.total = c.1 ∧ cellAt t.data row col.index = .ok x ∧
      x = binaryField data rowLen cols row j c := by
  obtain ⟨_, _, h0⟩ := hs.head
  have hj' : j < cols.length := (List.getElem?_eq_some_iff.1 hj).1
  obtain ⟨col, g1, g2⟩ := called_column h0.columns h0.names h0.unnamed
    (fun i hi => by
      obtain ⟨_, g, _⟩ := hh.column i _ _ (List.getElem?_eq_getElem hi) (showNat_isNat (i + 1))
      exact g.ttype.imp id fun ⟨x, hx, _⟩ => ⟨x, hx⟩) hj' hf
  obtain ⟨p1, p2⟩ := h0.place j col c g1 hj
  have hrow : t.data[row]? = some (t.data[row]'(hs.rows ▸ hr)) := List.getElem?_eq_getElem _
  have hl := hs.row row _ hrow
  have hcell := List.getElem?_eq_getElem (l := t.data[row]'(hs.rows ▸ hr)) (i := j) (by omega)
  exact ⟨col, _, g2, p1, p2, cellAt_ok.2 ⟨by omega, _, hrow, by rw [p1, Nat.add_sub_cancel]; exact hcell⟩, hs.cell row j _ c _ hrow hj hcell⟩

/-- The same for ASCII tables. -/
theorem ascii_column {t : Table} {cards : List Str} {rowLen rows : Nat} {cols : List (Nat × Nat)} {data : Str}
    (hh : AsciiTableCards F cards rowLen rows 0 cols) (hs : ShowsAscii t cards rowLen rows cols data) {name : Str} {j row : Nat} {c : Nat × Nat} (hj : cols[j]? = some c)
    (hf : FirstCalled cards name j) (hr : row < rows) :
    ∃ col x, Table.columnMetadata t.cols name = .ok col ∧ col.index = j + 1 ∧ cellAt t.data row col.index = .ok x ∧ IsTrim (asciiField data rowLen row c) x := by
  have hj' : j < cols.length := (List.getElem?_eq_some_iff.1 hj).1
  obtain ⟨col, g1, g2⟩ := called_column hs.columns hs.names hs.unnamed
    (fun i hi => by
      obtain ⟨_, _, g⟩ := hh.column i _ _ (List.getElem?_eq_getElem hi) (showNat_isNat (i + 1))
      exact g.ttype.imp id fun ⟨x, hx, _⟩ => ⟨x, hx⟩) hj' hf
  have p1 := hs.index j col g1
  have hrow : t.data[row]? = some (t.data[row]'(hs.rows ▸ hr)) := List.getElem?_eq_getElem _
  have hl := hs.row row _ hrow
  have hcell := List.getElem?_eq_getElem (l := t.data[row]'(hs.rows ▸ hr)) (i := j) (by omega)
  exact ⟨col, _, g2, p1, cellAt_ok.2 ⟨by omega, _, hrow, by rw [p1, Nat.add_sub_cancel]; exact hcell⟩, hs.cell row j _ c _ hrow hj hcell⟩

theorem exactBinary_edit {t : Table} {cards : List Str} {rowLen rows : Nat} {cols : List (Nat × Byte)} {data : Str}
    (hh : BinaryTableCards F cards rowLen rows 0 cols) (hd : data.length = rowLen * rows) (hs : ExactBinary t cards rowLen rows cols data) {j row : Nat} {c : Nat × Byte}
    (hj : cols[j]? = some c) (hr : row < rows) {s : Str} (hlen : s.length = fieldBytes c) :
    ExactBinary { t with data := t.data.set row ((t.data.getD row []).set j s) } cards rowLen rows cols
      (overwrite data (row * rowLen + ((columnBytes cols).take j).sum) s) := by
  have hrow : row < t.data.length := by rw [hs.rows]; exact hr
  have hi : j < (t.data.getD row []).length := by
    rw [hs.row row _ (by rw [List.getD_eq_getElem?_getD, List.getElem?_eq_getElem hrow]; rfl)]
    exact (List.getElem?_eq_some_iff.1 hj).1
  refine ⟨hs.head, by simp only [List.length_set]; exact hs.rows, ?_, ?_⟩
  · intro r l hl
    exact set_row_length hs.row hrow hl
  · intro r i l c' cell h1 h2 h3
    have key := binaryField_edit hh.width hd hj hr hlen (r := r) h2
    rw [key]
    rcases set_cell_get hrow hi h1 h3 with ⟨rfl, rfl, rfl⟩ | ⟨hne, l', g1, g2⟩
    · rw [if_pos ⟨rfl, rfl⟩]
    · rw [if_neg (by rw [not_and_or]; exact hne)]
      exact hs.cell r i l' c' cell g1 h2 g2

theorem showsAscii_edit {t : Table} {cards : List Str} {rowLen rows : Nat} {cols : List (Nat × Nat)} {data : Str}
    (hsum : (cols.map (·.2)).sum = rowLen) (htile : ∀ j c, cols[j]? = some c → c.1 = ((cols.map (·.2)).take j).sum + 1)
    (hd : data.length = rowLen * rows) (hs : ShowsAscii t cards rowLen rows cols data) {j row : Nat} {c : Nat × Nat}
    (hj : cols[j]? = some c) (hr : row < rows) {s f : Str} (hf : rightJustified c.2 s f) (hw : NoOuterWhite s) :
    ShowsAscii { t with data := t.data.set row ((t.data.getD row []).set j s) } cards rowLen rows cols (overwrite data (row * rowLen + c.1 - 1) f) := by
  have hrow : row < t.data.length := by rw [hs.rows]; exact hr
  have hi : j < (t.data.getD row []).length := by
    rw [hs.row row _ (by rw [List.getD_eq_getElem?_getD, List.getElem?_eq_getElem hrow]; rfl)]
    exact (List.getElem?_eq_some_iff.1 hj).1
  refine ⟨hs.raws, hs.columns, hs.names, hs.unnamed, hs.index, hs.widths, by simp only [List.length_set]; exact hs.rows, ?_, ?_⟩
  · intro r l hl
    exact set_row_length hs.row hrow hl
  · intro r i l c' cell h1 h2 h3
    obtain ⟨p, rfl, hp, hfl⟩ := hf
    have key := asciiField_edit hsum htile hd hj hr hfl (r := r) h2
    unfold asciiField at key
    rw [key]
    rcases set_cell_get hrow hi h1 h3 with ⟨rfl, rfl, rfl⟩ | ⟨hne, l', g1, g2⟩
    · rw [if_pos ⟨rfl, rfl⟩]
      exact ⟨p, [], by simp, fun c hc => by rw [hp c hc]; exact .inl rfl, by simp, hw.1, hw.2⟩
    · rw [if_neg (by rw [not_and_or]; exact hne)]
      exact hs.cell r i l' c' cell g1 h2 g2

/-- A table of the open file becomes another with the same columns. -/
theorem inBinary_edit {us : List ForeignHdu} {live : List (Live F G)} (h : Open F G tyA tyB us live) {k : Nat} {t : Table} {v : Views binFamily} (hx : live[k]? = some (.binary t v))
    {β : Type} (f : Obj binFamily → Obj binFamily × β) (hc : ∀ o, (f o).1.cols = o.cols) {d : List (List Str)} {u : ForeignHdu}
    (hf : (f ⟨t.cols, t.data, v⟩).1.data = d ∧ ViewsOk t.cols (tyB k) (f ⟨t.cols, t.data, v⟩).1.views) (hs : Kept F u (.binary { t with data := d })) :
    Open F G tyA tyB (us.set k u) (atHdu live k fun x => x.inBinary f).1 ∧ (atHdu live k fun x => x.inBinary f).2 = .ok (f ⟨t.cols, t.data, v⟩).2 := by
  have hk : k < us.length := by rw [← h.length]; exact (List.getElem?_eq_some_iff.1 hx).1
  rw [atHdu_some hx]
  refine ⟨open_set h hk ?_ ?_, ?_⟩
  · simp only [Live.inBinary, Live.hdu]
    rw [hc, hf.1]; exact hs
  · simp only [Live.inBinary, LiveOk]
    rw [hc]; exact hf.2
  · unfold atHdu
    rw [if_neg (by omega), Int.toNat_natCast, hx]
    rfl

theorem inAscii_edit {us : List ForeignHdu} {live : List (Live F G)} (h : Open F G tyA tyB us live) {k : Nat} {t : Table} {v : Views (asciiFamily F G)}
    (hx : live[k]? = some (.ascii t v))
    {β : Type} (f : Obj (asciiFamily F G) → Obj (asciiFamily F G) × β) (hc : ∀ o, (f o).1.cols = o.cols) {d : List (List Str)} {u : ForeignHdu}
    (hf : (f ⟨t.cols, t.data, v⟩).1.data = d ∧ ViewsOk t.cols (tyA k) (f ⟨t.cols, t.data, v⟩).1.views) (hs : Kept F u (.ascii { t with data := d })) :
    Open F G tyA tyB (us.set k u) (atHdu live k fun x => x.inAscii f).1 ∧ (atHdu live k fun x => x.inAscii f).2 = .ok (f ⟨t.cols, t.data, v⟩).2 := by
  have hk : k < us.length := by rw [← h.length]; exact (List.getElem?_eq_some_iff.1 hx).1
  rw [atHdu_some hx]
  refine ⟨open_set h hk ?_ ?_, ?_⟩
  · simp only [Live.inAscii, Live.hdu]
    rw [hc, hf.1]; exact hs
  · simp only [Live.inAscii, LiveOk]
    rw [hc]; exact hf.2
  · unfold atHdu
    rw [if_neg (by omega), Int.toNat_natCast, hx]
    rfl

theorem step_binary {us : List ForeignHdu} {live : List (Live F G)} (h : Open F G tyA tyB us live) {k : Nat} {u : ForeignHdu} {rowLen rows : Nat} {cols : List (Nat × Byte)}
    {name : Str} {j row : Nat} {c : Nat × Byte} {x : (tyB k name).El} {s : Str} {op : VOp binFamily (tyB k)}
    (hu : us[k]? = some u) (hh : BinaryTableCards F u.cards rowLen rows 0 cols) (hj : cols[j]? = some c) (hf : FirstCalled u.cards name j) (hr : row < rows)
    (he : Encodes (tyB k name) x s) (hlen : s.length = fieldBytes c)
    (hop : op = .write name row x ∨ op = .assign name row x ∧ tyB k name ≠ ⟨.pair, true⟩ ∧
        ∃ y, HasCount c.1 (tyB k name) y ∧ Encodes (tyB k name) y (binaryField u.data rowLen cols row j c)) :
    Open F G tyA tyB (us.set k ⟨u.cards, overwrite u.data (row * rowLen + ((columnBytes cols).take j).sum) s⟩) (sessionStep (tyA := tyA) live (.binary k op)).1 ∧ Changed (sessionStep (tyA := tyA) live (.binary k op)).2 := by
  have hk : k < us.length := (List.getElem?_eq_some_iff.1 hu).1
  have hx := List.getElem?_eq_getElem (l := live) (i := k) (by rw [h.length]; exact hk)
  generalize live[k]'(by rw [h.length]; exact hk) = z at hx
  have hsh := h.shows k u z hu hx
  have hv := h.views k z hx
  obtain ⟨t, e, hd, g2⟩ := kept_binary hsh hh
  cases z with
  | binary t' v =>
    cases e
    obtain ⟨col, cell, m1, m2, m3, m4, m5⟩ := binary_column hh g2 hj hf hr
    have hser : binFamily.ser (tyB k name) x = s := (C87_encode _ _ _).2 he
    have eff : ((⟨t.cols, t.data, v⟩ : Obj binFamily).step op).1.data = t.data.set row ((t.data.getD row []).set j s) ∧
        ViewsOk (Φ := binFamily) t.cols (tyB k) ((⟨t.cols, t.data, v⟩ : Obj binFamily).step op).1.views ∧
        ((⟨t.cols, t.data, v⟩ : Obj binFamily).step op).2 = .done (.ok ()) := by
      rcases hop with rfl | ⟨rfl, hp, y, hy1, hy2⟩
      · obtain ⟨q1, q2, q3⟩ := update_cell (Φ := binFamily) (o := ⟨t.cols, t.data, v⟩) hv m1 row m4 x
        rw [m2, Nat.add_sub_cancel, hser] at q2
        exact ⟨q2, q3, congrArg VOut.done q1⟩
      · have hdec := C87_decode (tyB k name) hp y c.1 hy1 _ hy2
        rw [← m5] at hdec
        rw [← m3] at hdec
        obtain ⟨q1, q2, q3⟩ := assign_cell (Φ := binFamily) (o := ⟨t.cols, t.data, v⟩) hv m1 row m4 hdec x
        rw [m2, Nat.add_sub_cancel, hser] at q2
        exact ⟨q2, q3, congrArg VOut.done q1⟩
    have hol : (overwrite u.data (row * rowLen + ((columnBytes cols).take j).sum) s).length = rowLen * rows := by
      rw [overwrite_length, hd]
      have := field_inside (ws := columnBytes cols) (j := j) (w := fieldBytes c) (by unfold columnBytes; rw [List.getElem?_map, hj]; rfl) hr
      rw [← hh.width] at this
      omega
    have key := inBinary_edit h hx (fun o => o.step op) (fun o => step_cols o _) ⟨eff.1, eff.2.1⟩ (u := ⟨u.cards, overwrite u.data (row * rowLen + ((columnBytes cols).take j).sum) s⟩) (.binary _ rowLen rows cols hh hol (exactBinary_edit hh hd g2 hj hr hlen))
    refine ⟨key.1, ?_⟩
    have hc := key.2
    rw [eff.2.2] at hc
    simp only [sessionStep]
    rw [hc]
    exact .binary k
  | _ => cases e

theorem lossless_ascii {u : ForeignHdu} {y : Hdu} (hsh : Shows F u y) (hs : Lossless F u) {rowLen rows : Nat} {cols : List (Nat × Nat)} {j row : Nat} {c : Nat × Nat} {s f : Str}
    (hh : AsciiTableCards F u.cards rowLen rows 0 cols) (hj : cols[j]? = some c) (hr : row < rows) (hf : rightJustified c.2 s f) (hw : NoOuterWhite s) :
    Lossless F ⟨u.cards, overwrite u.data (row * rowLen + c.1 - 1) f⟩ := by
  obtain ⟨t, _, _, _, e, _⟩ := (shows_kind hsh hh.xtension).2 rfl
  have hd : u.data.length = rowLen * rows := by
    cases hsh with
    | ascii _ _ _ q1 q2 _ => obtain ⟨rfl, rfl, rfl⟩ := asciiCards_unique hh q1; exact q2
    | _ => cases e
  obtain ⟨t1, t2⟩ := hs.ascii _ _ _ hh
  have hfl : f.length = c.2 := hf.choose_spec.2.2
  refine ⟨hs.image, ?_, ?_, hs.other⟩
  · intro _ _ _ h
    obtain ⟨_, _, _, _, e', _⟩ := (shows_kind hsh h.xtension).1 rfl
    rw [e] at e'; cases e'
  · intro _ _ _ h
    obtain ⟨rfl, rfl, rfl⟩ := asciiCards_unique hh h
    refine ⟨t1, fun i c' hi => ⟨(t2 i c' hi).1, fun r hr' => ?_⟩⟩
    simp only
    rw [asciiField_edit t1 (fun j c hc => (t2 j c hc).1) hd hj hr hfl hi]
    split
    · rename_i hc
      obtain ⟨rfl, rfl⟩ := hc
      rw [hj] at hi; cases hi
      obtain ⟨p, hp1, hp2, hp3⟩ := hf
      exact ⟨s, ⟨p, [], by simp [hp1], fun c hc => by rw [hp2 c hc]; exact .inl rfl, by simp, hw.1, hw.2⟩, p, hp1, hp2, hp3⟩
    · exact (t2 i c' hi).2 r hr'

theorem step_ascii {us : List ForeignHdu} {live : List (Live F G)} (h : Open F G tyA tyB us live) {k : Nat} {u : ForeignHdu} {rowLen rows : Nat} {cols : List (Nat × Nat)}
    {name : Str} {j row : Nat} {c : Nat × Nat} {x : (tyA k name).El} {s f : Str} {op : VOp (asciiFamily F G) (tyA k)}
    (hu : us[k]? = some u) (hh : AsciiTableCards F u.cards rowLen rows 0 cols) (hj : cols[j]? = some c) (hf : FirstCalled u.cards name j) (hr : row < rows)
    (hser : asciiSer G (tyA k name) x = s) (hrj : rightJustified c.2 s f) (hw : NoOuterWhite s)
    (hop : op = .write name row x ∨ op = .assign name row x ∧ ∃ t y, IsTrim (asciiField u.data rowLen row c) t ∧ ∀ n, asciiDeser F (tyA k name) t n = .ok y) :
    Open F G tyA tyB (us.set k ⟨u.cards, overwrite u.data (row * rowLen + c.1 - 1) f⟩) (sessionStep (tyB := tyB) live (.ascii k op)).1 ∧ Changed (sessionStep (tyB := tyB) live (.ascii k op)).2 := by
  have hk : k < us.length := (List.getElem?_eq_some_iff.1 hu).1
  have hx := List.getElem?_eq_getElem (l := live) (i := k) (by rw [h.length]; exact hk)
  generalize live[k]'(by rw [h.length]; exact hk) = z at hx
  obtain ⟨hsh, hl⟩ := kept_ascii (h.shows k u z hu hx) hh
  have hnew := lossless_ascii hsh hl hh hj hr hrj hw
  have hv := h.views k z hx
  obtain ⟨t, _, _, _, e, g1, g2⟩ := (shows_kind hsh hh.xtension).2 rfl
  obtain ⟨rfl, rfl, rfl⟩ := asciiCards_unique hh g1
  have hd : u.data.length = rowLen * rows := by
    generalize z.hdu = y at e hsh
    cases hsh with
    | ascii _ _ _ q1 q2 _ => obtain ⟨rfl, rfl, rfl⟩ := asciiCards_unique hh q1; exact q2
    | _ => cases e
  obtain ⟨t1, t2⟩ := hl.ascii _ _ _ hh
  cases z with
  | ascii t' v =>
    cases e
    obtain ⟨col, cell, m1, m2, m4, m5⟩ := ascii_column hh g2 hj hf hr
    have hser' : (asciiFamily F G).ser (tyA k name) x = s := hser
    have eff : ((⟨t.cols, t.data, v⟩ : Obj (asciiFamily F G)).step op).1.data = t.data.set row ((t.data.getD row []).set j s) ∧
        ViewsOk (Φ := asciiFamily F G) t.cols (tyA k) ((⟨t.cols, t.data, v⟩ : Obj (asciiFamily F G)).step op).1.views ∧
        ((⟨t.cols, t.data, v⟩ : Obj (asciiFamily F G)).step op).2 = .done (.ok ()) := by
      rcases hop with rfl | ⟨rfl, tx, y, hy1, hy2⟩
      · obtain ⟨q1, q2, q3⟩ := update_cell (Φ := asciiFamily F G) (o := ⟨t.cols, t.data, v⟩) hv m1 row m4 x
        rw [m2, Nat.add_sub_cancel, hser'] at q2
        exact ⟨q2, q3, congrArg VOut.done q1⟩
      · obtain rfl := (isTrim_iff.1 hy1).symm.trans (isTrim_iff.1 m5)
        obtain ⟨q1, q2, q3⟩ := assign_cell (Φ := asciiFamily F G) (o := ⟨t.cols, t.data, v⟩) hv m1 row m4 (hy2 _) x
        rw [m2, Nat.add_sub_cancel, hser'] at q2
        exact ⟨q2, q3, congrArg VOut.done q1⟩
    have hol : (overwrite u.data (row * rowLen + c.1 - 1) f).length = rowLen * rows := by
      have hfl : f.length = c.2 := hrj.choose_spec.2.2
      rw [overwrite_length, hd]
      have := field_inside (ws := cols.map (·.2)) (j := j) (w := c.2) (by rw [List.getElem?_map, hj]; rfl) hr
      have e1 := (t2 j c hj).1
      rw [t1] at this
      omega
    have key := inAscii_edit h hx (fun o => o.step op) (fun o => step_cols o _) ⟨eff.1, eff.2.1⟩ (u := ⟨u.cards, overwrite u.data (row * rowLen + c.1 - 1) f⟩) (.other _ (.ascii rowLen rows cols hh hol (showsAscii_edit t1 (fun j c hc => (t2 j c hc).1) hd g2 hj hr hrj hw)) hnew (by intro t e; cases e))
    refine ⟨key.1, ?_⟩
    have hc := key.2
    rw [eff.2.2] at hc
    simp only [sessionStep]
    rw [hc]
    exact .ascii k
  | _ => cases e

/-- What is asked of the HDUs of the file. -/
structure SoundHdu (F : FloatText) (u : ForeignHdu) : Prop where
  supported : Supported F u
  cards : ¬ 36 ∣ u.cards.length
  data : ¬ 2880 ∣ u.data.length

theorem supported_data {u : ForeignHdu} (h : Supported F u) {d : Str} (hd : d.length = u.data.length) : Supported F ⟨u.cards, d⟩ := by
  cases h with
  | image b axes ext h1 h2 h3 => exact .image b axes ext h1 h2 (hd.trans h3)
  | binary a b c x h1 h2 h3 h4 h5 h6 => exact .binary a b c x h1 h2 h3 h4 (hd.trans h5) h6
  | ascii a b c x h1 h2 h3 h4 h5 => exact .ascii a b c x h1 h2 h3 h4 (hd.trans h5)
  | other kind b axes h1 h2 h3 h4 h5 => exact .other kind b axes h1 h2 h3 h4 (hd.trans h5)

theorem sound_binary {u : ForeignHdu} {y : Hdu} (hk : Kept F u y) (hs : SoundHdu F u) {rowLen rows : Nat} {cols : List (Nat × Byte)} {j row : Nat} {c : Nat × Byte} {s : Str}
    (hh : BinaryTableCards F u.cards rowLen rows 0 cols) (hj : cols[j]? = some c) (hr : row < rows) (hlen : s.length = fieldBytes c) :
    SoundHdu F ⟨u.cards, overwrite u.data (row * rowLen + ((columnBytes cols).take j).sum) s⟩ := by
  obtain ⟨_, _, hd, _⟩ := kept_binary hk hh
  have hol : (overwrite u.data (row * rowLen + ((columnBytes cols).take j).sum) s).length = u.data.length := by
    apply overwrite_length
    have := field_inside (ws := columnBytes cols) (j := j) (w := fieldBytes c) (by unfold columnBytes; rw [List.getElem?_map, hj]; rfl) hr
    rw [← hh.width] at this
    omega
  refine ⟨supported_data hs.supported hol, hs.cards, by simp only [hol]; exact hs.data⟩

theorem sound_ascii {u : ForeignHdu} {y : Hdu} (hk : Kept F u y) (hs : SoundHdu F u) {rowLen rows : Nat} {cols : List (Nat × Nat)} {j row : Nat} {c : Nat × Nat} {s f : Str}
    (hh : AsciiTableCards F u.cards rowLen rows 0 cols) (hj : cols[j]? = some c) (hr : row < rows) (hf : rightJustified c.2 s f) :
    SoundHdu F ⟨u.cards, overwrite u.data (row * rowLen + c.1 - 1) f⟩ := by
  obtain ⟨hsh, hl⟩ := kept_ascii hk hh
  obtain ⟨t, _, _, _, e, _⟩ := (shows_kind hsh hh.xtension).2 rfl
  have hd : u.data.length = rowLen * rows := by
    cases hsh with
    | ascii _ _ _ q1 q2 _ => obtain ⟨rfl, rfl, rfl⟩ := asciiCards_unique hh q1; exact q2
    | _ => cases e
  obtain ⟨t1, t2⟩ := hl.ascii _ _ _ hh
  have hfl : f.length = c.2 := hf.choose_spec.2.2
  have hol : (overwrite u.data (row * rowLen + c.1 - 1) f).length = u.data.length := by
    apply overwrite_length
    have := field_inside (ws := cols.map (·.2)) (j := j) (w := c.2) (by rw [List.getElem?_map, hj]; rfl) hr
    have e1 := (t2 j c hj).1
    rw [t1] at this
    omega
  refine ⟨supported_data hs.supported hol, hs.cards, by simp only [hol]; exact hs.data⟩

theorem sound_set {us : List ForeignHdu} (h : ∀ u ∈ us, SoundHdu F u) {k : Nat} {u : ForeignHdu} (hu : SoundHdu F u) : ∀ v ∈ us.set k u, SoundHdu F v := by
  intro v hv
  rcases List.mem_or_eq_of_mem_set hv with hv | rfl
  · exact h v hv
  · exact hu

theorem open_shows {us : List ForeignHdu} {live : List (Live F G)} (h : Open F G tyA tyB us live) {k : Nat} {u : ForeignHdu} (hu : us[k]? = some u) : ∃ y, Kept F u y := by
  have hk : k < us.length := (List.getElem?_eq_some_iff.1 hu).1
  exact ⟨_, h.shows k u _ hu (List.getElem?_eq_getElem (l := live) (i := k) (by rw [h.length]; exact hk))⟩

theorem run_edited {us vs : List ForeignHdu} {ops : List (SOp F G tyA tyB)} (he : EditedTo F G tyA tyB us ops vs) {live : List (Live F G)} (h : Open F G tyA tyB us live)
    (hs : ∀ u ∈ us, SoundHdu F u) : Open F G tyA tyB vs (sessionRun live ops).1 ∧ (∀ v ∈ vs, SoundHdu F v) ∧
      List.Forall₂ (fun op out => Looks op ∨ Changed out) ops (sessionRun live ops).2 := by
  induction he generalizing live with
  | done us => exact ⟨h, hs, .nil⟩
  | look ho _ ih =>
    obtain ⟨k1, k2, k3⟩ := ih (step_looks h ho) hs
    exact ⟨k1, k2, .cons (.inl ho) k3⟩
  | binary k u rowLen rows cols name j row c x s op h1 h2 h3 h4 h5 h6 h7 h9 _ ih =>
    have hu := hs u (List.mem_of_getElem? h1)
    obtain ⟨y, hy⟩ := open_shows h h1
    obtain ⟨g1, g2⟩ := step_binary h h1 h2 h3 h4 h5 h6 h7 h9
    obtain ⟨k1, k2, k3⟩ := ih g1 (sound_set hs (sound_binary hy hu h2 h3 h5 h7))
    exact ⟨k1, k2, .cons (.inr g2) k3⟩
  | ascii k u rowLen rows cols name j row c x s f op h1 h2 h3 h4 h5 h6 h7 h8 h9 _ ih =>
    have hu := hs u (List.mem_of_getElem? h1)
    obtain ⟨y, hy⟩ := open_shows h h1
    obtain ⟨g1, g2⟩ := step_ascii h h1 h2 h3 h4 h5 h6 h7 h8 h9
    obtain ⟨k1, k2, k3⟩ := ih g1 (sound_set hs (sound_ascii hy hu h2 h3 h5 h7))
    exact ⟨k1, k2, .cons (.inr g2) k3⟩

theorem open_fresh {us : List ForeignHdu} {xs : List Hdu} (h : List.Forall₂ (Shows F) us xs) (hl : ∀ u ∈ us, Lossless F u) : Open F G tyA tyB us (xs.map Live.ofHdu) := by
  refine ⟨by rw [List.length_map, h.length_eq], ?_, ?_⟩
  · intro k u x hu hx
    rw [List.getElem?_map] at hx
    obtain ⟨y, hy, rfl⟩ := Option.map_eq_some_iff.1 hx
    have : Kept F u y := kept_start (by
      obtain ⟨a1, rfl⟩ := List.getElem?_eq_some_iff.1 hu
      obtain ⟨a2, rfl⟩ := List.getElem?_eq_some_iff.1 hy
      exact List.Forall₂.get h a1 a2) (hl u (List.mem_of_getElem? hu))
    cases y <;> exact this
  · intro k x hx
    rw [List.getElem?_map] at hx
    obtain ⟨y, hy, rfl⟩ := Option.map_eq_some_iff.1 hx
    cases y with
    | binary t => exact viewsOk_none _
    | ascii t => exact viewsOk_none _
    | _ => trivial

theorem open_forall {us : List ForeignHdu} {live : List (Live F G)} (h : Open F G tyA tyB us live) : List.Forall₂ (Kept F) us (live.map Live.hdu) := by
  refine List.forall₂_iff_get.2 ⟨by rw [List.length_map, h.length], fun i h1 h2 => ?_⟩
  have h3 : i < live.length := by simpa using h2
  have := h.shows i _ _ (List.getElem?_eq_getElem h1) (List.getElem?_eq_getElem h3)
  simpa using this

/-- **C157** A file of another program, made of images of more than one byte to a pixel, binary tables without white space at the ends of fields and ASCII tables without gaps
whose fields are right-justified, is opened, values in its tables are replaced through columns, and it is saved.  All changes succeed; other programs find in the copy the same HDUs
with the same cards, and of the data only the bytes of the replaced values differ; the library itself can open the copy and shows the new values, without the white space at the
ends of those in binary tables. -/
theorem C157_saved (F : FloatText) (G : StreamText) (tyA : Nat → Str → AsciiTag) (tyB : Nat → Str → BinTag) (content : Str) (us vs : List ForeignHdu)
    (ops : List (SOp F G tyA tyB)) (h : Laid us content) (hs : ∀ u ∈ us, Supported F u)
    (h36 : ∀ u ∈ us, ¬ 36 ∣ u.cards.length) (hd : ∀ u ∈ us, ¬ 2880 ∣ u.data.length) (hl : ∀ u ∈ us, Lossless F u) (hb : content.length + 5760 < 2 ^ 63)
    (he : EditedTo F G tyA tyB us ops vs) :
    ∃ xs s, EndsIn (fun cards turns => readEntire F cards turns (openFile content)) (.opened xs) ∧ saveAll (sessionRun (xs.map Live.ofHdu) ops).1 = .ok s ∧
      List.Forall₂ (fun op out => Looks op ∨ Changed out) ops (sessionRun (xs.map Live.ofHdu) ops).2 ∧ (s.content.length + 2880 < 2 ^ 63 → Laid vs s.content) ∧
      (s.content.length + 5760 < 2 ^ 63 → ∃ ys, EndsIn (fun cards turns => readEntire F cards turns (openFile s.content)) (.opened ys) ∧ List.Forall₂ (Shows F) vs ys) := by
  obtain ⟨xs, h1, h2⟩ := C151_opened F content us h hs h36 (fun u hu => .inr (hd u (List.dropLast_subset _ hu))) hb
  obtain ⟨ho, hv, hr⟩ := run_edited he (open_fresh h2 hl) fun u hu => ⟨hs u hu, h36 u hu, hd u hu⟩
  obtain ⟨s, h3, h4⟩ := kept_saved (open_forall ho)
  have key : s.content.length + 2880 < 2 ^ 63 → Laid vs s.content := by
    intro hb'
    obtain ⟨texts, k2, k3⟩ := h4 hb'
    rw [k2]
    exact written_laid k3 (fun u hu => supported_cards80 (hv u hu).supported) fun u hu => ⟨(hv u hu).cards, (hv u hu).data⟩
  refine ⟨xs, s, h1, h3, hr, key, fun hb' => ?_⟩
  exact C151_opened F _ vs (key (by omega)) (fun v hv' => (hv v hv').supported) (fun v hv' => (hv v hv').cards)
    (fun u hu => .inr (hv u (List.dropLast_subset _ hu)).data) hb'

/-- The number of the second star is read and set to 32, whose last byte is a blank: other programs find the new number and else what was there. -/
example (F : FloatText) (G : StreamText) (tyA : Nat → Str → AsciiTag) (content : Str)
    (h : Laid [⟨exForeignCards, List.replicate 12 7⟩, ⟨exStars, b!"0001AB0002CD"⟩] content) (hb : content.length + 5760 < 2 ^ 63) :
    ∃ xs s, EndsIn (fun cards turns => readEntire F cards turns (openFile content)) (.opened xs) ∧
      saveAll (sessionRun (F := F) (G := G) (tyA := tyA) (tyB := fun _ _ => ⟨.int32, false⟩) (xs.map Live.ofHdu)
        [.binary 1 (.read b!"ID" 1), .binary 1 (.write b!"ID" 1 (32 : BitVec 32))]).1 = .ok s ∧
      (s.content.length + 2880 < 2 ^ 63 → Laid [⟨exForeignCards, List.replicate 12 7⟩, ⟨exStars, b!"0001AB" ++ [0, 0, 0, 32] ++ b!"CD"⟩] s.content) := by
  have f1 : FirstCalled exStars b!"ID" 0 := ⟨by decide, ⟨b!"1", isNat_iff.2 rfl, exStars_id⟩, fun i d hi => absurd hi (Nat.not_lt_zero i)⟩
  have two : ∀ {P : ForeignHdu → Prop}, P ⟨exForeignCards, List.replicate 12 7⟩ → P ⟨exStars, b!"0001AB0002CD"⟩ →
      ∀ u ∈ [(⟨exForeignCards, List.replicate 12 7⟩ : ForeignHdu), ⟨exStars, b!"0001AB0002CD"⟩], P u := by
    intro P h1 h2 u hu
    rcases List.mem_cons.1 hu with rfl | hu
    · exact h1
    · obtain rfl := List.mem_singleton.1 hu; exact h2
  have hi : Supported F ⟨exForeignCards, List.replicate 12 7⟩ :=
    .image .B16 [3, 2] true exForeign_image (exForeign_says 5 19 50 none rfl (by decide) (by decide) (by decide) (by decide) (by decide) (.inl rfl)) rfl
  obtain ⟨xs, s, h1, h2, _, h3, _⟩ := C157_saved F G tyA (fun _ _ => ⟨.int32, false⟩) content _ _ _ h (two hi (exStars_supported F _ rfl))
    (two (P := fun u => ¬ 36 ∣ u.cards.length) (by decide) (by decide)) (two (P := fun u => ¬ 2880 ∣ u.data.length) (by decide) (by decide))
    (two (exForeign_lossless F _) (exStars_lossless F)) hb
    (.look (.readBinary 1 b!"ID" 1) (.binary (tyB := fun _ _ => ⟨.int32, false⟩) 1 ⟨exStars, b!"0001AB0002CD"⟩ 6 2 _ b!"ID" 0 1 (1, 74) (32 : BitVec 32) [0, 0, 0, 32]
      (.write b!"ID" 1 (32 : BitVec 32)) rfl (exStars_binary F) rfl f1 (by decide) ((C87_encode ⟨.int32, false⟩ _ _).1 (by decide)) rfl (.inl rfl)
      (.done _)))
  exact ⟨xs, s, h1, h2, h3⟩

/-- The cards of an ASCII table with one column of integers. -/
def exNums : List Str :=
  [exCard b!"XTENSION= 'TABLE   '", exCard b!"BITPIX  = 8", exCard b!"NAXIS   = 2", exCard b!"NAXIS1  = 4", exCard b!"NAXIS2  = 2", exCard b!"PCOUNT  = 0",
   exCard b!"GCOUNT  = 1", exCard b!"TFIELDS = 1", exCard b!"TBCOL1  = 1", exCard b!"TFORM1  = 'I4      '", exCard b!"TTYPE1  = 'ID      '", exCard b!"EXTNAME = 'NUMS    '",
   exCard b!"END"]

theorem exNums_absent (k : Str) (h : ∀ r ∈ exNums, trim (r.take 8) ≠ k) : Absent exNums k := by
  intro r hr; rw [keywordIs_iff]; exact h r hr

theorem exNums_id : SaysString exNums b!"TTYPE1" b!"ID" :=
  ⟨6, exPlain 10 0 60 rfl (by decide) (by decide) (by decide), by unfold PlainText; decide, by decide, by decide, by decide, by decide⟩

theorem exNums_shape : ShapeCards exNums .B8 [4, 2] := by
  refine ⟨?_, ⟨exNums.dropLast, exCard b!"END", by decide, by unfold IsEnd; decide, ?_⟩, ?_, ⟨?_, by decide⟩, ?_⟩
  · intro r hr
    have h1 : r.length = 80 ∧ Card.ofRaw r = .ok ⟨r, none⟩ := by revert r; decide
    refine ⟨h1.1, Classical.byContradiction fun hn => ?_⟩
    rw [ofRaw_piece_bad h1.1 hn] at h1
    exact nomatch h1.2
  · intro r hr; revert r; unfold IsEnd; decide
  · exact ⟨8, ⟨b!"8", b!"8", exPlain 1 0 69 rfl (by decide) (by decide) (by decide), ⟨by decide, by decide⟩, .inl ⟨rfl, by decide⟩⟩, rfl⟩
  · exact ⟨b!"2", b!"2", exPlain 2 0 69 rfl (by decide) (by decide) (by decide), ⟨by decide, by decide⟩, .inl ⟨rfl, by decide⟩⟩
  · intro j a d ha hd
    obtain rfl := isNat_iff.1 hd
    match j, ha with
    | 0, ha =>
      cases ha
      exact ⟨⟨b!"4", b!"4", exPlain 3 0 69 rfl (by decide) (by decide) (by decide), ⟨by decide, by decide⟩, .inl ⟨rfl, by decide⟩⟩, by decide⟩
    | 1, ha =>
      cases ha
      exact ⟨⟨b!"2", b!"2", exPlain 4 0 69 rfl (by decide) (by decide) (by decide), ⟨by decide, by decide⟩, .inl ⟨rfl, by decide⟩⟩, by decide⟩
    | j + 2, ha => simp at ha

theorem exNums_ascii (F : FloatText) : AsciiTableCards F exNums 4 2 0 [(1, 4)] := by
  refine ⟨⟨exNums_shape, exNums_absent _ (by decide), ?_, ⟨?_, by decide⟩, ?_, ?_, by decide⟩, by decide, ?_⟩
  · exact ⟨3, exPlain 0 0 60 rfl (by decide) (by decide) (by decide), by unfold PlainText; decide, by decide, by decide, by decide, by decide⟩
  · exact ⟨b!"0", b!"0", exPlain 5 0 69 rfl (by decide) (by decide) (by decide), ⟨by decide, by decide⟩, .inl ⟨rfl, by decide⟩⟩
  · exact ⟨b!"1", b!"1", exPlain 6 0 69 rfl (by decide) (by decide) (by decide), ⟨by decide, by decide⟩, .inl ⟨rfl, by decide⟩⟩
  · exact ⟨b!"1", b!"1", exPlain 7 0 69 rfl (by decide) (by decide) (by decide), ⟨by decide, by decide⟩, .inl ⟨rfl, by decide⟩⟩
  · intro j c d hc hd
    obtain rfl := isNat_iff.1 hd
    match j, hc with
    | 0, hc =>
      cases hc
      exact ⟨⟨b!"I4", ⟨6, exPlain 9 0 60 rfl (by decide) (by decide) (by decide), by unfold PlainText; decide, by decide, by decide, by decide, by decide⟩,
          ⟨73, b!"4", [], by decide, ⟨by decide, by decide⟩, rfl, by decide, .inl rfl⟩⟩,
        ⟨b!"1", b!"1", exPlain 8 0 69 rfl (by decide) (by decide) (by decide), ⟨by decide, by decide⟩, .inl ⟨rfl, by decide⟩⟩,
        ⟨.inr ⟨_, exNums_id, exNums_absent _ (by decide)⟩, .inl (exNums_absent _ (by decide)), .inl (exNums_absent _ (by decide)), .inl (exNums_absent _ (by decide))⟩⟩
    | j + 1, hc => simp at hc

theorem exNums_names (F : FloatText) : TextNames F exNums := by
  intro d name h
  obtain ⟨i, raw, h1, h2, _⟩ := lookup_ok.1 h
  have hk : trim (raw.take 8) = b!"TTYPE" ++ d := by
    have := h1.2.1
    rw [(List.getElem?_eq_some_iff.1 h2).2] at this
    exact keywordIs_iff.1 this
  have hr : ∀ r ∈ exNums, b!"TTYPE" <+: trim (r.take 8) → trim (r.take 8) = b!"TTYPE1" := by decide
  have := hr raw (List.mem_of_getElem? h2) (by rw [hk]; exact List.prefix_append _ _)
  rw [hk] at this
  have hd : d = b!"1" := List.append_cancel_left (as := b!"TTYPE") this
  subst hd
  cases says_string_fun exNums_id (lookup_ok.1 h)
  unfold TextKey; decide

theorem exNums_supported (F : FloatText) (data : Str) (h : data.length = 8) : Supported F ⟨exNums, data⟩ :=
  .ascii 4 2 [(1, 4)] b!"NUMS" (exNums_ascii F) (by decide) (exNums_names F)
    ⟨4, exPlain (cards := exNums) 11 0 60 rfl (by decide) (by decide) (by decide), by unfold PlainText; decide, by decide, by decide, by decide, by decide⟩ h

theorem exTwo_blanks (x : Str) (h : x.head?.all (fun c => !isSpace c) ∧ x.getLast?.all (fun c => !isSpace c)) : IsTrim (b!"  " ++ x) x :=
  ⟨b!"  ", [], by simp, by intro c hc; exact .inl (by revert c; decide), by simp, (noOuter_of x h).1, (noOuter_of x h).2⟩

theorem exNums_lossless (F : FloatText) : Lossless F ⟨exNums, b!"  12  -7"⟩ where
  image b axes h := by
    obtain ⟨_, _, _, _, g, _⟩ := h.simple
    exact absurd (exNums_absent _ (by decide)) (lastWith_not_absent g)
  binary _ _ _ h := absurd (says_string_fun h.xtension (says_string (F := F) (exNums_ascii F).xtension)) (by decide)
  ascii _ _ _ h := by
    obtain ⟨rfl, rfl, rfl⟩ := asciiCards_unique (exNums_ascii F) h
    refine ⟨by decide, fun j c hj => ?_⟩
    match j, hj with
    | 0, hj =>
      cases hj
      refine ⟨by decide, fun r hr => ?_⟩
      match r, hr with
      | 0, _ => exact ⟨b!"12", exTwo_blanks b!"12" (by decide), b!"  ", by decide, by decide, by decide⟩
      | 1, _ => exact ⟨b!"-7", exTwo_blanks b!"-7" (by decide), b!"  ", by decide, by decide, by decide⟩
    | j + 1, hj => simp at hj
  other kind h := .inl (says_string_fun h (says_string (F := F) (exNums_ascii F).xtension)).symm

/-- In an ASCII table the second number is replaced by `column[1] = 345`, then the first by 6: each new number stands right-justified in its field. -/
example (F : FloatText) (G : StreamText) (tyB : Nat → Str → BinTag) (content : Str)
    (h : Laid [⟨exForeignCards, List.replicate 12 7⟩, ⟨exNums, b!"  12  -7"⟩] content) (hb : content.length + 5760 < 2 ^ 63) :
    ∃ xs s, EndsIn (fun cards turns => readEntire F cards turns (openFile content)) (.opened xs) ∧
      saveAll (sessionRun (F := F) (G := G) (tyA := fun _ _ => .longlong) (tyB := tyB) (xs.map Live.ofHdu)
        [.ascii 1 (.assign b!"ID" 1 (345 : BitVec 64)), .ascii 1 (.write b!"ID" 0 (6 : BitVec 64))]).1 = .ok s ∧
      (s.content.length + 2880 < 2 ^ 63 → Laid [⟨exForeignCards, List.replicate 12 7⟩, ⟨exNums, b!"   6 345"⟩] s.content) := by
  have f1 : FirstCalled exNums b!"ID" 0 := ⟨by decide, ⟨b!"1", isNat_iff.2 rfl, exNums_id⟩, fun i d hi => absurd hi (Nat.not_lt_zero i)⟩
  have hi : Supported F ⟨exForeignCards, List.replicate 12 7⟩ :=
    .image .B16 [3, 2] true exForeign_image (exForeign_says 5 19 50 none rfl (by decide) (by decide) (by decide) (by decide) (by decide) (.inl rfl)) rfl
  obtain ⟨xs, s, h1, h2, _, h3, _⟩ := C157_saved F G (fun _ _ => .longlong) tyB content _ _ _ h (exTwo_only hi (exNums_supported F _ rfl))
    (exTwo_only (P := fun u => ¬ 36 ∣ u.cards.length) (by decide) (by decide)) (exTwo_only (P := fun u => ¬ 2880 ∣ u.data.length) (by decide) (by decide))
    (exTwo_only (exForeign_lossless F _) (exNums_lossless F)) hb
    (.ascii (tyA := fun _ _ => .longlong) 1 ⟨exNums, b!"  12  -7"⟩ 4 2 _ b!"ID" 0 1 (1, 4) (345 : BitVec 64) b!"345" b!" 345"
      (.assign b!"ID" 1 (345 : BitVec 64)) rfl (exNums_ascii F) rfl f1 (by decide) rfl ⟨b!" ", by decide, by decide, by decide⟩ (noOuter_of _ (by decide))
      (.inr ⟨rfl, b!"-7", (-7 : BitVec 64), exTwo_blanks b!"-7" (by decide), fun n => by rfl⟩)
      (.ascii (tyA := fun _ _ => .longlong) 1 ⟨exNums, b!"  12 345"⟩ 4 2 _ b!"ID" 0 0 (1, 4) (6 : BitVec 64) b!"6" b!"   6"
        (.write b!"ID" 0 (6 : BitVec 64)) rfl (exNums_ascii F) rfl f1 (by decide) rfl ⟨b!"   ", by decide, by decide, by decide⟩ (noOuter_of _ (by decide)) (.inl rfl)
        (.done _)))
  exact ⟨xs, s, h1, h2, h3⟩

end Astro
