import Verif.Lemmas.FitsWrite
import Verif.Props.Fits

/-
Properties C35 and C31: writing a file, and reading it back.
-/

namespace Astro

open Spec Header Reader

/-! ## C35 -/

theorem foldlM_cons {s : Stream} {x : Hdu} {xs : List Hdu} : (x :: xs).foldlM Hdu.writeTo s = (do let s' ← Hdu.writeTo s x; xs.foldlM Hdu.writeTo s') := by
  rw [List.foldlM_cons]

/-- The state after writing one HDU. -/
theorem writeTo_atEnd {s s' : Stream} {x : Hdu} (h : AtEnd s) (e : Hdu.writeTo s x = .ok s') : AtEnd s' ∧ ∃ t, s'.content = s.content ++ t ∧
    (s'.content.length + 2880 < 2 ^ 63 → 2880 ∣ s.content.length → HduText x t ∧ 2880 ∣ s'.content.length) := by
  rw [Hdu.writeTo_eq h] at e
  cases hp : x.payload with
  | none =>
    rw [hp] at e
    cases e
    refine ⟨h, [], by simp, fun _ hd => ⟨?_, hd⟩⟩
    cases x with
    | blank => rfl
    | _ => cases hp
  | some cd =>
    obtain ⟨cards, d⟩ := cd
    cases d with
    | error e' => rw [hp] at e; cases e
    | ok d =>
      rw [hp] at e
      cases e
      obtain ⟨h1, k1, k2, h2, h3⟩ := hduStream_atEnd h cards d
      refine ⟨h1, cards.flatten ++ List.replicate k1 32 ++ (d ++ List.replicate k2 32), by rw [h2]; simp only [List.append_assoc], ?_⟩
      intro hb hd
      obtain ⟨b1, b2, b3, b4, b5, b6⟩ := h3 hb
      have hh := payload_holds hp
      constructor
      · have : ∃ cs data u1 u2, Holds x cs data ∧ Filled cs.flatten u1 ∧ Filled data u2 ∧
            cards.flatten ++ List.replicate k1 32 ++ (d ++ List.replicate k2 32) = u1 ++ u2 := by
          refine ⟨cards, d, cards.flatten ++ List.replicate k1 32, d ++ List.replicate k2 32, hh, ⟨k1, rfl, b1, b2, ?_⟩, ⟨k2, rfl, b4, b5, ?_⟩, ?_⟩
          · rw [List.length_append, List.length_replicate]; omega
          · rw [List.length_append, List.length_replicate]; omega
          · rfl
        cases x with
        | blank => cases hp
        | _ => exact this
      · rw [h2]
        simp only [List.length_append, List.length_replicate]; omega

/-- Writing several HDUs only appends. -/
theorem foldlM_atEnd : ∀ (xs : List Hdu) {s s' : Stream}, AtEnd s → xs.foldlM Hdu.writeTo s = .ok s' →
    AtEnd s' ∧ ∃ t, s'.content = s.content ++ t := by
  intro xs
  induction xs with
  | nil => intro s s' h e; cases e; exact ⟨h, [], by simp⟩
  | cons x xs ih =>
    intro s s' h e
    rw [foldlM_cons] at e
    obtain ⟨s1, e1, e2⟩ := bind_ok e
    obtain ⟨h1, t1, c1, _⟩ := writeTo_atEnd h e1
    obtain ⟨h2, t2, c2⟩ := ih h1 e2
    exact ⟨h2, t1 ++ t2, by rw [c2, c1, List.append_assoc]⟩

theorem foldlM_texts : ∀ (xs : List Hdu) {s s' : Stream}, AtEnd s → 2880 ∣ s.content.length → xs.foldlM Hdu.writeTo s = .ok s' →
    s'.content.length + 2880 < 2 ^ 63 → ∃ texts : List Str, s'.content = s.content ++ texts.flatten ∧ List.Forall₂ HduText xs texts := by
  intro xs
  induction xs with
  | nil => intro s s' h _ e _; cases e; exact ⟨[], by simp, .nil⟩
  | cons x xs ih =>
    intro s s' h hd e hb
    rw [foldlM_cons] at e
    obtain ⟨s1, e1, e2⟩ := bind_ok e
    obtain ⟨h1, t1, c1, g1⟩ := writeTo_atEnd h e1
    obtain ⟨h2, t2, c2⟩ := foldlM_atEnd xs h1 e2
    have hlen : s1.content.length ≤ s'.content.length := by rw [c2, List.length_append]; omega
    obtain ⟨g2, g3⟩ := g1 (by omega) hd
    obtain ⟨texts, c3, c4⟩ := ih h1 g3 e2 hb
    exact ⟨t1 :: texts, by rw [c3, c1]; simp [List.append_assoc], .cons g2 c4⟩

/-- **C35** The written file is the HDUs in the order of the list, each as its cards and its data filled up to whole blocks; HDUs of unknown kind
contribute nothing. -/
theorem C35_written (hdus : List Hdu) (s : Stream) (e : writeAll hdus = .ok s) (hb : s.content.length + 2880 < 2 ^ 63) :
    ∃ texts : List Str, s.content = texts.flatten ∧ List.Forall₂ HduText hdus texts := by
  obtain ⟨texts, h1, h2⟩ := foldlM_texts hdus create_atEnd ⟨0, rfl⟩ e hb
  exact ⟨texts, by rw [h1]; rfl, h2⟩

/-- **C35** The HDUs of unknown kind make no difference to the file. -/
theorem C35_dropped (hdus : List Hdu) : writeAll hdus = writeAll (hdus.filter fun h => match h with | .blank => false | _ => true) := by
  unfold writeAll
  generalize Stream.create = s
  induction hdus generalizing s with
  | nil => rfl
  | cons x xs ih =>
    rw [foldlM_cons]
    cases x with
    | blank =>
      rw [List.filter_cons_of_neg (by simp), ← ih]
      rfl
    | _ =>
      rw [List.filter_cons_of_pos (by simp), foldlM_cons]
      congr 1
      funext s'
      exact ih s'

/-- **C35** Writing fails exactly if a cell of an ASCII table has no column (with a readable width) to go to or is longer than its column. -/
theorem C35_fails_iff (hdus : List Hdu) : (∃ e, writeAll hdus = .error e) ↔
    ∃ (t : Table) (row : List Str) (j : Nat) (x : Str), Hdu.ascii t ∈ hdus ∧ row ∈ t.data ∧ row[j]? = some x ∧
      ∀ (c : Column) (w : Nat), t.cols[j]? = some c → AsciiWidth c.format w → w < x.length := by
  have hrow : ∀ (cols : List Column) (row : List Str) (i : Nat), (∃ e, Ascii.rowBytes cols row i = .error e) ↔
      ∃ (j : Nat) (x : Str), row[j]? = some x ∧ ∀ (c : Column) (w : Nat), cols[i + j]? = some c → AsciiWidth c.format w → w < x.length := by
    intro cols row
    induction row with
    | nil => intro i; constructor
             · rintro ⟨e, h⟩; cases h
             · rintro ⟨j, x, h, _⟩; simp at h
    | cons s row ih =>
      intro i
      have hstep : (∃ (j : Nat) (x : Str), (s :: row)[j]? = some x ∧ ∀ (c : Column) (w : Nat), cols[i + j]? = some c → AsciiWidth c.format w → w < x.length)
          ↔ (∀ (c : Column) (w : Nat), cols[i]? = some c → AsciiWidth c.format w → w < s.length) ∨
            ∃ (j : Nat) (x : Str), row[j]? = some x ∧ ∀ (c : Column) (w : Nat), cols[i + 1 + j]? = some c → AsciiWidth c.format w → w < x.length := by
        constructor
        · rintro ⟨j, x, h1, h2⟩
          cases j with
          | zero => simp only [List.getElem?_cons_zero, Option.some.injEq] at h1; subst h1; exact .inl h2
          | succ j => exact .inr ⟨j, x, by simpa using h1, fun c w hc => h2 c w (by rw [← hc]; congr 1; omega)⟩
        · rintro (h | ⟨j, x, h1, h2⟩)
          · exact ⟨0, s, rfl, h⟩
          · exact ⟨j + 1, x, by simpa using h1, fun c w hc => h2 c w (by rw [← hc]; congr 1; omega)⟩
      rw [hstep, ← ih (i + 1)]
      conv => lhs; unfold Ascii.rowBytes
      cases hc : cols[i]? with
      | none =>
        simp only [reduceCtorEq, false_implies, implies_true, true_or, iff_true]
        exact ⟨_, rfl⟩
      | some c =>
        simp only
        cases hw : Ascii.columnSize c.format with
        | error e =>
          refine ⟨fun _ => .inl ?_, fun _ => ⟨e, rfl⟩⟩
          intro c' w hc' hw'
          cases hc'
          rw [ascii_columnSize_iff.2 hw'] at hw
          cases hw
        | ok w =>
          have hlt : (∀ (c' : Column) (w' : Nat), some c = some c' → AsciiWidth c'.format w' → w' < s.length) ↔ w < s.length := by
            constructor
            · intro h; exact h c w rfl (ascii_columnSize_iff.1 hw)
            · intro h c' w' hc' hw'
              cases hc'
              have := ascii_columnSize_iff.2 hw'
              rw [hw] at this
              cases this
              exact h
          rw [hlt]
          simp only [bind, Except.bind, pure, Except.pure]
          unfold padCount
          by_cases hl : w < s.length
          · rw [if_neg (by omega)]
            exact ⟨fun _ => .inl hl, fun _ => ⟨_, rfl⟩⟩
          · rw [if_pos (by omega)]
            simp only
            cases hr : Ascii.rowBytes cols row (i + 1) with
            | error e => exact ⟨fun _ => .inr ⟨e, rfl⟩, fun _ => ⟨e, rfl⟩⟩
            | ok r =>
              constructor
              · rintro ⟨e, h⟩; cases h
              · rintro (h | ⟨e, h⟩)
                · exact absurd h hl
                · cases h
  have htab : ∀ t : Table, (∃ e, Ascii.rowTexts t = .error e) ↔ ∃ (row : List Str) (j : Nat) (x : Str), row ∈ t.data ∧ row[j]? = some x ∧
      ∀ (c : Column) (w : Nat), t.cols[j]? = some c → AsciiWidth c.format w → w < x.length := by
    intro t
    unfold Ascii.rowTexts
    have hm : ∀ rows : List (List Str), (∃ e, rows.mapM (fun r => Ascii.rowBytes t.cols r 0) = .error e) ↔
        ∃ row ∈ rows, ∃ e, Ascii.rowBytes t.cols row 0 = .error e := by
      intro rows
      induction rows with
      | nil =>
        constructor
        · rintro ⟨e, h⟩; cases h
        · rintro ⟨row, h, _⟩; simp at h
      | cons r rows ih =>
        rw [List.mapM_cons]
        simp only [List.mem_cons, exists_eq_or_imp, ← ih, bind, Except.bind, pure, Except.pure]
        cases Ascii.rowBytes t.cols r 0 with
        | error e => simp
        | ok v =>
          cases List.mapM (fun r => Ascii.rowBytes t.cols r 0) rows with
          | error e => simp
          | ok vs => simp
    rw [hm]
    constructor
    · rintro ⟨row, h1, h2⟩
      obtain ⟨j, x, h3, h4⟩ := (hrow t.cols row 0).1 h2
      exact ⟨row, j, x, h1, h3, fun c w hc => h4 c w (by rw [Nat.zero_add]; exact hc)⟩
    · rintro ⟨row, j, x, h1, h3, h4⟩
      exact ⟨row, h1, (hrow t.cols row 0).2 ⟨j, x, h3, fun c w hc => h4 c w (by rw [Nat.zero_add] at hc; exact hc)⟩⟩
  have hlist : ∀ (xs : List Hdu) (s : Stream), (∃ e, xs.foldlM Hdu.writeTo s = .error e) ↔ ∃ t, Hdu.ascii t ∈ xs ∧ ∃ e, Ascii.rowTexts t = .error e := by
    intro xs
    induction xs with
    | nil =>
      intro s
      constructor
      · rintro ⟨e, h⟩; cases h
      · rintro ⟨t, h, _⟩; simp at h
    | cons x xs ih =>
      intro s
      rw [foldlM_cons]
      cases x with
      | ascii t =>
        simp only [List.mem_cons, Hdu.ascii.injEq, bind, Except.bind, Hdu.writeTo, Ascii.writeTo, pure, Except.pure, or_and_right,
          exists_or, exists_eq_left]
        cases hr : Ascii.rowTexts t with
        | error e => simp
        | ok rows =>
          simp only [ih, reduceCtorEq, exists_false, false_or]
      | _ =>
        simp only [List.mem_cons, reduceCtorEq, false_or, bind, Except.bind, Hdu.writeTo]
        exact ih _
  unfold writeAll
  rw [hlist]
  constructor
  · rintro ⟨t, h1, h2⟩
    obtain ⟨row, j, x, h⟩ := (htab t).1 h2
    exact ⟨t, row, j, x, h1, h⟩
  · rintro ⟨t, row, j, x, h1, h⟩
    exact ⟨t, h1, (htab t).2 ⟨row, j, x, h⟩⟩

/-- A table with one cell of two bytes in a column of four, and the same table with a column of one byte. -/
example : let t (w : Str) : Hdu := .ascii ⟨Header.empty, 1, 0, [], 1, [⟨1, b!"N", 1, w, [], none, none, [], [], [], 0⟩], [[b!"ab"]]⟩
    (match writeAll [.blank, t b!"A4"] with
      | .ok s => decide (s.content.length = 5760 ∧ (s.content.drop 2880).take 6 = b!"  ab  ")
      | _ => false) = true ∧
    (match writeAll [.blank, t b!"A1"] with | .error .lengthError => true | _ => false) = true := by
  decide +kernel

end Astro
