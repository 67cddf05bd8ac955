import Verif.Lemmas.TableData

/-
Properties C37 - C39, C41 and C43: the data of tables.
-/

namespace Astro

open Spec Bin

/-! ## C37 -/

/-- **C37** A table whose cells fit their columns is written as rows in which every cell is right-justified in its column; every row has
as many bytes as the columns together. -/
theorem C37_rows (t : Table) (ws : List Nat) (hw : Widths AsciiWidth (t.cols.map (·.format)) ws)
    (hrow : ∀ row ∈ t.data, row.length = t.cols.length ∧
      ∀ (j : Nat) (s : Str) (w : Nat), row[j]? = some s → ws[j]? = some w → s.length ≤ w) :
    ∃ rows, Ascii.rowTexts t = .ok rows ∧ rows.length = t.data.length ∧
      ∀ (r : Nat) (text : Str) (row : List Str), rows[r]? = some text → t.data[r]? = some row →
        text.length = ws.sum ∧
        ∀ (j w : Nat) (s : Str), ws[j]? = some w → row[j]? = some s → ∃ field, Field text (fieldStart ws j) w field ∧ rightJustified w s field := by
  have hlen : ws.length = t.cols.length := by rw [widths_length hw, List.length_map]
  refine ⟨t.data.map fun row => (List.zipWith padded ws row).flatten, ?_, by simp, ?_⟩
  · unfold Ascii.rowTexts
    rw [mapM_ok_iff]
    refine ⟨by simp, ?_⟩
    intro i h1 h2
    obtain ⟨k1, k2⟩ := hrow _ (List.getElem_mem h1)
    rw [rowBytes_ok t.cols _ 0 ws (by simpa using hw) (by omega) k2]
    simp
  · intro r text row h1 h2
    rw [List.getElem?_map, h2] at h1
    cases h1
    obtain ⟨k1, k2⟩ := hrow row (List.mem_of_getElem? h2)
    have hl := zipWith_lengths ws row (by omega) k2
    refine ⟨?_, ?_⟩
    · rw [List.length_flatten, hl]
    · intro j w s hj hs
      have hz : (List.zipWith padded ws row)[j]? = some (padded w s) := by
        rw [List.getElem?_zipWith, hj, hs]
      have := field_flatten _ j _ [] [] hz
      rw [hl, padded_length (k2 j s w hs hj)] at this
      refine ⟨padded w s, by simpa using this, spaces (w - s.length), rfl, ?_, padded_length (k2 j s w hs hj)⟩
      intro c hc
      exact List.eq_of_mem_replicate hc

/-- **C37** If the columns follow each other from byte 1 on, without gaps, parsing the written rows (whatever follows them) gives the same cells, white
space around them removed. -/
theorem C37_round_trip (t : Table) (ws : List Nat) (hw : Widths AsciiWidth (t.cols.map (·.format)) ws) (hne : t.cols ≠ [])
    (hpos : ∀ w ∈ ws, 0 < w) (hstart : ∀ (j : Nat) (c : Column), t.cols[j]? = some c → c.start = fieldStart ws j + 1)
    (hrow : ∀ row ∈ t.data, row.length = t.cols.length ∧
      ∀ (j : Nat) (s : Str) (w : Nat), row[j]? = some s → ws[j]? = some w → s.length ≤ w)
    (hsize : t.data.length * ws.sum < 2 ^ 64) (rest : Str) :
    ∃ rows, Ascii.rowTexts t = .ok rows ∧ rows.flatten.length = t.data.length * ws.sum ∧
      ∃ d, Ascii.tableData (rows.flatten ++ rest) ws.sum t.data.length t.cols = .ok d ∧ d.length = t.data.length ∧
        ∀ (r : Nat) (row row' : List Str), t.data[r]? = some row → d[r]? = some row' → row'.length = row.length ∧
          ∀ (j : Nat) (s s' : Str), row[j]? = some s → row'[j]? = some s' → IsTrim s s' := by
  have hlen : ws.length = t.cols.length := by rw [widths_length hw, List.length_map]
  obtain ⟨rows, h1, h2, h3⟩ := C37_rows t ws hw hrow
  have hall : rows.map List.length = List.replicate t.data.length ws.sum := by
    apply List.ext_getElem?
    intro r
    rw [List.getElem?_map]
    rcases Nat.lt_or_ge r t.data.length with hr | hr
    · have hr' : r < rows.length := by omega
      rw [List.getElem?_eq_getElem hr', List.getElem?_replicate_of_lt hr]
      simp only [Option.map_some, Option.some.injEq]
      exact (h3 r _ _ (List.getElem?_eq_getElem hr') (List.getElem?_eq_getElem hr)).1
    · rw [List.getElem?_eq_none (by omega), List.getElem?_eq_none (by simpa using hr)]; rfl
  have hflat : rows.flatten.length = t.data.length * ws.sum := by
    rw [List.length_flatten, hall, List.sum_replicate_nat]
  refine ⟨rows, h1, hflat, t.data.map (fun row => row.map trim), ?_, by simp, ?_⟩
  · rw [C36_table]
    refine ⟨Or.inl hne, by simp, ?_⟩
    intro r row' hr
    rw [List.getElem?_map] at hr
    cases hd : t.data[r]? with
    | none => rw [hd] at hr; cases hr
    | some row =>
      rw [hd] at hr
      cases hr
      obtain ⟨k1, k2⟩ := hrow row (List.mem_of_getElem? hd)
      refine ⟨by rw [List.length_map, k1], ?_⟩
      intro j c s' hc hs
      rw [List.getElem?_map] at hs
      cases hs0 : row[j]? with
      | none => rw [hs0] at hs; cases hs
      | some s =>
        rw [hs0] at hs
        cases hs
        have hrlt : r < t.data.length := (List.getElem?_eq_some_iff.1 hd).1
        have hjlt : j < ws.length := by rw [hlen]; exact (List.getElem?_eq_some_iff.1 hc).1
        have hwj : ws[j]? = some ws[j] := List.getElem?_eq_getElem hjlt
        have hrt : rows[r]? = some rows[r] := List.getElem?_eq_getElem (by omega)
        obtain ⟨g1, g2⟩ := h3 r rows[r] row hrt hd
        obtain ⟨field, g3, g4⟩ := g2 j ws[j] s hwj hs0
        have hw0 : 0 < ws[j] := hpos _ (List.getElem_mem hjlt)
        have hfs := fieldStart_le ws j _ hwj
        have hmul : r * ws.sum + ws.sum ≤ t.data.length * ws.sum := by
          have := Nat.mul_le_mul_right ws.sum hrlt
          rwa [Nat.succ_mul] at this
        have hmod : r * ws.sum % 2 ^ 64 = r * ws.sum := Nat.mod_eq_of_lt (by omega)
        have hst := hstart j c hc
        rw [C36_cell]
        refine ⟨ws[j], field, widths_get hw j _ _ (by rw [List.getElem?_map, hc]; rfl) hwj, by omega, ?_, ?_, ?_⟩
        · rw [hmod, hst, List.length_append, hflat]; omega
        · have hrowf := field_flatten rows r _ [] rest hrt
          rw [hall, g1] at hrowf
          have hfsr : fieldStart (List.replicate t.data.length ws.sum) r = r * ws.sum := by
            unfold fieldStart
            rw [List.take_replicate, List.sum_replicate_nat, Nat.min_eq_left (by omega)]
          rw [hfsr] at hrowf
          simp only [List.nil_append, List.length_nil, Nat.zero_add] at hrowf
          obtain ⟨a, b, e1, e2, _⟩ := hrowf
          obtain ⟨a', b', e3, e4, e5⟩ := g3
          refine ⟨a ++ a', b' ++ b, by rw [e1]; conv => lhs; rw [e3]
                                       simp only [List.append_assoc], ?_, e5⟩
          rw [List.length_append, e2, e4, hmod, hst]; omega
        · obtain ⟨p, rfl, hp, _⟩ := g4
          rw [isTrim_iff]
          have : p = spaces p.length := List.eq_replicate_iff.2 ⟨rfl, hp⟩
          rw [this, trim_spaces_left]
  · intro r row row' hr hr'
    rw [List.getElem?_map, hr] at hr'
    cases hr'
    refine ⟨by simp, ?_⟩
    intro j s s' hs hs'
    rw [List.getElem?_map, hs] at hs'
    cases hs'
    exact isTrim_iff.2 rfl

/-- **C37** Cells without white space around them come back unchanged. -/
theorem C37_same_cells (t : Table) (ws : List Nat) (hw : Widths AsciiWidth (t.cols.map (·.format)) ws) (hne : t.cols ≠ [])
    (hpos : ∀ w ∈ ws, 0 < w) (hstart : ∀ (j : Nat) (c : Column), t.cols[j]? = some c → c.start = fieldStart ws j + 1)
    (hrow : ∀ row ∈ t.data, row.length = t.cols.length ∧
      ∀ (j : Nat) (s : Str) (w : Nat), row[j]? = some s → ws[j]? = some w → s.length ≤ w)
    (hsize : t.data.length * ws.sum < 2 ^ 64) (rest : Str) (hclean : ∀ row ∈ t.data, ∀ s ∈ row, NoOuterWhite s) :
    ∃ rows, Ascii.rowTexts t = .ok rows ∧ Ascii.tableData (rows.flatten ++ rest) ws.sum t.data.length t.cols = .ok t.data := by
  obtain ⟨rows, h1, _, d, h2, h3, h4⟩ := C37_round_trip t ws hw hne hpos hstart hrow hsize rest
  refine ⟨rows, h1, ?_⟩
  rw [h2]
  congr 1
  apply List.ext_getElem?
  intro r
  rcases Nat.lt_or_ge r t.data.length with hr | hr
  · have e1 := List.getElem?_eq_getElem hr
    have e2 := List.getElem?_eq_getElem (h3.symm ▸ hr : r < d.length)
    obtain ⟨k1, k2⟩ := h4 r _ _ e1 e2
    rw [e1, e2]
    congr 1
    apply List.ext_getElem?
    intro j
    rcases Nat.lt_or_ge j t.data[r].length with hj | hj
    · have f1 := List.getElem?_eq_getElem hj
      have f2 := List.getElem?_eq_getElem (k1.symm ▸ hj)
      rw [f1, f2]
      congr 1
      have := isTrim_iff.1 (k2 j _ _ f1 f2)
      rw [← this]
      exact trim_eq_iff.2 (hclean _ (List.getElem_mem hr) _ (List.getElem_mem hj))
    · rw [List.getElem?_eq_none hj, List.getElem?_eq_none (by omega)]
  · rw [List.getElem?_eq_none hr, List.getElem?_eq_none (by omega)]

/-- **C37** Writing fails, with the length error, exactly when some cell is longer than its column. -/
theorem C37_too_long (t : Table) (ws : List Nat) (hw : Widths AsciiWidth (t.cols.map (·.format)) ws)
    (hlen : ∀ row ∈ t.data, row.length = t.cols.length) :
    Ascii.rowTexts t = .error .lengthError ↔
      ∃ row ∈ t.data, ∃ (j : Nat) (s : Str) (w : Nat), row[j]? = some s ∧ ws[j]? = some w ∧ w < s.length := by
  have hl : ws.length = t.cols.length := by rw [widths_length hw, List.length_map]
  have key : ∀ row ∈ t.data, (∃ x, Ascii.rowBytes t.cols row 0 = .ok x) ∨
      (Ascii.rowBytes t.cols row 0 = .error .lengthError ∧ ∃ (j : Nat) (s : Str) (w : Nat), row[j]? = some s ∧ ws[j]? = some w ∧ w < s.length) := by
    intro row hr
    by_cases hj : ∃ (j : Nat) (s : Str) (w : Nat), row[j]? = some s ∧ ws[j]? = some w ∧ w < s.length
    · exact Or.inr ⟨rowBytes_too_long t.cols row 0 ws (by simpa using hw) (by rw [hlen row hr, hl]) hj, hj⟩
    · refine Or.inl ⟨_, rowBytes_ok t.cols row 0 ws (by simpa using hw) (by rw [hlen row hr, hl]) ?_⟩
      intro j s w h1 h2
      refine Classical.byContradiction fun hn => hj ⟨j, s, w, h1, h2, by omega⟩
  constructor
  · intro h
    refine Classical.byContradiction fun hn => ?_
    obtain ⟨rows, h1, _⟩ := C37_rows t ws hw fun row hr => ⟨hlen row hr, fun j s w h1 h2 => by
      refine Classical.byContradiction fun hlt => hn ⟨row, hr, j, s, w, h1, h2, by omega⟩⟩
    rw [h1] at h; cases h
  · rintro ⟨row, hr, j, s, w, h1, h2, h3⟩
    have hbad := rowBytes_too_long t.cols row 0 ws (by simpa using hw) (by rw [hlen row hr, hl]) ⟨j, s, w, h1, h2, h3⟩
    unfold Ascii.rowTexts
    have : ∀ l : List (List Str), (∀ x ∈ l, x ∈ t.data) → row ∈ l → l.mapM (fun r => Ascii.rowBytes t.cols r 0) = .error .lengthError := by
      intro l
      induction l with
      | nil => intro _ h; cases h
      | cons x l ih =>
        intro hsub hmem
        rw [List.mapM_cons]
        rcases key x (hsub x List.mem_cons_self) with ⟨y, hy⟩ | ⟨hy, _⟩
        · rw [hy]
          simp only [bind, Except.bind]
          rcases List.mem_cons.1 hmem with rfl | hmem
          · rw [hbad] at hy; cases hy
          · rw [ih (fun z hz => hsub z (List.mem_cons_of_mem _ hz)) hmem]
        · rw [hy]; rfl
    exact this t.data (fun _ h => h) hr

/-- **C37** The positions of the columns play no part in writing: with gaps (columns together shorter than the row) the rows that are written are too short
for the declared row length. -/
theorem C37_gaps_lost (t : Table) (ws : List Nat) (hw : Widths AsciiWidth (t.cols.map (·.format)) ws)
    (hrow : ∀ row ∈ t.data, row.length = t.cols.length) (rows : List Str) (h : Ascii.rowTexts t = .ok rows) (rowLen : Nat)
    (hgap : ws.sum < rowLen) (hne : t.data ≠ []) :
    rows.flatten.length = t.data.length * ws.sum ∧ rows.flatten.length < t.data.length * rowLen := by
  have hfit : ∀ row ∈ t.data, row.length = t.cols.length ∧ ∀ (j : Nat) (s : Str) (w : Nat), row[j]? = some s → ws[j]? = some w → s.length ≤ w := by
    intro row hr
    refine ⟨hrow row hr, fun j s w h1 h2 => ?_⟩
    refine Classical.byContradiction fun hn => ?_
    have := (C37_too_long t ws hw hrow).2 ⟨row, hr, j, s, w, h1, h2, by omega⟩
    rw [h] at this; cases this
  obtain ⟨rows', h1, h2, h3⟩ := C37_rows t ws hw hfit
  rw [h] at h1; cases h1
  have hlen : rows.flatten.length = t.data.length * ws.sum := by
    rw [List.length_flatten, ← h2]
    have : rows.map List.length = List.replicate rows.length ws.sum := by
      apply List.eq_replicate_iff.2
      refine ⟨by simp, ?_⟩
      intro n hn
      obtain ⟨x, hx, rfl⟩ := List.mem_map.1 hn
      obtain ⟨r, hr, rfl⟩ := List.getElem_of_mem hx
      exact (h3 r _ _ (List.getElem?_eq_getElem hr) (List.getElem?_eq_getElem (by omega))).1
    rw [this, List.sum_replicate_nat]
  refine ⟨hlen, ?_⟩
  rw [hlen]
  exact Nat.mul_lt_mul_of_pos_left hgap (List.length_pos_iff.2 hne)

/-- The gap between the columns of this table is lost: the second row read back is wrong. -/
example : let cols : List Column := [⟨1, b!"N", 1, b!"A1", [], none, none, [], [], [], 0⟩, ⟨2, b!"V", 3, b!"I1", [], none, none, [], [], [], 0⟩]
    let t : Table := ⟨Header.empty, 1, 0, [], 2, cols, [[b!"a", b!"1"], [b!"b", b!"2"]]⟩
    Ascii.tableData b!"a 1b 2" 3 2 cols = .ok t.data ∧ Ascii.rowTexts t = .ok [b!"a1", b!"b2"] ∧
    Ascii.tableData (b!"a1b2" ++ spaces 2) 3 2 cols = .ok [[b!"a", b!"b"], [b!"2", b!""]] := by decide +kernel

example : Ascii.rowTexts ⟨Header.empty, 1, 0, [], 1, [⟨1, b!"N", 1, b!"A1", [], none, none, [], [], [], 0⟩], [[b!"ab"]]⟩ = .error .lengthError := by
  decide +kernel

/-! ## C38 -/

/-- **C38** Parsing a binary table gives, for every row and column, the bytes of that field with the white-space bytes at both ends removed; the fields
follow each other without gaps. -/
theorem C38_table (buf : Str) (rows : Nat) (cols : List Column) (d : List (List Str)) :
    BinTable.tableData buf rows cols = .ok d ↔
      (rows = 0 ∧ d = []) ∨
      (0 < rows ∧ cols ≠ [] ∧ ∃ ws, Widths BinWidth (cols.map (·.format)) ws ∧ rows * ws.sum ≤ buf.length ∧ d.length = rows ∧
        ∀ (r : Nat) (row : List Str), d[r]? = some row → row.length = cols.length ∧
          ∀ (j w : Nat) (x : Str), ws[j]? = some w → row[j]? = some x →
            ∃ field, Field buf (r * ws.sum + fieldStart ws j) w field ∧ IsTrim field x) := by
  unfold BinTable.tableData
  by_cases h0 : cols.isEmpty = true ∧ rows ≠ 0
  · rw [if_pos h0]
    constructor
    · intro h; cases h
    · rintro (⟨h, _⟩ | ⟨_, h, _⟩)
      · exact absurd h h0.2
      · exact absurd (List.isEmpty_iff.1 h0.1) h
  · rw [if_neg h0]
    by_cases hc : cols = []
    · have hr : rows = 0 := Classical.byContradiction fun hr => h0 ⟨by rw [hc]; rfl, hr⟩
      subst hr
      simp only [BinTable.readRows, Except.ok.injEq, true_and, Nat.lt_irrefl, false_and, or_false]
      exact eq_comm
    · rw [readRows_iff buf cols hc]
      refine or_congr Iff.rfl (and_congr Iff.rfl ?_)
      simp only [Nat.zero_add]
      constructor
      · rintro ⟨ws, h1, h2, rfl⟩
        have hlen : ws.length = cols.length := by rw [widths_length h1, List.length_map]
        refine ⟨hc, ws, h1, h2, by simp, ?_⟩
        intro r row hr
        rw [List.getElem?_map] at hr
        cases hrg : (List.range rows)[r]? with
        | none => rw [hrg] at hr; cases hr
        | some r' =>
          rw [hrg] at hr
          obtain ⟨k1, k2⟩ := List.getElem?_eq_some_iff.1 hrg
          rw [List.getElem_range] at k2
          rw [List.length_range] at k1
          subst k2
          cases hr
          refine ⟨by rw [List.length_map, pieces'_length, hlen], ?_⟩
          intro j w x hw hx
          rw [List.getElem?_map, pieces'_get buf ws _ j w hw] at hx
          cases hx
          refine ⟨_, field_iff.2 ⟨?_, rfl⟩, isTrim_iff.2 rfl⟩
          have hfs := fieldStart_le ws j w hw
          have := Nat.mul_le_mul_right ws.sum k1
          rw [Nat.succ_mul] at this
          omega
      · rintro ⟨_, ws, h1, h2, h3, h4⟩
        have hlen : ws.length = cols.length := by rw [widths_length h1, List.length_map]
        refine ⟨ws, h1, h2, ?_⟩
        apply List.ext_getElem?
        intro r
        rw [List.getElem?_map]
        rcases Nat.lt_or_ge r rows with hr | hr
        · have e1 : d[r]? = some d[r] := List.getElem?_eq_getElem (by omega)
          have e2 : (List.range rows)[r]? = some r := by rw [List.getElem?_range hr]
          rw [e1, e2]
          simp only [Option.map_some, Option.some.injEq]
          obtain ⟨k1, k2⟩ := h4 r _ e1
          apply List.ext_getElem?
          intro j
          rw [List.getElem?_map]
          rcases Nat.lt_or_ge j ws.length with hj | hj
          · have f1 : ws[j]? = some ws[j] := List.getElem?_eq_getElem hj
            have f2 : d[r][j]? = some d[r][j] := List.getElem?_eq_getElem (by omega)
            rw [pieces'_get buf ws _ j _ f1, f2]
            obtain ⟨field, g1, g2⟩ := k2 j _ _ f1 f2
            rw [(field_iff.1 g1).2] at g2
            simp only [Option.map_some, Option.some.injEq]
            exact (isTrim_iff.1 g2).symm
          · rw [List.getElem?_eq_none (by omega), List.getElem?_eq_none (by rw [pieces'_length]; omega)]; rfl
        · rw [List.getElem?_eq_none (by omega), List.getElem?_eq_none (by simpa using hr)]; rfl

/-- **C38** A cell is what the file contains exactly when the field neither begins nor ends with a white-space byte; otherwise it is shorter. -/
theorem C38_exact (field x : Str) (h : IsTrim field x) :
    (x = field ↔ NoOuterWhite field) ∧ (¬ NoOuterWhite field → x.length < field.length) := by
  have := isTrim_iff.1 h
  subst this
  exact ⟨trim_eq_iff, fun hn => trim_shorter fun he => hn (trim_eq_iff.1 he)⟩

/-- The 16-bit number 0x0120 = 288 ends with a blank byte, which is lost. -/
example : BinTable.tableData [1, 32, 7, 7] 2 [⟨1, b!"N", 0, b!"1I", [], none, none, [], [], [], 1⟩] = .ok [[[1]], [[7, 7]]] := by decide +kernel

/-! ## C39 -/

/-- **C39** Writing a parsed binary table gives back the original bytes of the rows exactly when no field begins or ends with a white-space byte;
in all other cases fewer bytes are written. -/
theorem C39_write_parsed (t : Table) (buf : Str) (rows : Nat) (hp : BinTable.tableData buf rows t.cols = .ok t.data) (hr : 0 < rows)
    (ws : List Nat) (hw : Widths BinWidth (t.cols.map (·.format)) ws) :
    ((BinTable.rowTexts t).flatten = buf.take (rows * ws.sum) ↔
      ∀ r j w field, r < rows → ws[j]? = some w → Field buf (r * ws.sum + fieldStart ws j) w field → NoOuterWhite field) ∧
    ((BinTable.rowTexts t).flatten ≠ buf.take (rows * ws.sum) → (BinTable.rowTexts t).flatten.length < rows * ws.sum) := by
  have hc : t.cols ≠ [] := by
    rcases (C38_table _ _ _ _).1 hp with ⟨h, _⟩ | ⟨_, h, _⟩
    · omega
    · exact h
  have hd : t.data = (List.range rows).map (fun r => (pieces' buf (r * ws.sum) ws).map trim) ∧ rows * ws.sum ≤ buf.length := by
    unfold BinTable.tableData at hp
    rw [if_neg (fun h => hc (List.isEmpty_iff.1 h.1)), readRows_iff buf t.cols hc] at hp
    rcases hp with ⟨h, _⟩ | ⟨_, ws', h1, h2, h3⟩
    · omega
    · have := widths_unique binWidth_unique h1 hw
      subst this
      simp only [Nat.zero_add] at h2 h3
      exact ⟨h3, h2⟩
  obtain ⟨hd, hbuf⟩ := hd
  let all := ((List.range rows).map fun r => pieces' buf (r * ws.sum) ws).flatten
  have htext : (BinTable.rowTexts t).flatten = (all.map trim).flatten := by
    have hfold : ∀ (l : List Str) (a : Str), l.foldl (fun a s => a ++ s) a = a ++ l.flatten := by
      intro l
      induction l with
      | nil => intro a; simp
      | cons x l ih => intro a; rw [List.foldl_cons, ih]; simp
    unfold BinTable.rowTexts
    rw [hd]
    simp only [all, List.map_flatten, List.map_map]
    rw [List.flatten_flatten]
    simp only [List.map_map]
    congr 1
    apply List.map_congr_left
    intro r _
    simp only [Function.comp_apply, hfold, List.nil_append]
  have hflat : all.flatten = buf.take (rows * ws.sum) := by
    simp only [all]
    rw [List.flatten_flatten, List.map_map]
    have : ∀ n, ((List.range n).map (List.flatten ∘ fun r => pieces' buf (r * ws.sum) ws)).flatten = buf.take (n * ws.sum) := by
      intro n
      induction n with
      | zero => simp
      | succ n ih =>
        rw [List.range_succ, List.map_append, List.flatten_append, ih]
        simp only [List.map_cons, List.map_nil, List.flatten_cons, List.flatten_nil, List.append_nil, Function.comp_apply, pieces'_flatten]
        rw [Nat.succ_mul, List.take_add]
    exact this rows
  rw [htext, ← hflat]
  refine ⟨?_, ?_⟩
  · rw [flatten_trim_eq]
    constructor
    · intro h r j w field hrl hj hf
      rw [← trim_eq_iff]
      refine h field ?_
      refine List.mem_flatten.2 ⟨_, List.mem_map.2 ⟨r, List.mem_range.2 hrl, rfl⟩, ?_⟩
      have := pieces'_get buf ws (r * ws.sum) j w hj
      rw [(field_iff.1 hf).2]
      exact List.mem_of_getElem? this
    · intro h s hs
      obtain ⟨l, hl, hs⟩ := List.mem_flatten.1 hs
      obtain ⟨r, hr', rfl⟩ := List.mem_map.1 hl
      obtain ⟨j, hj, rfl⟩ := List.getElem_of_mem hs
      have hj' : j < ws.length := by rwa [pieces'_length] at hj
      have e1 : ws[j]? = some ws[j] := List.getElem?_eq_getElem hj'
      have e2 := pieces'_get buf ws (r * ws.sum) j _ e1
      rw [List.getElem?_eq_getElem hj, Option.some.injEq] at e2
      rw [trim_eq_iff]
      have hfs := fieldStart_le ws j _ e1
      have hm := Nat.mul_le_mul_right ws.sum (List.mem_range.1 hr')
      rw [Nat.succ_mul] at hm
      exact h r j ws[j] _ (List.mem_range.1 hr') e1 (field_iff.2 ⟨by omega, e2⟩)
  · intro hne
    have hlt : (all.map trim).flatten.length < all.flatten.length := by
      apply flatten_trim_lt
      refine Classical.byContradiction fun hn => hne ((flatten_trim_eq all).2 fun s hs => ?_)
      exact Classical.byContradiction fun h => hn ⟨s, hs, h⟩
    rw [hflat, List.length_take] at hlt
    omega

/-- Two columns; the trailing blank byte of the first field is lost and the second field moves up. -/
example : let cols : List Column := [⟨1, b!"N", 0, b!"1I", [], none, none, [], [], [], 1⟩, ⟨2, b!"V", 2, b!"1I", [], none, none, [], [], [], 1⟩]
    BinTable.tableData [1, 32, 7, 8] 1 cols = .ok [[[1], [7, 8]]] ∧
    BinTable.rowTexts ⟨Header.empty, 1, 0, [], 2, cols, [[[1], [7, 8]]]⟩ = [[1, 7, 8]] := by decide +kernel

/-! ## C41 -/

/-- What the cards of a header say about column number `i` of a binary table. -/
structure BinColumn (F : FloatText) (raws : List Str) (i : Nat) (c : Column) : Prop where
  index : c.index = i
  format : Declares F raws (b!"TFORM" ++ showNat i) .string (.string c.format)
  name : OptStr F raws (b!"TTYPE" ++ showNat i) c.name
  unit : OptStr F raws (b!"TUNIT" ++ showNat i) c.unit
  scale : OptDouble F raws (b!"TSCAL" ++ showNat i) c.scale
  zero : OptDouble F raws (b!"TZERO" ++ showNat i) c.zero
  display : OptStr F raws (b!"TDISP" ++ showNat i) c.display
  dimension : OptStr F raws (b!"TDIM" ++ showNat i) c.dimension
  comment : c.name ≠ [] → ¬ AxisKey c.name → OptStr F raws c.name c.comment
  total : elementCount c.format = .ok c.total

theorem bin_column_ok {F : FloatText} {h h' : Header} {i st st' : Nat} {c : Column} (hs : Sound F h)
    (e : BinTable.column F h i st = .ok (h', c, st')) :
    Same h h' ∧ Sound F h' ∧ BinColumn F (h.cards.map (·.raw)) i c ∧ c.start = st ∧
      ∃ w, BinWidth c.format w ∧ st' = (st + w) % sizeMod := by
  have hk : ∀ p : Str, 4 ≤ p.length → p.headD 0 = 84 → ¬ AxisKey (p ++ showNat i) := by
    intro p hp hp'
    rintro (h | ⟨d, h⟩) <;> (match p, hp, hp' with | a :: _, _, hp' => (simp only [List.headD_cons] at hp'; subst hp'; simp at h))
  unfold BinTable.column at e
  obtain ⟨⟨h1, f⟩, e1, e⟩ := bind_ok e
  obtain ⟨w, e2, e⟩ := bind_ok e
  obtain ⟨⟨h3, n, cm⟩, e3, e⟩ := bind_ok e
  obtain ⟨⟨h4, u⟩, e4, e⟩ := bind_ok e
  obtain ⟨⟨h5, sc⟩, e5, e⟩ := bind_ok e
  obtain ⟨⟨h6, z⟩, e6, e⟩ := bind_ok e
  obtain ⟨⟨h7, dp⟩, e7, e⟩ := bind_ok e
  obtain ⟨⟨h8, dm⟩, e8, e⟩ := bind_ok e
  obtain ⟨cnt, e9, e⟩ := bind_ok e
  cases e
  obtain ⟨s1, d1, _, p1⟩ := get_ok hs (getStr_ok e1)
  obtain ⟨s3, d3, p3, p3'⟩ := columnName_ok d1 e3
  obtain ⟨s4, d4, p4⟩ := optional_str d3 (hk _ (by decide) rfl) e4
  obtain ⟨s5, d5, p5⟩ := optional_double d4 (hk _ (by decide) rfl) e5
  obtain ⟨s6, d6, p6⟩ := optional_double d5 (hk _ (by decide) rfl) e6
  obtain ⟨s7, d7, p7⟩ := optional_str d6 (hk _ (by decide) rfl) e7
  obtain ⟨s8, d8, p8⟩ := optional_str d7 (hk _ (by decide) rfl) e8
  have t3 := s1.trans s3
  have t4 := t3.trans s4
  have t5 := t4.trans s5
  have t6 := t5.trans s6
  have t7 := t6.trans s7
  rw [s1.raws] at p3 p3'
  rw [t3.raws] at p4
  rw [t4.raws] at p5
  rw [t5.raws] at p6
  rw [t6.raws] at p7
  rw [t7.raws] at p8
  exact ⟨t7.trans s8, d8, ⟨rfl, p1 (hk _ (by decide) rfl), p3, p4, p5, p6, p7, p8, p3', e9⟩, rfl, w, bin_columnSize_iff.1 e2, rfl⟩

theorem bin_columns_ok {F : FloatText} : ∀ (n i st : Nat) {h h' : Header} {cs : List Column}, Sound F h → st < sizeMod →
    BinTable.columns F n i st h = .ok (h', cs) → Same h h' ∧ Sound F h' ∧ cs.length = n ∧
      (∀ (j : Nat) (c : Column), cs[j]? = some c → BinColumn F (h.cards.map (·.raw)) (i + j) c) ∧
      ∃ ws, Widths BinWidth (cs.map (·.format)) ws ∧ ∀ (j : Nat) (c : Column), cs[j]? = some c → c.start = (st + fieldStart ws j) % sizeMod := by
  intro n
  induction n with
  | zero =>
    intro i st h h' cs hs _ e; cases e
    exact ⟨Same.refl _, hs, rfl, fun j c hc => by simp at hc, [], trivial, fun j c hc => by simp at hc⟩
  | succ n ih =>
    intro i st h h' cs hs hst e
    unfold BinTable.columns at e
    obtain ⟨⟨h1, c, st'⟩, e1, e⟩ := bind_ok e
    obtain ⟨⟨h2, cs'⟩, e2, e⟩ := bind_ok e
    simp only at e1 e2 e
    cases e
    obtain ⟨s1, d1, p1, q1, w, hw, hst'⟩ := bin_column_ok hs e1
    have hlt : st' < sizeMod := by rw [hst']; exact Nat.mod_lt _ (by decide)
    obtain ⟨s2, d2, l2, p2, ws, hws, q2⟩ := ih (i + 1) st' d1 hlt e2
    refine ⟨s1.trans s2, d2, by simp [l2], ?_, w :: ws, ⟨hw, hws⟩, ?_⟩
    · intro j c' hc
      cases j with
      | zero => simp only [List.getElem?_cons_zero, Option.some.injEq] at hc; subst hc; exact p1
      | succ j =>
        have := p2 j c' (by simpa using hc)
        rw [s1.raws] at this
        rwa [show i + (j + 1) = i + 1 + j by omega]
    · intro j c' hc
      cases j with
      | zero =>
        simp only [List.getElem?_cons_zero, Option.some.injEq] at hc; subst hc
        rw [q1]; simp only [fieldStart, List.take_zero, List.sum_nil, Nat.add_zero]
        exact (Nat.mod_eq_of_lt hst).symm
      | succ j =>
        have := q2 j c' (by simpa using hc)
        rw [this, hst']
        simp only [fieldStart, List.take_succ_cons, List.sum_cons]
        rw [Nat.mod_add_mod, Nat.add_assoc]

/-- The table built from a header in good order. -/
theorem binary_make_sound {F : FloatText} {h : Header} (hs : Sound F h) (buf : Str) (t : Table)
    (hm : BinTable.make F h buf = .ok t) :
    t.header.cards.map (·.raw) = h.cards.map (·.raw) ∧
    (∃ v : BitVec 64, v.toNat = t.cols.length ∧ Declares F (h.cards.map (·.raw)) b!"TFIELDS" .sizeT (.sizeT v)) ∧
    (∀ (j : Nat) (c : Column), t.cols[j]? = some c → BinColumn F (h.cards.map (·.raw)) (j + 1) c) ∧
    ∃ ws, Widths BinWidth (t.cols.map (·.format)) ws ∧
      (∀ (j : Nat) (c : Column), t.cols[j]? = some c → c.start = fieldStart ws j % 2 ^ 64) ∧
      (buf = [] → t.data = []) ∧ (buf ≠ [] → ∃ rowLen rows more, h.naxis = rowLen :: rows :: more ∧ t.data.length = rows ∧
        ∀ (r : Nat) (row : List Str), t.data[r]? = some row → row.length = t.cols.length ∧
          ∀ (j w : Nat) (x : Str), ws[j]? = some w → row[j]? = some x →
            ∃ field, Field buf (r * ws.sum + fieldStart ws j) w field ∧ IsTrim field x) := by
  unfold BinTable.make at hm
  obtain ⟨t0, e0, hm⟩ := bind_ok hm
  obtain ⟨s0, d0, ⟨v, hv, hf⟩, _, _, _, _, dt0⟩ := base_ok hs e0
  unfold BinTable.setInfo at hm
  obtain ⟨⟨h1, cs⟩, e1, hm⟩ := bind_ok hm
  obtain ⟨s1, d1, l1, p1, ws, hws, q1⟩ := bin_columns_ok _ 1 0 d0 (by decide) e1
  simp only at hm
  have hcols : ∀ (j : Nat) (c : Column), cs[j]? = some c → BinColumn F (h.cards.map (·.raw)) (j + 1) c := by
    intro j c hc
    have := p1 j c hc
    rwa [s0.raws, Nat.add_comm] at this
  have hst : ∀ (j : Nat) (c : Column), cs[j]? = some c → c.start = fieldStart ws j % 2 ^ 64 := by
    intro j c hc
    have := q1 j c hc
    rw [Nat.zero_add] at this
    exact this
  by_cases hbuf : buf = []
  · rw [if_pos (by simpa using hbuf)] at hm
    cases hm
    exact ⟨(s0.trans s1).raws, ⟨v, by rw [hv]; exact l1.symm, hf⟩, hcols, ws, hws, hst, fun _ => dt0, fun h => absurd hbuf h⟩
  rw [if_neg (by simpa using hbuf)] at hm
  obtain ⟨rows, e2, hm⟩ := bind_ok hm
  obtain ⟨rowLen, e3, hm⟩ := bind_ok hm
  obtain ⟨d, e4, hm⟩ := bind_ok hm
  cases hm
  simp only at *
  obtain ⟨_, e2⟩ := naxisAt_ok e2
  obtain ⟨_, e3⟩ := naxisAt_ok e3
  have hn : h1.naxis = h.naxis := (s0.trans s1).naxis
  rw [hn] at e2 e3
  refine ⟨(s0.trans s1).raws, ⟨v, by rw [hv, l1], hf⟩, hcols, ws, hws, hst, fun h => absurd h hbuf, fun _ => ?_⟩
  · match hx : h.naxis with
    | [] => rw [hx] at e3; cases e3
    | [a] => rw [hx] at e2; cases e2
    | a :: b :: more =>
      rw [hx] at e2 e3
      cases e2; cases e3
      refine ⟨rowLen, rows, more, rfl, ?_⟩
      rcases (C38_table _ _ _ _).1 e4 with ⟨g1, g2⟩ | ⟨_, _, ws', g3, _, g4, g5⟩
      · subst g1; subst g2
        exact ⟨rfl, fun r row hrow => by simp at hrow⟩
      · have := widths_unique binWidth_unique g3 hws
        subst this
        exact ⟨g4, g5⟩

/-- **C38, C41** The table object built from a header that was read from a file and a non-empty buffer: the columns are those the cards describe;
each starts (modulo 2^64) where the ones before it end; and the matrix holds, for NAXIS2 rows, the fields at these places. -/
theorem C41_make (F : FloatText) (fuel : Nat) (s s' : Stream) (h : Header) (hg : s.good = true)
    (e : Header.readHeader F fuel Header.empty s = some (.ok (h, s'))) (buf : Str) (hbuf : buf ≠ []) (t : Table)
    (hm : BinTable.make F h buf = .ok t) :
    t.header.cards.map (·.raw) = h.cards.map (·.raw) ∧
    (∃ v : BitVec 64, v.toNat = t.cols.length ∧ Declares F (h.cards.map (·.raw)) b!"TFIELDS" .sizeT (.sizeT v)) ∧
    (∀ (j : Nat) (c : Column), t.cols[j]? = some c → BinColumn F (h.cards.map (·.raw)) (j + 1) c) ∧
    ∃ ws, Widths BinWidth (t.cols.map (·.format)) ws ∧
      (∀ (j : Nat) (c : Column), t.cols[j]? = some c → c.start = fieldStart ws j % 2 ^ 64) ∧
      ∃ rowLen rows more, h.naxis = rowLen :: rows :: more ∧ t.data.length = rows ∧
        ∀ (r : Nat) (row : List Str), t.data[r]? = some row → row.length = t.cols.length ∧
          ∀ (j w : Nat) (x : Str), ws[j]? = some w → row[j]? = some x →
            ∃ field, Field buf (r * ws.sum + fieldStart ws j) w field ∧ IsTrim field x :=
  let ⟨h1, h2, h3, ws, h4, h5, _, h6⟩ := binary_make_sound (sound_of_read hg e) buf t hm
  ⟨h1, h2, h3, ws, h4, h5, h6 hbuf⟩

/-- **C41** Consecutive fields neither overlap nor leave gaps: each begins where the previous one ends, the first at 0, and they end at the row width. -/
theorem C41_tiling (ws : List Nat) :
    fieldStart ws 0 = 0 ∧ (∀ j w, ws[j]? = some w → fieldStart ws (j + 1) = fieldStart ws j + w) ∧ fieldStart ws ws.length = ws.sum := by
  refine ⟨rfl, ?_, by simp [fieldStart]⟩
  intro j w hj
  unfold fieldStart
  rw [List.take_add_one, hj]
  simp

/-! ## C43 -/

/-- **C43** Looking up a column returns the first one with that name. -/
theorem C43_first (cols : List Column) (name : Str) (c : Column) :
    Table.columnMetadata cols name = .ok c ↔
      ∃ before after, cols = before ++ c :: after ∧ c.name = name ∧ ∀ b ∈ before, b.name ≠ name := by
  unfold Table.columnMetadata
  cases hf : cols.find? (fun c => c.name == name) with
  | none =>
    simp only [reduceCtorEq, false_iff]
    rintro ⟨a, b, rfl, h, _⟩
    rw [List.find?_eq_none] at hf
    exact hf c (by simp) (by simp [h])
  | some c' =>
    simp only [Except.ok.injEq]
    obtain ⟨h1, a, b, h2, h3⟩ := List.find?_eq_some_iff_append.1 hf
    constructor
    · rintro rfl
      exact ⟨a, b, h2, by simpa using h1, fun x hx => by simpa using h3 x hx⟩
    · rintro ⟨a', b', rfl, h4, h5⟩
      rw [List.find?_append] at hf
      have : a'.find? (fun c => c.name == name) = none := List.find?_eq_none.2 fun x hx => by simpa using h5 x hx
      rw [this] at hf
      simp [h4] at hf
      exact hf.symm

/-- **C43** The look-up fails, with column-not-found, exactly when no column has the name. -/
theorem C43_not_found (cols : List Column) (name : Str) (e : Err) :
    Table.columnMetadata cols name = .error e ↔ e = .columnNotFound ∧ ∀ c ∈ cols, c.name ≠ name := by
  unfold Table.columnMetadata
  cases hf : cols.find? (fun c => c.name == name) with
  | none =>
    rw [List.find?_eq_none] at hf
    simp only [Except.error.injEq]
    exact ⟨fun h => ⟨h.symm, fun c hc => by simpa using hf c hc⟩, fun h => h.1.symm⟩
  | some c' =>
    simp only [reduceCtorEq, false_iff]
    rintro ⟨_, h⟩
    exact h c' (List.mem_of_find?_eq_some hf) (by simpa using List.find?_some hf)

example : let c (i : Nat) (n : Str) : Column := ⟨i, n, 0, [], [], none, none, [], [], [], 0⟩
    Table.columnMetadata [c 1 b!"a", c 2 b!"b", c 3 b!"b"] b!"b" = .ok (c 2 b!"b") := by decide

end Astro
