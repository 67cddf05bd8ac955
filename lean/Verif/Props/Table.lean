import Verif.Lemmas.Table

/-
Properties C36 - C41 and C43: tables.
-/

namespace Astro

open Spec Bin

/-! ## C40 -/

/-- **C40** The width of an ASCII column. -/
theorem C40_ascii_width (format : Str) (w : Nat) : Ascii.columnSize format = .ok w ↔ AsciiWidth format w := ascii_columnSize_iff

/-- **C40** The width of a binary column: the repeat count times the size of the type letter. -/
theorem C40_binary_width (format : Str) (w : Nat) : BinTable.columnSize format = .ok w ↔ BinWidth format w := bin_columnSize_iff

/-- **C40** A type letter that is not one of the eleven is rejected when the repeat count is acceptable. -/
theorem C40_unknown_letter (format count : Str) (letter : Byte) (n : Nat) (hu : IsUnquoted format (count ++ [letter]))
    (hc : count = [] ∨ UnsignedText count n) (hl : ∀ size, ¬ LetterSize letter size) :
    BinTable.columnSize format = .error .invalidTableFormat := by
  have ht : trimQuotes format = count ++ [letter] := isUnquoted_iff.1 hu
  have hlet : BinTable.getType (count ++ [letter]) = .ok letter := by
    have : trimQuotes (count ++ [letter]) = count ++ [letter] := by rw [← ht, trimQuotes_idem]
    unfold BinTable.getType; rw [this]; simp
  have hsz : BinTable.typeSize letter = .error .invalidTableFormat := by
    rcases typeSize_cases letter with ⟨m, _, h⟩ | h
    · exact absurd h (hl m)
    · exact h.1
  have hcount : ∃ m, elementCount (count ++ [letter]) = .ok m := by
    have : trimQuotes (count ++ [letter]) = count ++ [letter] := by rw [← ht, trimQuotes_idem]
    unfold elementCount
    rw [this]
    simp only [List.length_append, List.length_singleton, Nat.add_sub_cancel, List.take_left]
    rcases hc with rfl | hc
    · exact ⟨1, by simp⟩
    · cases count with
      | nil => exact ⟨1, by simp⟩
      | cons a l => exact ⟨n, by simp only [List.length_cons]; rw [if_pos (by omega)]; exact lexUnsigned64.2 hc⟩
  obtain ⟨m, hm⟩ := hcount
  unfold BinTable.columnSize
  simp only [ht, hm, hlet, hsz, bind, Except.bind]

/-- **C40** The type letter of a column, without the quotes and blanks around the format: the first character in an ASCII table (the terminating zero of an empty
format), the last one in a binary table. -/
theorem C40_letter (format : Str) :
    (∀ c rest, IsUnquoted format (c :: rest) → Ascii.getType format = c) ∧ (IsUnquoted format [] → Ascii.getType format = 0) ∧
      ∀ c, BinTable.getType format = .ok c ↔ ∃ count, IsUnquoted format (count ++ [c]) := by
  refine ⟨fun c rest h => ?_, fun h => ?_, fun c => ⟨fun h => ?_, fun ⟨count, h⟩ => ?_⟩⟩
  · rw [Ascii.getType, isUnquoted_iff.1 h]
    rfl
  · rw [Ascii.getType, isUnquoted_iff.1 h]
    rfl
  · unfold BinTable.getType at h
    rcases hl : (trimQuotes format).getLast? with _ | l
    · rw [hl] at h
      cases h
    · rw [hl] at h
      cases h
      obtain ⟨count, hc⟩ := List.getLast?_eq_some_iff.1 hl
      exact ⟨count, isUnquoted_iff.2 hc⟩
  · unfold BinTable.getType
    rw [isUnquoted_iff.1 h]
    simp

example : Ascii.getType b!"'F7.2    '" = 70 ∧ BinTable.getType b!"'12J     '" = .ok 74 := by decide +kernel
example : AsciiWidth b!"'F7.2    '" 7 := (C40_ascii_width _ _).1 (by decide +kernel)
example : BinWidth b!"'12J     '" 48 := (C40_binary_width _ _).1 (by decide +kernel)
example : BinTable.columnSize b!"'3K'" = .error .invalidTableFormat := by decide +kernel

/-! ## C36 -/

/-- **C36** A cell of an ASCII table: the bytes `TBCOL .. TBCOL + width - 1` (counted from 1) of its row, without the white space around. -/
theorem C36_cell (buf : Str) (rowLen row : Nat) (c : Column) (s : Str) :
    Ascii.cell buf rowLen row c = .ok s ↔
      ∃ w field, AsciiWidth c.format w ∧ 1 ≤ row * rowLen % 2 ^ 64 + c.start ∧ row * rowLen % 2 ^ 64 + c.start ≤ buf.length ∧
        Field buf (row * rowLen % 2 ^ 64 + c.start - 1) w field ∧ IsTrim field s := by
  have e64 : (2 : Nat) ^ 64 = sizeMod := rfl
  rw [e64]
  unfold Ascii.cell
  simp only
  generalize row * rowLen % sizeMod + c.start = st
  by_cases h0 : st = 0 ∨ buf.length < st
  · rw [if_pos h0]
    constructor
    · intro h; cases h
    · rintro ⟨w, f, _, h1, h2, _⟩; omega
  · rw [if_neg h0]
    cases hw : Ascii.columnSize c.format with
    | error e =>
      simp only [bind, Except.bind]
      constructor
      · intro h; cases h
      · rintro ⟨w, f, h1, _⟩
        rw [ascii_columnSize_iff.2 h1] at hw; cases hw
    | ok w =>
      simp only [bind, Except.bind]
      by_cases hl : st - 1 + w ≤ buf.length
      · rw [if_pos hl]
        simp only [pure, Except.pure, Except.ok.injEq]
        constructor
        · intro h
          exact ⟨w, _, ascii_columnSize_iff.1 hw, by omega, by omega, field_iff.2 ⟨hl, rfl⟩, isTrim_iff.2 h⟩
        · rintro ⟨w', f, h1, _, _, h4, h5⟩
          rw [ascii_columnSize_iff.2 h1] at hw; cases hw
          rw [(field_iff.1 h4).2] at h5
          exact isTrim_iff.1 h5
      · rw [if_neg hl]
        constructor
        · intro h; cases h
        · rintro ⟨w', f, h1, _, _, h4, _⟩
          rw [ascii_columnSize_iff.2 h1] at hw; cases hw
          exact absurd (field_iff.1 h4).1 hl

/-- **C36** A cell that does not lie inside the buffer is undefined behaviour, not an error. -/
theorem C36_outside (buf : Str) (rowLen row : Nat) (c : Column) (w : Nat) (hw : AsciiWidth c.format w)
    (hout : row * rowLen % 2 ^ 64 + c.start = 0 ∨ buf.length < row * rowLen % 2 ^ 64 + c.start ∨
      buf.length < row * rowLen % 2 ^ 64 + c.start - 1 + w) : Ascii.cell buf rowLen row c = .error .ub := by
  have e64 : (2 : Nat) ^ 64 = sizeMod := rfl
  rw [e64] at hout
  unfold Ascii.cell
  simp only
  generalize row * rowLen % sizeMod + c.start = st at *
  by_cases h0 : st = 0 ∨ buf.length < st
  · rw [if_pos h0]
  · rw [if_neg h0, ascii_columnSize_iff.2 hw]
    simp only [bind, Except.bind]
    rw [if_neg (by omega)]

/-- **C36** Parsing succeeds with the matrix `d` exactly when `d` has the given dimensions and every entry is the cell at that place. -/
theorem C36_table (buf : Str) (rowLen rows : Nat) (cols : List Column) (d : List (List Str)) :
    Ascii.tableData buf rowLen rows cols = .ok d ↔
      (cols ≠ [] ∨ rows = 0) ∧ d.length = rows ∧
      ∀ (r : Nat) (row : List Str), d[r]? = some row → row.length = cols.length ∧
        ∀ (j : Nat) (c : Column) (s : Str), cols[j]? = some c → row[j]? = some s → Ascii.cell buf rowLen r c = .ok s := by
  unfold Ascii.tableData
  by_cases h0 : cols.isEmpty = true ∧ rows ≠ 0
  · rw [if_pos h0]
    constructor
    · intro h; cases h
    · rintro ⟨h1 | h1, _⟩
      · exact absurd (List.isEmpty_iff.1 h0.1) h1
      · exact absurd h1 h0.2
  · rw [if_neg h0, mapM_ok_iff]
    have hd : cols ≠ [] ∨ rows = 0 := by
      by_cases hr : rows = 0
      · exact Or.inr hr
      · exact Or.inl fun h => h0 ⟨by rw [h]; rfl, hr⟩
    constructor
    · rintro ⟨h1, h2⟩
      rw [List.length_range] at h1
      refine ⟨hd, h1, ?_⟩
      intro r row hrow
      obtain ⟨hlt, rfl⟩ := List.getElem?_eq_some_iff.1 hrow
      have := h2 r (by rw [List.length_range]; omega) hlt
      rw [List.getElem_range, mapM_ok_iff] at this
      refine ⟨this.1, ?_⟩
      intro j c s hc hs
      obtain ⟨k1, rfl⟩ := List.getElem?_eq_some_iff.1 hc
      obtain ⟨k2, rfl⟩ := List.getElem?_eq_some_iff.1 hs
      exact this.2 j k1 k2
    · rintro ⟨_, h1, h2⟩
      refine ⟨by rw [List.length_range]; exact h1, ?_⟩
      intro r hr hr'
      rw [List.getElem_range, mapM_ok_iff]
      obtain ⟨k1, k2⟩ := h2 r d[r] (List.getElem?_eq_getElem hr')
      exact ⟨k1, fun j g1 g2 => k2 j _ _ (List.getElem?_eq_getElem g1) (List.getElem?_eq_getElem g2)⟩

/-- **C36** A layout whose columns lie within the rows, with a buffer that holds all rows, is always parsed. -/
theorem C36_total (buf : Str) (rowLen rows : Nat) (cols : List Column) (hne : cols ≠ []) (hsz : rows * rowLen ≤ buf.length)
    (hlen : buf.length < 2 ^ 63)
    (hin : ∀ c ∈ cols, ∃ w, AsciiWidth c.format w ∧ 1 ≤ c.start ∧ c.start ≤ rowLen ∧ c.start - 1 + w ≤ rowLen) :
    ∃ d, Ascii.tableData buf rowLen rows cols = .ok d := by
  have hcell : ∀ r c, ∃ s, r < rows → c ∈ cols → Ascii.cell buf rowLen r c = .ok s := by
    intro r c
    by_cases hr : r < rows
    · by_cases hc : c ∈ cols
      · obtain ⟨w, h1, h2, h3, h4⟩ := hin c hc
        have hmul : r * rowLen + rowLen ≤ rows * rowLen := by
          have := Nat.mul_le_mul_right rowLen hr
          rwa [Nat.succ_mul] at this
        have hmod : r * rowLen % 2 ^ 64 = r * rowLen := Nat.mod_eq_of_lt (by omega)
        refine ⟨trim ((buf.drop (r * rowLen + c.start - 1)).take w), fun _ _ => (C36_cell _ _ _ _ _).2 ⟨w, _, h1, ?_, ?_, ?_, isTrim_iff.2 rfl⟩⟩
        · omega
        · rw [hmod]; omega
        · rw [hmod]; exact field_iff.2 ⟨by omega, rfl⟩
      · exact ⟨[], fun _ h => absurd h hc⟩
    · exact ⟨[], fun h => absurd h hr⟩
  refine ⟨(List.range rows).map fun r => cols.map fun c => Classical.choose (hcell r c), (C36_table _ _ _ _ _).2 ⟨Or.inl hne, by simp, ?_⟩⟩
  intro r row hrow
  rw [List.getElem?_map] at hrow
  cases hrg : (List.range rows)[r]? with
  | none => rw [hrg] at hrow; cases hrow
  | some r' =>
    rw [hrg] at hrow
    obtain ⟨k1, k2⟩ := List.getElem?_eq_some_iff.1 hrg
    rw [List.getElem_range] at k2
    rw [List.length_range] at k1
    subst k2
    cases hrow
    refine ⟨by simp, ?_⟩
    intro j c s hc hs
    rw [List.getElem?_map, hc] at hs
    cases hs
    exact Classical.choose_spec (hcell r c) k1 (List.mem_of_getElem? hc)

/-- What the cards of a header say about column number `i` of an ASCII table. -/
structure AsciiColumn (F : FloatText) (raws : List Str) (i : Nat) (c : Column) : Prop where
  index : c.index = i
  format : Declares F raws (b!"TFORM" ++ showNat i) .string (.string c.format)
  start : ∃ v : BitVec 64, v.toNat = c.start ∧ Declares F raws (b!"TBCOL" ++ showNat i) .sizeT (.sizeT v)
  name : OptStr F raws (b!"TTYPE" ++ showNat i) c.name
  unit : OptStr F raws (b!"TUNIT" ++ showNat i) c.unit
  scale : OptDouble F raws (b!"TSCAL" ++ showNat i) c.scale
  zero : OptDouble F raws (b!"TZERO" ++ showNat i) c.zero
  comment : c.name ≠ [] → ¬ AxisKey c.name → OptStr F raws c.name c.comment
  total : c.total = 0

theorem ascii_column_ok {F : FloatText} {h h' : Header} {i : Nat} {c : Column} (hs : Sound F h)
    (e : Ascii.column F h i = .ok (h', c)) : Same h h' ∧ Sound F h' ∧ AsciiColumn F (h.cards.map (·.raw)) i c := by
  have hk : ∀ p : Str, p.length = 5 → p.headD 0 = 84 → ¬ AxisKey (p ++ showNat i) := by
    intro p hp hp'
    rintro (h | ⟨d, h⟩) <;> (match p, hp, hp' with | a :: _, _, hp' => (simp only [List.headD_cons] at hp'; subst hp'; simp at h))
  unfold Ascii.column at e
  obtain ⟨⟨h1, f⟩, e1, e⟩ := bind_ok e
  obtain ⟨⟨h2, st⟩, e2, e⟩ := bind_ok e
  obtain ⟨⟨h3, n, cm⟩, e3, e⟩ := bind_ok e
  obtain ⟨⟨h4, u⟩, e4, e⟩ := bind_ok e
  obtain ⟨⟨h5, sc⟩, e5, e⟩ := bind_ok e
  obtain ⟨⟨h6, z⟩, e6, e⟩ := bind_ok e
  simp only at e1 e2 e3 e4 e5 e6 e
  cases e
  obtain ⟨v, e2, hv⟩ := getSize_ok e2
  obtain ⟨s1, d1, _, p1⟩ := get_ok hs (getStr_ok e1)
  obtain ⟨s2, d2, _, p2⟩ := get_ok d1 e2
  obtain ⟨s3, d3, p3, p3'⟩ := columnName_ok d2 e3
  obtain ⟨s4, d4, p4⟩ := optional_str d3 (hk _ rfl rfl) e4
  obtain ⟨s5, d5, p5⟩ := optional_double d4 (hk _ rfl rfl) e5
  obtain ⟨s6, d6, p6⟩ := optional_double d5 (hk _ rfl rfl) e6
  have t2 := s1.trans s2
  have t3 := t2.trans s3
  have t4 := t3.trans s4
  have t5 := t4.trans s5
  rw [s1.raws] at p2
  rw [t2.raws] at p3 p3'
  rw [t3.raws] at p4
  rw [t4.raws] at p5
  rw [t5.raws] at p6
  exact ⟨t5.trans s6, d6, rfl, p1 (hk _ rfl rfl), ⟨v, hv, p2 (hk _ rfl rfl)⟩, p3, p4, p5, p6, p3', rfl⟩

theorem ascii_columns_ok {F : FloatText} : ∀ (n i : Nat) {h h' : Header} {cs : List Column}, Sound F h →
    Ascii.columns F n i h = .ok (h', cs) → Same h h' ∧ Sound F h' ∧ cs.length = n ∧
      ∀ j c, cs[j]? = some c → AsciiColumn F (h.cards.map (·.raw)) (i + j) c := by
  intro n
  induction n with
  | zero => intro i h h' cs hs e; cases e; exact ⟨Same.refl _, hs, rfl, fun j c hc => by simp at hc⟩
  | succ n ih =>
    intro i h h' cs hs e
    unfold Ascii.columns at e
    obtain ⟨⟨h1, c⟩, e1, e⟩ := bind_ok e
    obtain ⟨⟨h2, cs'⟩, e2, e⟩ := bind_ok e
    simp only at e1 e2 e
    cases e
    obtain ⟨s1, d1, p1⟩ := ascii_column_ok hs e1
    obtain ⟨s2, d2, l2, p2⟩ := ih (i + 1) d1 e2
    refine ⟨s1.trans s2, d2, by simp [l2], ?_⟩
    intro j c' hc
    cases j with
    | zero => simp only [List.getElem?_cons_zero, Option.some.injEq] at hc; subst hc; exact p1
    | succ j =>
      have := p2 j c' (by simpa using hc)
      rw [s1.raws] at this
      rwa [show i + (j + 1) = i + 1 + j by omega]

theorem base_ok {F : FloatText} {h : Header} {t : Table} (hs : Sound F h) (e : Table.base F h = .ok t) :
    Same h t.header ∧ Sound F t.header ∧ (∃ v : BitVec 64, v.toNat = t.tfields ∧ Declares F (h.cards.map (·.raw)) b!"TFIELDS" .sizeT (.sizeT v)) ∧
    Declares F (h.cards.map (·.raw)) b!"GCOUNT" .int (.int t.gcount) ∧ Declares F (h.cards.map (·.raw)) b!"PCOUNT" .int (.int t.pcount) ∧
    Declares F (h.cards.map (·.raw)) b!"EXTNAME" .string (.string t.extname) ∧ t.cols = [] ∧ t.data = [] := by
  unfold Table.base at e
  obtain ⟨⟨h1, g⟩, e1, e⟩ := bind_ok e
  obtain ⟨⟨h2, p⟩, e2, e⟩ := bind_ok e
  obtain ⟨⟨h3, x⟩, e3, e⟩ := bind_ok e
  obtain ⟨⟨h4, n⟩, e4, e⟩ := bind_ok e
  simp only at e1 e2 e3 e4 e
  cases e
  obtain ⟨v, e4, hv⟩ := getSize_ok e4
  obtain ⟨s1, d1, _, p1⟩ := get_ok hs (getInt_ok e1)
  obtain ⟨s2, d2, _, p2⟩ := get_ok d1 (getInt_ok e2)
  obtain ⟨s3, d3, _, p3⟩ := get_ok d2 (getStr_ok e3)
  obtain ⟨s4, d4, _, p4⟩ := get_ok d3 e4
  have t2 := s1.trans s2
  have t3 := t2.trans s3
  rw [s1.raws] at p2
  rw [t2.raws] at p3
  rw [t3.raws] at p4
  refine ⟨t3.trans s4, d4, ⟨v, hv, p4 ?_⟩, p1 ?_, p2 ?_, p3 ?_, rfl, rfl⟩ <;>
    (rintro (h | ⟨d, h⟩) <;> simp at h)

theorem naxisAt_ok {h : Header} {n v : Nat} (e : h.naxisAt n = .ok v) : 1 ≤ n ∧ h.naxis[n - 1]? = some v := by
  unfold Header.naxisAt at e
  by_cases hn : n = 0
  · rw [if_pos hn] at e; cases e
  · rw [if_neg hn] at e
    cases hx : h.naxis[n - 1]? with
    | none => rw [hx] at e; cases e
    | some x => rw [hx] at e; cases e; exact ⟨by omega, rfl⟩

/-- The table built from a header in good order. -/
theorem ascii_make_sound {F : FloatText} {h : Header} (hs : Sound F h) (buf : Str) (t : Table)
    (hm : Ascii.make F h buf = .ok t) :
    t.header.cards.map (·.raw) = h.cards.map (·.raw) ∧
    (∃ v : BitVec 64, v.toNat = t.cols.length ∧ Declares F (h.cards.map (·.raw)) b!"TFIELDS" .sizeT (.sizeT v)) ∧
    (∀ j c, t.cols[j]? = some c → AsciiColumn F (h.cards.map (·.raw)) (j + 1) c) ∧
    (buf = [] → t.data = []) ∧ (buf ≠ [] → ∃ rowLen rows more, h.naxis = rowLen :: rows :: more ∧ t.data.length = rows ∧
      ∀ (r : Nat) (row : List Str), t.data[r]? = some row → row.length = t.cols.length ∧
        ∀ (j : Nat) (c : Column) (x : Str), t.cols[j]? = some c → row[j]? = some x →
          ∃ w field, AsciiWidth c.format w ∧ 1 ≤ r * rowLen % 2 ^ 64 + c.start ∧ r * rowLen % 2 ^ 64 + c.start ≤ buf.length ∧
            Field buf (r * rowLen % 2 ^ 64 + c.start - 1) w field ∧ IsTrim field x) := by
  unfold Ascii.make at hm
  obtain ⟨t0, e0, hm⟩ := bind_ok hm
  obtain ⟨s0, d0, ⟨v, hv, hf⟩, _, _, _, _, dt0⟩ := base_ok hs e0
  unfold Ascii.setInfo at hm
  obtain ⟨⟨h1, cs⟩, e1, hm⟩ := bind_ok hm
  obtain ⟨s1, d1, l1, p1⟩ := ascii_columns_ok _ 1 d0 e1
  simp only at hm
  have hcols : ∀ j c, cs[j]? = some c → AsciiColumn F (h.cards.map (·.raw)) (j + 1) c := by
    intro j c hc
    have := p1 j c hc
    rwa [s0.raws, Nat.add_comm] at this
  by_cases hbuf : buf = []
  · rw [if_pos (by simpa using hbuf)] at hm
    cases hm
    exact ⟨(s0.trans s1).raws, ⟨v, by rw [hv]; exact l1.symm, hf⟩, hcols, fun _ => dt0, fun h => absurd hbuf h⟩
  rw [if_neg (by simpa using hbuf)] at hm
  obtain ⟨rows, e2, hm⟩ := bind_ok hm
  obtain ⟨rowLen, e3, hm⟩ := bind_ok hm
  obtain ⟨d, e4, hm⟩ := bind_ok hm
  cases hm
  simp only at *
  obtain ⟨_, e2⟩ := naxisAt_ok e2
  obtain ⟨_, e3⟩ := naxisAt_ok e3
  have hn : h1.naxis = h.naxis := (s0.trans s1).naxis
  rw [hn] at e2 e3
  refine ⟨(s0.trans s1).raws, ⟨v, by rw [hv, l1], hf⟩, hcols, fun h => absurd h hbuf, fun _ => ?_⟩
  · obtain ⟨_, g1, g2⟩ := (C36_table _ _ _ _ _).1 e4
    match hx : h.naxis with
    | [] => rw [hx] at e3; cases e3
    | [a] => rw [hx] at e2; cases e2
    | a :: b :: more =>
      rw [hx] at e2 e3
      cases e2; cases e3
      refine ⟨rowLen, rows, more, rfl, g1, ?_⟩
      intro r row hrow
      refine ⟨(g2 r row hrow).1, fun j c x hc hxx => ?_⟩
      exact (C36_cell _ _ _ _ _).1 ((g2 r row hrow).2 j c x hc hxx)

/-- **C36** The table object built from a header that was read from a file and a non-empty buffer: the columns are those the cards describe,
and the matrix holds, for NAXIS2 rows of NAXIS1 bytes, the cells at the places the columns declare. -/
theorem C36_make (F : FloatText) (fuel : Nat) (s s' : Stream) (h : Header) (hg : s.good = true)
    (e : Header.readHeader F fuel Header.empty s = some (.ok (h, s'))) (buf : Str) (hbuf : buf ≠ []) (t : Table)
    (hm : Ascii.make F h buf = .ok t) :
    t.header.cards.map (·.raw) = h.cards.map (·.raw) ∧
    (∃ v : BitVec 64, v.toNat = t.cols.length ∧ Declares F (h.cards.map (·.raw)) b!"TFIELDS" .sizeT (.sizeT v)) ∧
    (∀ j c, t.cols[j]? = some c → AsciiColumn F (h.cards.map (·.raw)) (j + 1) c) ∧
    ∃ rowLen rows more, h.naxis = rowLen :: rows :: more ∧ t.data.length = rows ∧
      ∀ (r : Nat) (row : List Str), t.data[r]? = some row → row.length = t.cols.length ∧
        ∀ (j : Nat) (c : Column) (x : Str), t.cols[j]? = some c → row[j]? = some x →
          ∃ w field, AsciiWidth c.format w ∧ 1 ≤ r * rowLen % 2 ^ 64 + c.start ∧ r * rowLen % 2 ^ 64 + c.start ≤ buf.length ∧
            Field buf (r * rowLen % 2 ^ 64 + c.start - 1) w field ∧ IsTrim field x :=
  let ⟨h1, h2, h3, _, h4⟩ := ascii_make_sound (sound_of_read hg e) buf t hm
  ⟨h1, h2, h3, h4 hbuf⟩

/-- Two rows of six bytes, columns `A3` at byte 1 and `I3` at byte 4. -/
example : Ascii.tableData b!"ab   1c    2" 6 2 [⟨1, b!"N", 1, b!"A3", [], none, none, [], [], [], 0⟩, ⟨2, b!"V", 4, b!"I3", [], none, none, [], [], [], 0⟩] =
    .ok [[b!"ab", b!"1"], [b!"c", b!"2"]] := by decide +kernel

end Astro
