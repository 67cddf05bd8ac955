import Verif.Lemmas.ForeignTable

/-
Properties C36 and C41 for the tables of any file, and C150: tables in files that other programs wrote.
-/

namespace Astro

open Spec Header Reader

/-! ## C36, C41: any file -/

/-- **C36** In whatever file: the columns of an ASCII table are those its cards describe, and the matrix holds the cells at the places they declare. -/
theorem C36_file (F : FloatText) (content : Str) (e : Entry) (he : Complete F content e) (t : Table) (ht : e.hdu = .ascii t) :
    t.header.cards.map (·.raw) = e.header.cards.map (·.raw) ∧
    (∃ v : BitVec 64, v.toNat = t.cols.length ∧ Declares F (e.header.cards.map (·.raw)) b!"TFIELDS" .sizeT (.sizeT v)) ∧
    (∀ j c, t.cols[j]? = some c → AsciiColumn F (e.header.cards.map (·.raw)) (j + 1) c) ∧
    (e.bytes = 0 → t.data = []) ∧ (e.bytes ≠ 0 → ∃ rowLen rows more, e.header.naxis = rowLen :: rows :: more ∧ t.data.length = rows ∧
      ∀ (r : Nat) (row : List Str), t.data[r]? = some row → row.length = t.cols.length ∧
        ∀ (j : Nat) (c : Column) (x : Str), t.cols[j]? = some c → row[j]? = some x →
          ∃ w field, AsciiWidth c.format w ∧ 1 ≤ r * rowLen % 2 ^ 64 + c.start ∧ r * rowLen % 2 ^ 64 + c.start ≤ e.bytes ∧
            Field (window content e.dataLoc e.bytes) (r * rowLen % 2 ^ 64 + c.start - 1) w field ∧ IsTrim field x) := by
  obtain ⟨fuel, s', hr⟩ := he.header
  obtain ⟨h1, en, hc⟩ := he.built
  have hz : window content e.dataLoc e.bytes = [] ↔ e.bytes = 0 := by rw [← List.length_eq_zero_iff, window_length]
  rcases construct_sound (sound_of_read rfl hr) en hc with ⟨p, h⟩ | h | ⟨h2, s2, r2, x2, u, ⟨h, hm⟩ | ⟨h, _⟩⟩
  · rw [ht] at h; cases h
  · rw [ht] at h; cases h
  · rw [ht] at h; cases h
    have := ascii_make_sound s2 _ _ hm
    rwa [r2, x2, hz, ne_eq, hz, window_length] at this
  · rw [ht] at h; cases h

/-- **C38, C41** In whatever file: the columns of a binary table are those its cards describe, each starts where the ones before it end, and the matrix
holds the fields at these places. -/
theorem C41_file (F : FloatText) (content : Str) (e : Entry) (he : Complete F content e) (t : Table) (ht : e.hdu = .binary t) :
    t.header.cards.map (·.raw) = e.header.cards.map (·.raw) ∧
    (∃ v : BitVec 64, v.toNat = t.cols.length ∧ Declares F (e.header.cards.map (·.raw)) b!"TFIELDS" .sizeT (.sizeT v)) ∧
    (∀ (j : Nat) (c : Column), t.cols[j]? = some c → BinColumn F (e.header.cards.map (·.raw)) (j + 1) c) ∧
    ∃ ws, Widths BinWidth (t.cols.map (·.format)) ws ∧
      (∀ (j : Nat) (c : Column), t.cols[j]? = some c → c.start = fieldStart ws j % 2 ^ 64) ∧
      (e.bytes = 0 → t.data = []) ∧ (e.bytes ≠ 0 → ∃ rowLen rows more, e.header.naxis = rowLen :: rows :: more ∧ t.data.length = rows ∧
        ∀ (r : Nat) (row : List Str), t.data[r]? = some row → row.length = t.cols.length ∧
          ∀ (j w : Nat) (x : Str), ws[j]? = some w → row[j]? = some x →
            ∃ field, Field (window content e.dataLoc e.bytes) (r * ws.sum + fieldStart ws j) w field ∧ IsTrim field x) := by
  obtain ⟨fuel, s', hr⟩ := he.header
  obtain ⟨h1, en, hc⟩ := he.built
  have hz : window content e.dataLoc e.bytes = [] ↔ e.bytes = 0 := by rw [← List.length_eq_zero_iff, window_length]
  rcases construct_sound (sound_of_read rfl hr) en hc with ⟨p, h⟩ | h | ⟨h2, s2, r2, x2, u, ⟨h, _⟩ | ⟨h, hm⟩⟩
  · rw [ht] at h; cases h
  · rw [ht] at h; cases h
  · rw [ht] at h; cases h
  · rw [ht] at h; cases h
    have := binary_make_sound s2 _ _ hm
    rwa [r2, x2, hz, ne_eq, hz] at this

/-! ## C150 -/

/-- The table object shows the binary table that the standard sees in the cards and the data: columns with their names, rows, and in each cell the bytes of the
field without the white space at its ends. -/
structure ShowsBinary (t : Table) (cards : List Str) (rowLen rows : Nat) (cols : List (Nat × Byte)) (data : Str) : Prop where
  raws : t.header.cards.map (·.raw) = cards
  columns : t.cols.length = cols.length
  names : ∀ (j : Nat) (c : Column) (d name : Str), t.cols[j]? = some c → IsNat d (j + 1) → SaysString cards (b!"TTYPE" ++ d) name → c.name = name
  unnamed : ∀ (j : Nat) (c : Column) (d : Str), t.cols[j]? = some c → IsNat d (j + 1) → Absent cards (b!"TTYPE" ++ d) → c.name = []
  place : ∀ (j : Nat) (c : Column) (w : Nat × Byte), t.cols[j]? = some c → cols[j]? = some w → c.index = j + 1 ∧ c.total = w.1
  rows : t.data.length = rows
  row : ∀ (r : Nat) (row : List Str), t.data[r]? = some row → row.length = cols.length
  cell : ∀ (r j : Nat) (row : List Str) (c : Nat × Byte) (cell : Str), t.data[r]? = some row → cols[j]? = some c → row[j]? = some cell →
    IsTrim (window data (r * rowLen + ((columnBytes cols).take j).sum) (fieldBytes c)) cell

/-- The same for ASCII tables. -/
structure ShowsAscii (t : Table) (cards : List Str) (rowLen rows : Nat) (cols : List (Nat × Nat)) (data : Str) : Prop where
  raws : t.header.cards.map (·.raw) = cards
  columns : t.cols.length = cols.length
  names : ∀ (j : Nat) (c : Column) (d name : Str), t.cols[j]? = some c → IsNat d (j + 1) → SaysString cards (b!"TTYPE" ++ d) name → c.name = name
  unnamed : ∀ (j : Nat) (c : Column) (d : Str), t.cols[j]? = some c → IsNat d (j + 1) → Absent cards (b!"TTYPE" ++ d) → c.name = []
  index : ∀ (j : Nat) (c : Column), t.cols[j]? = some c → c.index = j + 1
  widths : ∀ (j : Nat) (c : Column) (w : Nat × Nat), t.cols[j]? = some c → cols[j]? = some w → AsciiWidth c.format w.2
  rows : t.data.length = rows
  row : ∀ (r : Nat) (row : List Str), t.data[r]? = some row → row.length = cols.length
  cell : ∀ (r j : Nat) (row : List Str) (c : Nat × Nat) (cell : Str), t.data[r]? = some row → cols[j]? = some c → row[j]? = some cell →
    IsTrim (window data (r * rowLen + c.1 - 1) c.2) cell

/-- **C150** A binary table of another program, with an EXTNAME card and a header that does not fill its blocks exactly: the reader finds a table there with the
columns and rows the standard says are there; each cell is its field without the white space at its ends.  The next HDU is looked for
behind the rows, wherever PCOUNT says that the data end. -/
theorem C150_binary (F : FloatText) (content pre fill data rest x : Str) (cards : List Str) (rowLen rows heap : Nat) (cols : List (Nat × Byte))
    (hc : content = pre ++ cards.flatten ++ fill ++ data ++ rest) (hpre : 2880 ∣ pre.length) (hh : BinaryTableCards F cards rowLen rows heap cols)
    (hbits : ∀ c ∈ cols, c.2 = 88 → c.1 ≤ 1) (hn : TextNames F cards) (hx : SaysString cards b!"EXTNAME" x) (h36 : ¬ 36 ∣ cards.length)
    (hfill : 80 * cards.length + fill.length = roundUp (80 * cards.length)) (hd : data.length = rowLen * rows) (h0 : 0 < rowLen)
    (hb : content.length + 5760 < 2 ^ 63) :
    ∃ e t, Complete F content e ∧ e.hdu = .binary t ∧ e.loc = pre.length ∧
      e.next = pre.length + roundUp (80 * cards.length) + roundUp (rowLen * rows) + (if rows ≠ 0 ∧ 2880 ∣ rowLen * rows then 2880 else 0) ∧
      ShowsBinary t cards rowLen rows cols data := by
  obtain ⟨h, s', he, hr, hbp, hax, hp⟩ := shapeCards_read (F := F) hh.toShapeCards pre (fill ++ data ++ rest)
  have e0 : pre ++ cards.flatten ++ (fill ++ data ++ rest) = content := by rw [hc]; simp
  rw [e0] at he
  obtain ⟨h1, en⟩ := foreignTable_name hh.toForeignTable rfl he hr hp
  have hcols : cols ≠ [] := by rintro rfl; have := hh.width; simp [columnBytes] at this; omega
  have hfit : BinaryFits F (h.cards.map (·.raw)) cols.length h.naxis data := by
    refine ⟨rowLen, rows, [], columnBytes cols, hax, fun h => absurd (List.length_eq_zero_iff.1 h) hcols, by simp [columnBytes], ?_, ?_⟩
    · rw [← hh.width, hd, Nat.mul_comm]
    · intro i d f w h1 h2 h3 h4
      rw [hr] at h4
      exact binaryTable_widths hh h1 h2 (by rw [codeBytes_map hbits]; exact h3) h4
  obtain ⟨t, ct⟩ := (C86_binary F _ _ _ h h1 rfl he hp _ en (by rw [hr]; exact hh.noSimple) (by rw [hr]; exact hn) data
    (by rw [hr]; exact lookup_ok.2 (says_string hh.xtension))).2 ⟨cols.length, by rw [hr]; exact binaryTable_columns hh hx, .inr hfit⟩
  have hent := foreign_entry hc hpre hh.toShapeCards h36 hfill (by rw [hd]; simp [pixelCount, Bitpix.size]) hb he hr hbp hax en ct
  obtain ⟨k1, ⟨v, k2, k3⟩, k4, ws, k5, k6, k7, k8⟩ := C41_file F content _ hent t rfl
  simp only at k1 k3 k4 k7 k8
  rw [hr] at k1 k3 k4
  have hlen : t.cols.length = cols.length := by
    obtain ⟨v', g1, g2⟩ := (foreignTable_cards (F := F) hh.toForeignTable hx).tfields
    cases lookup_fun g1 (lookup_ok.2 k3)
    rw [← k2, g2]
  have hws : ws = columnBytes cols := by
    have hl : ws.length = cols.length := by rw [widths_length k5, List.length_map, hlen]
    refine List.ext_getElem (by rw [hl]; simp [columnBytes]) fun j hj1 hj2 => ?_
    have hj : j < t.cols.length := by omega
    have g1 := (k4 j _ (List.getElem?_eq_getElem hj)).format
    have g2 := binaryTable_widths hh (i := j + 1) (by omega) (showNat_isNat (j + 1)) (by rw [codeBytes_map hbits, Nat.add_sub_cancel]; exact List.getElem?_eq_getElem hj2) (lookup_ok.2 g1)
    exact binWidth_unique _ _ _ (widths_get k5 j _ _ (by rw [List.getElem?_map, List.getElem?_eq_getElem hj]; rfl) (List.getElem?_eq_getElem hj1)) g2
  subst hws
  have hwin : window content (pre.length + roundUp (80 * cards.length)) data.length = data := foreign_window hc hh.toShapeCards hfill
  have hz : data.length = 0 ↔ rows = 0 := by rw [hd, Nat.mul_eq_zero]; omega
  have hname : ∀ (j : Nat) (c : Column) (d name : Str), t.cols[j]? = some c → IsNat d (j + 1) → SaysString cards (b!"TTYPE" ++ d) name → c.name = name := by
    intro j c d name hj hd' hs
    obtain rfl := isNat_iff.1 hd'
    rcases (k4 j c hj).name with g | ⟨g, _⟩
    · exact says_string_fun hs g
    · obtain ⟨_, ⟨_, _, _, _, g', _⟩, _⟩ := hs
      exact absurd g (lastWith_not_absent g')
  have hno : ∀ (j : Nat) (c : Column) (d : Str), t.cols[j]? = some c → IsNat d (j + 1) → Absent cards (b!"TTYPE" ++ d) → c.name = [] := by
    intro j c d hj hd' ha
    obtain rfl := isNat_iff.1 hd'
    rcases (k4 j c hj).name with ⟨_, _, g, _⟩ | ⟨_, g⟩
    · exact absurd ha (lastWith_not_absent g)
    · exact g
  have hplace : ∀ (j : Nat) (c : Column) (w : Nat × Byte), t.cols[j]? = some c → cols[j]? = some w → c.index = j + 1 ∧ c.total = w.1 := by
    intro j c w hj hw
    obtain ⟨⟨f, g1, g2⟩, _⟩ := hh.column j w _ hw (showNat_isNat (j + 1))
    have g3 := (k4 j c hj).total
    rw [says_string_fun g1 (k4 j c hj).format, formatText_count g2 (hh.letter w (List.mem_of_getElem? hw)) (hh.bound w (List.mem_of_getElem? hw))] at g3
    exact ⟨(k4 j c hj).index, (Except.ok.inj g3).symm⟩
  refine ⟨_, t, hent, rfl, rfl, by simp only [afterForeign, ne_eq, hz]; rw [hd], ?_⟩
  by_cases hr0 : rows = 0
  · have := k7 (hz.2 hr0)
    exact ⟨k1, hlen, hname, hno, hplace, by rw [this]; exact hr0.symm, by rw [this]; simp, by rw [this]; simp⟩
  · obtain ⟨rl, rs, more, q1, q2, q3⟩ := k8 (fun h => hr0 (hz.1 h))
    rw [hax] at q1
    cases q1
    refine ⟨k1, hlen, hname, hno, hplace, q2, fun r row hrow => (q3 r row hrow).1.trans hlen, fun r j row c cell hrow hj hcell => ?_⟩
    obtain ⟨field, ⟨a, b, f1, f2, f3⟩, f4⟩ := (q3 r row hrow).2 j _ cell (columnBytes_get hj) hcell
    rw [hwin] at f1
    rw [← hh.width] at f2
    have := window_at a field b
    rw [← f1, f2, f3] at this
    unfold fieldStart at this
    rwa [this]

/-- **C150** The same for ASCII tables. -/
theorem C150_ascii (F : FloatText) (content pre fill data rest x : Str) (cards : List Str) (rowLen rows heap : Nat) (cols : List (Nat × Nat))
    (hc : content = pre ++ cards.flatten ++ fill ++ data ++ rest) (hpre : 2880 ∣ pre.length) (hh : AsciiTableCards F cards rowLen rows heap cols)
    (hn : TextNames F cards) (hx : SaysString cards b!"EXTNAME" x) (h36 : ¬ 36 ∣ cards.length)
    (hfill : 80 * cards.length + fill.length = roundUp (80 * cards.length)) (hd : data.length = rowLen * rows) (h0 : cols ≠ [])
    (hb : content.length + 5760 < 2 ^ 63) :
    ∃ e t, Complete F content e ∧ e.hdu = .ascii t ∧ e.loc = pre.length ∧
      e.next = pre.length + roundUp (80 * cards.length) + roundUp (rowLen * rows) + (if rows ≠ 0 ∧ 2880 ∣ rowLen * rows then 2880 else 0) ∧
      ShowsAscii t cards rowLen rows cols data := by
  obtain ⟨h, s', he, hr, hbp, hax, hp⟩ := shapeCards_read (F := F) hh.toShapeCards pre (fill ++ data ++ rest)
  have e0 : pre ++ cards.flatten ++ (fill ++ data ++ rest) = content := by rw [hc]; simp
  rw [e0] at he
  obtain ⟨h1, en⟩ := foreignTable_name hh.toForeignTable rfl he hr hp
  have hflat : cards.flatten.length = 80 * cards.length := flatten_length80 cards fun r hr => (hh.size r hr).1
  have hlt : rowLen * rows < 2 ^ 63 := by
    have : data.length ≤ content.length := by rw [hc]; simp only [List.length_append]; omega
    omega
  have hrow : 1 ≤ rowLen := by
    obtain ⟨c, l, rfl⟩ := List.exists_cons_of_ne_nil h0
    have := hh.inside c List.mem_cons_self
    omega
  have hrl := shape_rowLen hh.toShapeCards
  have offset : ∀ r, r < rows → r * rowLen % 2 ^ 64 = r * rowLen ∧ r * rowLen + rowLen ≤ data.length := by
    intro r hr'
    have : (r + 1) * rowLen ≤ rows * rowLen := Nat.mul_le_mul_right _ hr'
    rw [Nat.add_mul, Nat.one_mul, Nat.mul_comm rows, ← hd] at this
    exact ⟨Nat.mod_eq_of_lt (by omega), this⟩
  have format : ∀ (j : Nat) (c : Nat × Nat) (d f : Str), cols[j]? = some c → IsNat d (j + 1) → Declares F cards (b!"TFORM" ++ d) .string (.string f) →
      AsciiWidth f c.2 := by
    intro j c d f hj hd' hf
    obtain ⟨⟨f', g1, g2⟩, _⟩ := hh.column j c d hj hd'
    cases says_string_fun g1 hf
    have := hh.inside c (List.mem_of_getElem? hj)
    exact asciiFormatText_width g2 (by omega)
  have start : ∀ (j : Nat) (c : Nat × Nat) (d : Str) (v : BitVec 64), cols[j]? = some c → IsNat d (j + 1) →
      Declares F cards (b!"TBCOL" ++ d) .sizeT (.sizeT v) → v.toNat = c.1 := by
    intro j c d v hj hd' hv
    obtain ⟨_, g3, _⟩ := hh.column j c d hj hd'
    have h1 := hh.inside c (List.mem_of_getElem? hj)
    have := lookup_fun (lookup_ok.2 (says_declares (F := F) (v := .sizeT _) g3 (size_natCast (show c.1 < 2 ^ 64 by omega)))) (lookup_ok.2 hv)
    cases this
    rw [BitVec.toNat_ofNat]; omega
  have hfit : AsciiFits F (h.cards.map (·.raw)) cols.length h.naxis data := by
    refine ⟨rowLen, rows, [], hax, fun h => absurd (List.length_eq_zero_iff.1 h) h0, ?_⟩
    intro r i d f b h1 h2 h3 h4 h5 h6
    rw [hr] at h5 h6
    obtain ⟨j, rfl⟩ : ∃ j, i = j + 1 := ⟨i - 1, by omega⟩
    have hj : cols[j]? = some cols[j] := List.getElem?_eq_getElem (by omega)
    have g1 := hh.inside _ (List.mem_of_getElem? hj)
    have g2 := start j _ d b hj h4 (lookup_ok.1 h6)
    obtain ⟨g3, g4⟩ := offset r h1
    exact ⟨_, format j _ d f hj h4 (lookup_ok.1 h5), by omega, by omega, by omega⟩
  obtain ⟨t, ct⟩ := (C86_ascii F _ _ _ h h1 rfl he hp _ en (by rw [hr]; exact hh.noSimple) (by rw [hr]; exact hn) data
    (by rw [hr]; exact lookup_ok.2 (says_string hh.xtension))).2 ⟨cols.length, by rw [hr]; exact asciiTable_columns hh hx, .inr hfit⟩
  have hent := foreign_entry hc hpre hh.toShapeCards h36 hfill (by rw [hd]; simp [pixelCount, Bitpix.size]) hb he hr hbp hax en ct
  obtain ⟨k1, ⟨v, k2, k3⟩, k4, k7, k8⟩ := C36_file F content _ hent t rfl
  simp only at k1 k3 k4 k7 k8
  rw [hr] at k1 k3 k4
  have hlen : t.cols.length = cols.length := by
    obtain ⟨v', g1, g2⟩ := (foreignTable_cards (F := F) hh.toForeignTable hx).tfields
    cases lookup_fun g1 (lookup_ok.2 k3)
    rw [← k2, g2]
  have hwin : window content (pre.length + roundUp (80 * cards.length)) data.length = data := foreign_window hc hh.toShapeCards hfill
  have hz : data.length = 0 ↔ rows = 0 := by rw [hd, Nat.mul_eq_zero]; omega
  have hname : ∀ (j : Nat) (c : Column) (d name : Str), t.cols[j]? = some c → IsNat d (j + 1) → SaysString cards (b!"TTYPE" ++ d) name → c.name = name := by
    intro j c d name hj hd' hs
    obtain rfl := isNat_iff.1 hd'
    rcases (k4 j c hj).name with g | ⟨g, _⟩
    · exact says_string_fun hs g
    · obtain ⟨_, ⟨_, _, _, _, g', _⟩, _⟩ := hs
      exact absurd g (lastWith_not_absent g')
  have hno : ∀ (j : Nat) (c : Column) (d : Str), t.cols[j]? = some c → IsNat d (j + 1) → Absent cards (b!"TTYPE" ++ d) → c.name = [] := by
    intro j c d hj hd' ha
    obtain rfl := isNat_iff.1 hd'
    rcases (k4 j c hj).name with ⟨_, _, g, _⟩ | ⟨_, g⟩
    · exact absurd ha (lastWith_not_absent g)
    · exact g
  have hwidth : ∀ (j : Nat) (c : Column) (w : Nat × Nat), t.cols[j]? = some c → cols[j]? = some w → AsciiWidth c.format w.2 :=
    fun j c w hj hw => format j w _ _ hw (showNat_isNat (j + 1)) (k4 j c hj).format
  refine ⟨_, t, hent, rfl, rfl, by simp only [afterForeign, ne_eq, hz]; rw [hd], ?_⟩
  by_cases hr0 : rows = 0
  · have := k7 (hz.2 hr0)
    exact ⟨k1, hlen, hname, hno, fun j c hj => (k4 j c hj).index, hwidth, by rw [this]; exact hr0.symm, by rw [this]; simp, by rw [this]; simp⟩
  · obtain ⟨rl, rs, more, q1, q2, q3⟩ := k8 (fun h => hr0 (hz.1 h))
    rw [hax] at q1
    cases q1
    refine ⟨k1, hlen, hname, hno, fun j c hj => (k4 j c hj).index, hwidth, q2, fun r row hrow => (q3 r row hrow).1.trans hlen, fun r j row c cell hrow hj hcell => ?_⟩
    have hjt : j < t.cols.length := by rw [hlen]; exact (List.getElem?_eq_some_iff.1 hj).1
    have hjt' := List.getElem?_eq_getElem hjt
    obtain ⟨w, field, w1, _, _, ⟨a, b, f1, f2, f3⟩, f4⟩ := (q3 r row hrow).2 j _ cell hjt' hcell
    have g1 := k4 j _ hjt'
    obtain ⟨v, g2, g3⟩ := g1.start
    have g4 := start j c _ v hj (showNat_isNat (j + 1)) g3
    have g5 := format j c _ _ hj (showNat_isNat (j + 1)) g1.format
    have hw := asciiWidth_unique _ _ _ w1 g5
    have hr1 : r < rows := by rw [← q2]; exact (List.getElem?_eq_some_iff.1 hrow).1
    rw [hwin] at f1
    have := window_at a field b
    rw [← f1, f2, f3, (offset r hr1).1, ← g2, g4, hw] at this
    rwa [this]

/-- **C150** Without EXTNAME, which the standard does not require, no table is accepted: wherever in a file it stands, opening the file raises `out_of_range`. -/
theorem C150_no_extname (F : FloatText) (content pre rest kind : Str) (cards : List Str) (rowLen rows heap fields : Nat) (es : List Entry)
    (hes : Chain (Complete F content) 0 es pre.length) (hc : content = pre ++ cards.flatten ++ rest)
    (hh : ForeignTable cards kind rowLen rows heap fields) (hk : kind = b!"TABLE" ∨ kind = b!"BINTABLE") (hx : Absent cards b!"EXTNAME")
    (hd : rowLen * rows < 2 ^ 63) (hb : content.length + 5760 < 2 ^ 63) :
    EndsIn (fun cards turns => readEntire F cards turns (openFile content)) (.raised .outOfRange) := by
  obtain ⟨h, s', he, hr, hbp, hax, hp⟩ := shapeCards_read (F := F) hh.toShapeCards pre rest
  rw [← hc] at he
  obtain ⟨h1, en⟩ := foreignTable_name hh rfl he hr hp
  obtain ⟨d1, d2, d3⟩ := announces_image (n := rowLen * rows) hbp hax (by simp [pixelCount, Bitpix.size]) (by omega)
  obtain ⟨d, hnb⟩ := nextBoundary_exists (pre.length + 80 * h.cards.length)
  have hflat : cards.flatten.length = 80 * cards.length := flatten_length80 cards fun r hr => (hh.size r hr).1
  have hcards : 0 < cards.length := by
    obtain ⟨l, x, g, _⟩ := hh.last; rw [g]; simp
  refine (C134_entire F content hb _).2 (.inr ⟨es, pre.length, hes, by rw [hc]; simp only [List.length_append, hflat]; omega, ?_⟩)
  refine .refused (h := h) (n := rowLen * rows) ⟨_, s', he⟩ hnb ⟨fun hz => d2.1 hz, fun _ => d3⟩ (by omega) ⟨h1, .inr ⟨_, en, ?_⟩⟩
  have hkind : Lookup F (h.cards.map (·.raw)) b!"XTENSION" .string (.ok (.string kind)) := by rw [hr]; exact lookup_ok.2 (says_string hh.xtension)
  refine C86_first_error F _ _ _ h h1 rfl he hp _ en (by rw [hr]; exact hh.noSimple) _ (hk.elim (fun e => .inl (by rw [← e]; exact hkind)) (fun e => .inr (by rw [← e]; exact hkind))) _ ?_
  rw [hr]
  refine .later (lookup_ok.2 (says_declares (v := .int 1) hh.gcount rfl)) (.later (lookup_ok.2 (says_declares (v := .int _) hh.pcount.1 (nat_int32 hh.pcount.2))) (.here (.inl ⟨hx, rfl⟩)))

/-- **C150** Binary tables with 64-bit integers (K) or variable-length arrays (P, Q) make the whole file unreadable. -/
theorem C150_unsupported (F : FloatText) (content pre rest f d : Str) (cards : List Str) (rowLen rows heap fields i : Nat) (es : List Entry)
    (hes : Chain (Complete F content) 0 es pre.length) (hc : content = pre ++ cards.flatten ++ rest)
    (hh : ForeignTable cards b!"BINTABLE" rowLen rows heap fields) (hn : TextNames F cards) (hi : 1 ≤ i ∧ i ≤ fields) (hd : IsNat d i)
    (hf : SaysString cards (b!"TFORM" ++ d) f) (hu : NewerFormat f) (hb : content.length + 5760 < 2 ^ 63) (hdus : List Hdu) :
    ¬ EndsIn (fun cards turns => readEntire F cards turns (openFile content)) (.opened hdus) := by
  intro hopen
  have hflat : cards.flatten.length = 80 * cards.length := flatten_length80 cards fun r hr => (hh.size r hr).1
  have hcards : 0 < cards.length := by
    obtain ⟨l, x, g, _⟩ := hh.last; rw [g]; simp
  rcases (C134_entire F content hb _).1 hopen with ⟨es', ⟨q, hq, hq2⟩, ho⟩ | ⟨es', q, _, _, hbr⟩
  · obtain ⟨e, he1, he2⟩ := chain_through hes hq (by rw [hc] at hq2; simp only [List.length_append, hflat] at hq2; omega)
    obtain ⟨h, s', hr, hraw, hbp, hax, hp⟩ := shapeCards_read (F := F) hh.toShapeCards pre rest
    rw [← hc] at hr
    obtain ⟨g, s'', hr'⟩ := he2.header
    have e1 := readHeader_mono hr g
    have e2 := readHeader_mono hr' cards.length
    rw [Nat.add_comm, he1] at e2
    rw [e2] at e1
    have hhead : e.header = h := congrArg Prod.fst (Except.ok.inj (Option.some.inj e1))
    obtain ⟨h1, en, hcon⟩ := he2.built
    rw [hhead] at en
    have hx : Lookup F (h.cards.map (·.raw)) b!"XTENSION" .string (.ok (.string b!"BINTABLE")) := by rw [hraw]; exact lookup_ok.2 (says_string hh.xtension)
    have hbin : ∃ t, e.hdu = .binary t := by
      obtain ⟨h2, _, _, _, hct⟩ := construct_table F _ _ _ h h1 rfl hr hp _ en (by rw [hraw]; exact hh.noSimple) (window content e.dataLoc e.bytes) hx
      rw [hcon, if_neg (by decide), if_pos rfl] at hct
      obtain ⟨t, _, ht⟩ := bind_ok hct.symm
      exact ⟨t, (Except.ok.inj ht).symm⟩
    obtain ⟨t, ht⟩ := hbin
    rw [ht] at hcon
    obtain ⟨n, hcb, _⟩ := (C86_binary F _ _ _ h h1 rfl hr hp _ en (by rw [hraw]; exact hh.noSimple) (by rw [hraw]; exact hn) _ hx).1 ⟨t, hcon⟩
    rw [hraw] at hcb
    obtain ⟨v, g1, g2⟩ := hcb.table.tfields
    have hv := lookup_fun g1 (lookup_ok.2 (says_declares (F := F) (v := .sizeT _) hh.tfields.1 (size_natCast (show fields < 2 ^ 64 by have := hh.tfields.2; omega))))
    cases hv
    rw [BitVec.toNat_ofNat, Nat.mod_eq_of_lt (by have := hh.tfields.2; omega)] at g2
    obtain ⟨_, _, _, f', w, k1, k2⟩ := hcb.column i d hi.1 (by omega) hd
    cases says_string_fun hf (lookup_ok.1 k1)
    exact newerFormat_width hu k2
  · cases hbr

/-- **C150** A binary table with a column of two or more bits and at least one row is undefined behaviour: the code takes a byte for every bit and reads behind the data. -/
theorem C150_bits (F : FloatText) (content pre fill data rest x : Str) (cards : List Str) (rowLen rows heap : Nat) (cols : List (Nat × Byte)) (es : List Entry)
    (hes : Chain (Complete F content) 0 es pre.length)
    (hc : content = pre ++ cards.flatten ++ fill ++ data ++ rest) (hpre : 2880 ∣ pre.length) (hh : BinaryTableCards F cards rowLen rows heap cols)
    (hbits : ∃ c ∈ cols, c.2 = 88 ∧ 2 ≤ c.1) (hn : TextNames F cards) (hx : SaysString cards b!"EXTNAME" x) (h36 : ¬ 36 ∣ cards.length)
    (hfill : 80 * cards.length + fill.length = roundUp (80 * cards.length)) (hd : data.length = rowLen * rows) (h0 : 0 < rows)
    (hb : content.length + 5760 < 2 ^ 63) :
    EndsIn (fun cards turns => readEntire F cards turns (openFile content)) (.raised .ub) := by
  obtain ⟨h, s', he, hr, hbp, hax, hp⟩ := shapeCards_read (F := F) hh.toShapeCards pre (fill ++ data ++ rest)
  have e0 : pre ++ cards.flatten ++ (fill ++ data ++ rest) = content := by rw [hc]; simp
  rw [e0] at he
  obtain ⟨h1, en⟩ := foreignTable_name hh.toForeignTable rfl he hr hp
  have hflat : cards.flatten.length = 80 * cards.length := flatten_length80 cards fun r hr => (hh.size r hr).1
  have hlen : content.length = pre.length + roundUp (80 * cards.length) + data.length + rest.length := by
    rw [hc]; simp only [List.length_append, hflat]; omega
  have hcl : h.cards.length = cards.length := by rw [← hr, List.length_map]
  have hcards : cards.length ≠ 0 := by rintro h; rw [h] at h36; simp at h36
  obtain ⟨d1, d2, d3⟩ := announces_image (n := data.length) hbp hax (by rw [hd]; simp [pixelCount, Bitpix.size]) (by omega)
  have hdl : NextBoundary (pre.length + 80 * cards.length) (pre.length + roundUp (80 * cards.length)) := by
    rw [← roundUp_add hpre]; exact roundUp_next_of (by omega)
  have hlong := codeBytes_longer.2 hbits
  rw [← hh.width] at hlong
  have hrow : 0 < rowLen := by
    obtain ⟨c, k1, k2, k3⟩ := hbits
    obtain ⟨j, hj⟩ := List.mem_iff_getElem?.1 k1
    have := le_sum_get (columnBytes_get hj)
    rw [← hh.width] at this
    have : 1 ≤ fieldBytes c := by unfold fieldBytes; rw [if_pos k2]; omega
    omega
  have hne : data ≠ [] := by
    intro h
    rw [h, List.length_nil] at hd
    rcases Nat.mul_eq_zero.1 hd.symm with h | h <;> omega
  have hnofit : ¬ BinaryFits F (h.cards.map (·.raw)) cols.length h.naxis data := by
    rintro ⟨rl, rs, more, ws, k1, k2, k3, k4, k5⟩
    rw [hax] at k1
    cases k1
    have hws : ws = cols.map codeBytes := by
      refine List.ext_getElem (by rw [k3]; simp) fun j hj1 hj2 => ?_
      have hj : cols[j]? = some cols[j] := List.getElem?_eq_getElem (by omega)
      obtain ⟨⟨f, g1, _⟩, _⟩ := hh.column j _ _ hj (showNat_isNat (j + 1))
      have g2 := lookup_ok.2 (says_string (F := F) g1)
      have q1 := k5 (j + 1) _ f _ (by omega) (showNat_isNat (j + 1)) (by rw [Nat.add_sub_cancel]; exact List.getElem?_eq_getElem hj1) (by rw [hr]; exact g2)
      have q2 := binaryTable_widths hh (i := j + 1) (by omega) (showNat_isNat (j + 1)) (by rw [Nat.add_sub_cancel]; exact List.getElem?_eq_getElem hj2) g2
      exact binWidth_unique _ _ _ q1 q2
    rw [hws, hd, Nat.mul_comm] at k4
    exact absurd (Nat.lt_of_lt_of_le ((Nat.mul_lt_mul_right h0).2 hlong) k4) (lt_irrefl _)
  refine (C134_entire F content hb _).2 (.inr ⟨es, pre.length, hes, by rw [hlen]; unfold roundUp; omega, ?_⟩)
  refine .refused (h := h) (n := data.length) ⟨_, s', he⟩ (by rw [hcl]; exact hdl) ⟨fun hz => d2.1 hz, fun _ => d3⟩ (by omega) ⟨h1, .inr ⟨_, en, ?_⟩⟩
  rw [foreign_window hc hh.toShapeCards hfill]
  exact C86_binary_undefined F _ _ _ h h1 rfl he hp _ en (by rw [hr]; exact hh.noSimple) (by rw [hr]; exact hn) data
    (by rw [hr]; exact lookup_ok.2 (says_string hh.xtension)) cols.length (by rw [hr]; exact binaryTable_columns hh hx) hne hnofit

/-- **C150** Extensions that are no tables, in particular images, leave nothing but an empty place in the list of HDUs. -/
theorem C150_other (F : FloatText) (content pre fill data rest kind : Str) (cards : List Str) (b : Bitpix) (axes : List Nat)
    (hc : content = pre ++ cards.flatten ++ fill ++ data ++ rest) (hpre : 2880 ∣ pre.length) (hh : ShapeCards cards b axes)
    (hs : Absent cards b!"SIMPLE") (hx : SaysString cards b!"XTENSION" kind) (hk : kind ≠ b!"TABLE" ∧ kind ≠ b!"BINTABLE") (h36 : ¬ 36 ∣ cards.length)
    (hfill : 80 * cards.length + fill.length = roundUp (80 * cards.length)) (hd : data.length = pixelCount axes * b.size)
    (hb : content.length + 5760 < 2 ^ 63) :
    ∃ e, Complete F content e ∧ e.hdu = .blank ∧ e.loc = pre.length ∧
      e.next = pre.length + roundUp (80 * cards.length) + roundUp data.length + (if data ≠ [] ∧ 2880 ∣ data.length then 2880 else 0) := by
  obtain ⟨h, s', he, hr, hbp, hax, hp⟩ := shapeCards_read (F := F) hh pre (fill ++ data ++ rest)
  have e0 : pre ++ cards.flatten ++ (fill ++ data ++ rest) = content := by rw [hc]; simp
  rw [e0] at he
  have hn := (C34_name F _ _ _ h rfl he hp).1 kind (by rw [hr]; exact says_string hx)
  have en : h.getHduName F = ((h.getHduName F).1, .ok kind) := by rw [← hn]
  obtain ⟨h2, _, _, _, hct⟩ := construct_table F _ _ _ h _ rfl he hp _ en (by rw [hr]; exact hs) data (by rw [hr]; exact lookup_ok.2 (says_string hx))
  rw [if_neg hk.1, if_neg hk.2] at hct
  have h0 : data.length = 0 ↔ data = [] := List.length_eq_zero_iff
  exact ⟨_, foreign_entry hc hpre hh h36 hfill hd hb he hr hbp hax en hct, rfl, rfl, by simp only [afterForeign, ne_eq, h0]⟩

/-- A file of a primary HDU without data and a table, laid out as the standard has it; `heap` are the bytes between the rows and the filling of the last block. -/
def TableFile (content : Str) (first cards : List Str) (data heap : Str) : Prop :=
  ∃ fill fill' tail, content = first.flatten ++ fill ++ cards.flatten ++ fill' ++ data ++ heap ++ tail ∧
    80 * first.length + fill.length = roundUp (80 * first.length) ∧ 80 * cards.length + fill'.length = roundUp (80 * cards.length) ∧
    data.length + heap.length + tail.length = roundUp (data.length + heap.length)

/-- The primary HDU of such a file. -/
theorem tableFile_first {F : FloatText} {content : Str} {first cards : List Str} {data heap : Str} {b : Bitpix} {ext : Bool} (hc : TableFile content first cards data heap)
    (hh : ImageCards first b []) (hx : Says first b!"EXTEND" (if ext then b!"T" else b!"F")) (h36 : ¬ 36 ∣ first.length) (hb : content.length + 5760 < 2 ^ 63) :
    ∃ e p, Complete F content e ∧ e.hdu = .primary p ∧ e.loc = 0 ∧ e.next = roundUp (80 * first.length) ∧ p.header.cards.map (·.raw) = first := by
  obtain ⟨fill, fill', tail, e1, e2, e3, e4⟩ := hc
  obtain ⟨e, p, h1, h2, h3, h4, h5, _⟩ := C149_image F content [] fill [] (cards.flatten ++ fill' ++ data ++ heap ++ tail) first b [] ext
    (by rw [e1]; simp) (by simp) hh hx h36 e2 (by simp [pixelCount]) hb
  exact ⟨e, p, h1, h2, h3, by rw [h5]; simp [roundUp], h4⟩

/-- **C150** So the usual table file of another program (a primary HDU without data, then a binary table) is opened, if both numbers of cards are no multiples of 36 and the
cards EXTEND and EXTNAME are there; a heap does not matter as long as it ends in the block of the last row (or, if the rows fill
their blocks, in the one behind). -/
theorem C150_opened (F : FloatText) (content data heap x : Str) (first cards : List Str) (b : Bitpix) (ext : Bool) (rowLen rows : Nat) (cols : List (Nat × Byte))
    (hc : TableFile content first cards data heap) (hf : ImageCards first b []) (he : Says first b!"EXTEND" (if ext then b!"T" else b!"F"))
    (h36 : ¬ 36 ∣ first.length) (hh : BinaryTableCards F cards rowLen rows heap.length cols) (hbits : ∀ c ∈ cols, c.2 = 88 → c.1 ≤ 1) (hn : TextNames F cards) (hx : SaysString cards b!"EXTNAME" x)
    (h36' : ¬ 36 ∣ cards.length) (hd : data.length = rowLen * rows) (h0 : 0 < rowLen) (hb : content.length + 5760 < 2 ^ 63) :
    (roundUp (data.length + heap.length) ≤ roundUp data.length + (if rows ≠ 0 ∧ 2880 ∣ data.length then 2880 else 0) →
      ∃ p t, EndsIn (fun cards turns => readEntire F cards turns (openFile content)) (.opened [.primary p, .binary t]) ∧
        p.header.cards.map (·.raw) = first ∧ ShowsBinary t cards rowLen rows cols data) ∧
    (roundUp data.length + (if rows ≠ 0 ∧ 2880 ∣ data.length then 2880 else 0) < roundUp (data.length + heap.length) →
      ∀ hdus, EndsIn (fun cards turns => readEntire F cards turns (openFile content)) (.opened hdus) → 3 ≤ hdus.length) := by
  obtain ⟨e1, p, p1, p2, p3, p4, p5⟩ := tableFile_first (F := F) hc hf he h36 hb
  obtain ⟨fill, fill', tail, c1, c2, c3, c4⟩ := hc
  have hflat1 : first.flatten.length = 80 * first.length := flatten_length80 first fun r hr => (hf.size r hr).1
  have hflat2 : cards.flatten.length = 80 * cards.length := flatten_length80 cards fun r hr => (hh.size r hr).1
  have hpl : (first.flatten ++ fill).length = roundUp (80 * first.length) := by rw [List.length_append, hflat1, c2]
  obtain ⟨e2, t, t1, t2, t3, t4, t5⟩ := C150_binary F content (first.flatten ++ fill) fill' data (heap ++ tail) x cards rowLen rows heap.length cols
    (by rw [c1]; simp) (by rw [hpl]; unfold roundUp; omega) hh hbits hn hx h36' c3 hd h0 hb
  rw [hpl] at t3 t4
  have hlen : content.length = roundUp (80 * first.length) + roundUp (80 * cards.length) + roundUp (data.length + heap.length) := by
    rw [c1]; simp only [List.length_append, hflat1, hflat2]; omega
  rw [← hd] at t4
  constructor
  · intro hle
    refine ⟨p, t, (C134_entire F content hb _).2 (.inl ⟨[e1, e2], ⟨e2.next, ⟨p3, p1, t3.trans p4.symm, t1, rfl⟩, by omega⟩, by simp [p2, t2]⟩), p5, t5⟩
  · intro hlt hdus hopen
    rcases (C134_entire F content hb _).1 hopen with ⟨es, ⟨q, hq, hq2⟩, ho⟩ | ⟨es, q, _, _, hbr⟩
    · cases ho
      rw [List.length_map]
      match es, hq with
      | [], hq => exfalso; cases hq; unfold roundUp at hlen; omega
      | a :: es, ⟨a1, a2, a3⟩ =>
        have ha := complete_same a2 p1 (a1.trans p3.symm)
        rw [ha, p4] at a3
        match es, a3 with
        | [], a3 => exfalso; cases a3; omega
        | b :: es, ⟨b1, b2, b3⟩ =>
          have hb' := complete_same b2 t1 (b1.trans t3.symm)
          rw [hb', t4] at b3
          match es, b3 with
          | [], b3 => exfalso; cases b3; omega
          | _ :: _ :: _, _ => simp
          | [_], _ => simp
    · cases hbr

/-- The header of a table as another program might write it: number and name of stars. -/
def exStars : List Str :=
  [exCard b!"XTENSION= 'BINTABLE'           / binary table extension", exCard b!"BITPIX  =                    8", exCard b!"NAXIS   = 2", exCard b!"NAXIS1  = 6 / bytes",
   exCard b!"NAXIS2  =                   +2", exCard b!"PCOUNT  = 0", exCard b!"GCOUNT  = 1", exCard b!"TFIELDS = 2", exCard b!"TFORM1  = 'J       '",
   exCard b!"TTYPE1  = 'ID      '           / number", exCard b!"TFORM2  = '02A     '", exCard b!"EXTNAME = 'STARS   '", exCard b!"END"]

/-- And of the primary HDU in front of it. -/
def exNoImage : List Str :=
  [exCard b!"SIMPLE  =                    T / standard", exCard b!"BITPIX  = 8", exCard b!"NAXIS   = 0", exCard b!"EXTEND  = T", exCard b!"END"]

theorem exSays {cards : List Str} {k text raw : Str} (i lead gap : Nat) (comment : Option Str) (hi : cards[i]? = some raw)
    (hk : trim (raw.take 8) = k) (hl : ∀ j < cards.length, i < j → trim ((cards.getD j []).take 8) ≠ k) (hs : slash ∉ raw.take 8)
    (hr : raw = raw.take 8 ++ b!"= " ++ List.replicate lead 32 ++ text ++ List.replicate gap 32 ++ (match comment with | none => [] | some c => slash :: c))
    (h80 : raw.length = 80) (ha : comment = none ∨ 0 < gap) : Says cards k text := by
  obtain ⟨hlt, hget⟩ := List.getElem?_eq_some_iff.1 hi
  refine ⟨i, raw, gap, comment, ⟨hlt, by rw [hget]; exact keywordIs_iff.2 hk, fun j hj hij => ?_⟩, hi, ⟨_, lead, ?_, hs, h80, hr⟩, ha⟩
  · rw [keywordIs_iff]
    have := hl j hj hij
    rwa [List.getD_eq_getElem?_getD, List.getElem?_eq_getElem hj] at this
  · rw [List.length_take, h80]; rfl

theorem exStars_plain (i lead gap : Nat) (k text raw : Str) (hi : exStars[i]? = some raw) (hk : trim (raw.take 8) = k)
    (hl : ∀ j < exStars.length, i < j → trim ((exStars.getD j []).take 8) ≠ k)
    (hr : slash ∉ raw.take 8 ∧ raw = raw.take 8 ++ b!"= " ++ List.replicate lead 32 ++ text ++ List.replicate gap 32 ++ [] ∧ raw.length = 80) : Says exStars k text :=
  exSays i lead gap none hi hk hl hr.1 hr.2.1 hr.2.2 (.inl rfl)

theorem exStars_shape : ShapeCards exStars .B8 [6, 2] := by
  refine ⟨?_, ⟨exStars.dropLast, exCard b!"END", by decide, by unfold IsEnd; decide, ?_⟩, ?_, ⟨?_, by decide⟩, ?_⟩
  · intro r hr
    have h1 : r.length = 80 ∧ Card.ofRaw r = .ok ⟨r, none⟩ := by revert r; decide
    refine ⟨h1.1, Classical.byContradiction fun hn => ?_⟩
    rw [ofRaw_piece_bad h1.1 hn] at h1
    exact nomatch h1.2
  · intro r hr; revert r; unfold IsEnd; decide
  · exact ⟨8, ⟨b!"8", b!"8", exStars_plain 1 19 50 _ _ _ rfl (by decide) (by decide) (by decide), ⟨by decide, by decide⟩, .inl ⟨rfl, by decide⟩⟩, rfl⟩
  · exact ⟨b!"2", b!"2", exStars_plain 2 0 69 _ _ _ rfl (by decide) (by decide) (by decide), ⟨by decide, by decide⟩, .inl ⟨rfl, by decide⟩⟩
  · intro j a d ha hd
    obtain rfl := isNat_iff.1 hd
    match j, ha with
    | 0, ha =>
      cases ha
      exact ⟨⟨b!"6", b!"6", exSays 3 0 1 (some (b!" bytes" ++ List.replicate 61 32)) rfl (by decide) (by decide) (by decide) (by decide) (by decide)
        (.inr (by decide)), ⟨by decide, by decide⟩, .inl ⟨rfl, by decide⟩⟩, by decide⟩
    | 1, ha =>
      cases ha
      exact ⟨⟨b!"+2", b!"2", exStars_plain 4 18 50 _ _ _ rfl (by decide) (by decide) (by decide), ⟨by decide, by decide⟩, .inr (.inl ⟨rfl, by decide⟩)⟩, by decide⟩
    | j + 2, ha => simp at ha

theorem exStars_id : SaysString exStars b!"TTYPE1" b!"ID" :=
  ⟨6, exSays 9 0 11 (some (b!" number" ++ List.replicate 41 32)) rfl (by decide) (by decide) (by decide) (by decide) (by decide) (.inr (by decide)),
    by unfold PlainText; decide, by decide, by decide, by decide, by decide⟩

theorem exStars_absent (k : Str) (h : ∀ r ∈ exStars, trim (r.take 8) ≠ k) : Absent exStars k := by
  intro r hr; rw [keywordIs_iff]; exact h r hr

theorem exStars_binary (F : FloatText) : BinaryTableCards F exStars 6 2 0 [(1, 74), (2, 65)] := by
  refine ⟨⟨exStars_shape, exStars_absent _ (by decide), ?_, ⟨?_, by decide⟩, ?_, ?_, by decide⟩, by decide, by decide, by decide, ?_⟩
  · exact ⟨0, exSays 0 0 11 (some (b!" binary table extension" ++ List.replicate 25 32)) rfl (by decide) (by decide) (by decide) (by decide) (by decide) (.inr (by decide)),
      by unfold PlainText; decide, by decide, by decide, by decide, by decide⟩
  · exact ⟨b!"0", b!"0", exStars_plain 5 0 69 _ _ _ rfl (by decide) (by decide) (by decide), ⟨by decide, by decide⟩, .inl ⟨rfl, by decide⟩⟩
  · exact ⟨b!"1", b!"1", exStars_plain 6 0 69 _ _ _ rfl (by decide) (by decide) (by decide), ⟨by decide, by decide⟩, .inl ⟨rfl, by decide⟩⟩
  · exact ⟨b!"2", b!"2", exStars_plain 7 0 69 _ _ _ rfl (by decide) (by decide) (by decide), ⟨by decide, by decide⟩, .inl ⟨rfl, by decide⟩⟩
  · intro j c d hc hd
    obtain rfl := isNat_iff.1 hd
    match j, hc with
    | 0, hc =>
      cases hc
      exact ⟨⟨b!"J", ⟨7, exStars_plain 8 0 60 _ _ _ rfl (by decide) (by decide) (by decide), by unfold PlainText; decide, by decide, by decide, by decide, by decide⟩, .inl ⟨rfl, rfl⟩⟩,
        ⟨.inr ⟨_, exStars_id, exStars_absent _ (by decide)⟩, .inl (exStars_absent _ (by decide)), .inl (exStars_absent _ (by decide)), .inl (exStars_absent _ (by decide))⟩,
        .inl (exStars_absent _ (by decide)), .inl (exStars_absent _ (by decide))⟩
    | 1, hc =>
      cases hc
      exact ⟨⟨b!"02A", ⟨5, exStars_plain 10 0 60 _ _ _ rfl (by decide) (by decide) (by decide), by unfold PlainText; decide, by decide, by decide, by decide, by decide⟩,
          .inr ⟨b!"02", ⟨by decide, by decide⟩, rfl, rfl⟩⟩,
        ⟨.inl (exStars_absent _ (by decide)), .inl (exStars_absent _ (by decide)), .inl (exStars_absent _ (by decide)), .inl (exStars_absent _ (by decide))⟩,
        .inl (exStars_absent _ (by decide)), .inl (exStars_absent _ (by decide))⟩
    | j + 2, hc => simp at hc

theorem exStars_names (F : FloatText) : TextNames F exStars := by
  intro d name h
  obtain ⟨i, raw, h1, h2, _⟩ := lookup_ok.1 h
  have hk : trim (raw.take 8) = b!"TTYPE" ++ d := by
    have := h1.2.1
    rw [(List.getElem?_eq_some_iff.1 h2).2] at this
    exact keywordIs_iff.1 this
  have hr : ∀ r ∈ exStars, b!"TTYPE" <+: trim (r.take 8) → trim (r.take 8) = b!"TTYPE1" := by decide
  have := hr raw (List.mem_of_getElem? h2) (by rw [hk]; exact List.prefix_append _ _)
  rw [hk] at this
  have hd : d = b!"1" := List.append_cancel_left (as := b!"TTYPE") this
  subst hd
  cases says_string_fun exStars_id (lookup_ok.1 h)
  unfold TextKey; decide

theorem exNoImage_cards : ImageCards exNoImage .B8 [] := by
  have plain : ∀ (i lead gap : Nat) (k text raw : Str), exNoImage[i]? = some raw → trim (raw.take 8) = k →
      (∀ j < exNoImage.length, i < j → trim ((exNoImage.getD j []).take 8) ≠ k) →
      slash ∉ raw.take 8 ∧ raw = raw.take 8 ++ b!"= " ++ List.replicate lead 32 ++ text ++ List.replicate gap 32 ++ [] ∧ raw.length = 80 → Says exNoImage k text :=
    fun i lead gap k text raw hi hk hl hr => exSays i lead gap none hi hk hl hr.1 hr.2.1 hr.2.2 (.inl rfl)
  refine ⟨⟨?_, ⟨exNoImage.dropLast, exCard b!"END", by decide, by unfold IsEnd; decide, ?_⟩, ?_, ⟨?_, by decide⟩, by simp⟩, ?_, ?_⟩
  · intro r hr
    have h1 : r.length = 80 ∧ Card.ofRaw r = .ok ⟨r, none⟩ := by revert r; decide
    refine ⟨h1.1, Classical.byContradiction fun hn => ?_⟩
    rw [ofRaw_piece_bad h1.1 hn] at h1
    exact nomatch h1.2
  · intro r hr; revert r; unfold IsEnd; decide
  · exact ⟨8, ⟨b!"8", b!"8", plain 1 0 69 _ _ _ rfl (by decide) (by decide) (by decide), ⟨by decide, by decide⟩, .inl ⟨rfl, by decide⟩⟩, rfl⟩
  · exact ⟨b!"0", b!"0", plain 2 0 69 _ _ _ rfl (by decide) (by decide) (by decide), ⟨by decide, by decide⟩, .inl ⟨rfl, by decide⟩⟩
  · exact exSays 0 19 1 (some (b!" standard" ++ List.replicate 39 32)) rfl (by decide) (by decide) (by decide) (by decide) (by decide) (.inr (by decide))
  · intro r hr; rw [keywordIs_iff]; revert r; decide

/-- The file with these headers and two rows is opened, and the table has the cells of the file; the blank behind the second name is gone. -/
example (F : FloatText) : ∃ p t, EndsIn (fun cards turns => readEntire F cards turns (openFile (exNoImage.flatten ++ List.replicate 2480 32 ++ exStars.flatten ++
      List.replicate 1840 32 ++ [1, 2, 3, 4, 65, 66, 5, 6, 7, 8, 67, 32] ++ [] ++ List.replicate 2868 0))) (.opened [.primary p, .binary t]) ∧
    t.data = [[[1, 2, 3, 4], b!"AB"], [[5, 6, 7, 8], b!"C"]] := by
  have hx : Says exNoImage b!"EXTEND" (if true then b!"T" else b!"F") :=
    exSays 3 0 69 none rfl (by decide) (by decide) (by decide) (by decide) (by decide) (.inl rfl)
  have hname : SaysString exStars b!"EXTNAME" b!"STARS" :=
    ⟨3, exStars_plain 11 0 60 _ _ _ rfl (by decide) (by decide) (by decide), by unfold PlainText; decide, by decide, by decide, by decide, by decide⟩
  have hf : exNoImage.flatten.length = 400 := by decide +kernel
  have hg : exStars.flatten.length = 1040 := by decide +kernel
  obtain ⟨p, t, h1, _, h3⟩ := (C150_opened F _ [1, 2, 3, 4, 65, 66, 5, 6, 7, 8, 67, 32] [] b!"STARS" exNoImage exStars .B8 true 6 2 [(1, 74), (2, 65)]
    ⟨List.replicate 2480 32, List.replicate 1840 32, List.replicate 2868 0, rfl, by rw [List.length_replicate]; rfl, by rw [List.length_replicate]; rfl,
      by rw [List.length_replicate]; rfl⟩ exNoImage_cards hx (by decide) (exStars_binary F) (by decide) (exStars_names F) hname (by decide) rfl (by decide)
    (by simp only [List.length_append, hf, hg, List.length_replicate]; decide)).1 (by decide)
  refine ⟨p, t, h1, ?_⟩
  have cells : ∀ (r j : Nat) (hr : r < t.data.length) (hj : j < t.data[r].length), j < 2 →
      t.data[r][j] = trim (window [1, 2, 3, 4, 65, 66, 5, 6, 7, 8, 67, 32] (r * 6 + ((columnBytes [(1, 74), (2, 65)]).take j).sum)
        (((columnBytes [(1, 74), (2, 65)])).getD j 0)) := by
    intro r j hr hj h2
    have := h3.cell r j _ ([(1, 74), (2, 65)][j]) _ (List.getElem?_eq_getElem hr) (List.getElem?_eq_getElem h2) (List.getElem?_eq_getElem hj)
    rw [(isTrim_iff.1 this).symm]
    match j, h2 with
    | 0, _ => rfl
    | 1, _ => rfl
  refine List.ext_getElem (by rw [h3.rows]; rfl) fun r hr hr2 => ?_
  have hl := h3.row r _ (List.getElem?_eq_getElem hr)
  refine List.ext_getElem ?_ fun j hj hj2 => ?_
  · rw [hl]; match r, hr2 with | 0, _ => rfl | 1, _ => rfl
  · rw [hl] at hj
    rw [cells r j hr (by rw [hl]; exact hj) hj]
    match r, hr2, j, hj with
    | 0, _, 0, _ => rfl
    | 0, _, 1, _ => rfl
    | 1, _, 0, _ => rfl
    | 1, _, 1, _ => rfl

/-- The header of a table with ten flags in each of its rows, which take two bytes. -/
def exFlags : List Str :=
  [exCard b!"XTENSION= 'BINTABLE'", exCard b!"BITPIX  = 8", exCard b!"NAXIS   = 2", exCard b!"NAXIS1  = 2", exCard b!"NAXIS2  = 1", exCard b!"PCOUNT  = 0",
   exCard b!"GCOUNT  = 1", exCard b!"TFIELDS = 1", exCard b!"TFORM1  = '10X     '", exCard b!"EXTNAME = 'FLAGS   '", exCard b!"END"]

theorem exFlags_plain (i gap : Nat) (k text raw : Str) (hi : exFlags[i]? = some raw) (hk : trim (raw.take 8) = k)
    (hl : ∀ j < exFlags.length, i < j → trim ((exFlags.getD j []).take 8) ≠ k)
    (hr : slash ∉ raw.take 8 ∧ raw = raw.take 8 ++ b!"= " ++ List.replicate 0 32 ++ text ++ List.replicate gap 32 ++ [] ∧ raw.length = 80) : Says exFlags k text :=
  exSays i 0 gap none hi hk hl hr.1 hr.2.1 hr.2.2 (.inl rfl)

theorem exFlags_shape : ShapeCards exFlags .B8 [2, 1] := by
  refine ⟨?_, ⟨exFlags.dropLast, exCard b!"END", by decide, by unfold IsEnd; decide, ?_⟩, ?_, ⟨?_, by decide⟩, ?_⟩
  · intro r hr
    have h1 : r.length = 80 ∧ Card.ofRaw r = .ok ⟨r, none⟩ := by revert r; decide
    refine ⟨h1.1, Classical.byContradiction fun hn => ?_⟩
    rw [ofRaw_piece_bad h1.1 hn] at h1
    exact nomatch h1.2
  · intro r hr; revert r; unfold IsEnd; decide
  · exact ⟨8, ⟨b!"8", b!"8", exFlags_plain 1 69 _ _ _ rfl (by decide) (by decide) (by decide), ⟨by decide, by decide⟩, .inl ⟨rfl, by decide⟩⟩, rfl⟩
  · exact ⟨b!"2", b!"2", exFlags_plain 2 69 _ _ _ rfl (by decide) (by decide) (by decide), ⟨by decide, by decide⟩, .inl ⟨rfl, by decide⟩⟩
  · intro j a d ha hd
    obtain rfl := isNat_iff.1 hd
    match j, ha with
    | 0, ha =>
      cases ha
      exact ⟨⟨b!"2", b!"2", exFlags_plain 3 69 _ _ _ rfl (by decide) (by decide) (by decide), ⟨by decide, by decide⟩, .inl ⟨rfl, by decide⟩⟩, by decide⟩
    | 1, ha =>
      cases ha
      exact ⟨⟨b!"1", b!"1", exFlags_plain 4 69 _ _ _ rfl (by decide) (by decide) (by decide), ⟨by decide, by decide⟩, .inl ⟨rfl, by decide⟩⟩, by decide⟩
    | j + 2, ha => simp at ha

theorem exFlags_absent (k : Str) (h : ∀ r ∈ exFlags, trim (r.take 8) ≠ k) : Absent exFlags k := by
  intro r hr; rw [keywordIs_iff]; exact h r hr

theorem exFlags_binary (F : FloatText) : BinaryTableCards F exFlags 2 1 0 [(10, 88)] := by
  refine ⟨⟨exFlags_shape, exFlags_absent _ (by decide), ?_, ⟨?_, by decide⟩, ?_, ?_, by decide⟩, by decide, by decide, by decide, ?_⟩
  · exact ⟨0, exFlags_plain 0 60 _ _ _ rfl (by decide) (by decide) (by decide), by unfold PlainText; decide, by decide, by decide, by decide, by decide⟩
  · exact ⟨b!"0", b!"0", exFlags_plain 5 69 _ _ _ rfl (by decide) (by decide) (by decide), ⟨by decide, by decide⟩, .inl ⟨rfl, by decide⟩⟩
  · exact ⟨b!"1", b!"1", exFlags_plain 6 69 _ _ _ rfl (by decide) (by decide) (by decide), ⟨by decide, by decide⟩, .inl ⟨rfl, by decide⟩⟩
  · exact ⟨b!"1", b!"1", exFlags_plain 7 69 _ _ _ rfl (by decide) (by decide) (by decide), ⟨by decide, by decide⟩, .inl ⟨rfl, by decide⟩⟩
  · intro j c d hc hd
    obtain rfl := isNat_iff.1 hd
    match j, hc with
    | 0, hc =>
      cases hc
      exact ⟨⟨b!"10X", ⟨5, exFlags_plain 8 60 _ _ _ rfl (by decide) (by decide) (by decide), by unfold PlainText; decide, by decide, by decide, by decide, by decide⟩,
          .inr ⟨b!"10", ⟨by decide, by decide⟩, rfl, rfl⟩⟩,
        ⟨.inl (exFlags_absent _ (by decide)), .inl (exFlags_absent _ (by decide)), .inl (exFlags_absent _ (by decide)), .inl (exFlags_absent _ (by decide))⟩,
        .inl (exFlags_absent _ (by decide)), .inl (exFlags_absent _ (by decide))⟩
    | j + 1, hc => simp at hc

theorem exFlags_names (F : FloatText) : TextNames F exFlags := by
  intro d name h
  obtain ⟨i, raw, h1, h2, _⟩ := lookup_ok.1 h
  have hk : trim (raw.take 8) = b!"TTYPE" ++ d := by
    have := h1.2.1
    rw [(List.getElem?_eq_some_iff.1 h2).2] at this
    exact keywordIs_iff.1 this
  have hr : ∀ r ∈ exFlags, ¬ b!"TTYPE" <+: trim (r.take 8) := by decide
  exact absurd (by rw [hk]; exact List.prefix_append _ _) (hr raw (List.mem_of_getElem? h2))

/-- Opening the file with that table is undefined behaviour. -/
example (F : FloatText) : EndsIn (fun cards turns => readEntire F cards turns (openFile (exNoImage.flatten ++ List.replicate 2480 32 ++ exFlags.flatten ++
      List.replicate 2000 32 ++ [170, 64] ++ List.replicate 2878 0))) (.raised .ub) := by
  have hx : Says exNoImage b!"EXTEND" (if true then b!"T" else b!"F") :=
    exSays 3 0 69 none rfl (by decide) (by decide) (by decide) (by decide) (by decide) (.inl rfl)
  have hname : SaysString exFlags b!"EXTNAME" b!"FLAGS" :=
    ⟨3, exFlags_plain 9 60 _ _ _ rfl (by decide) (by decide) (by decide), by unfold PlainText; decide, by decide, by decide, by decide, by decide⟩
  have hf : exNoImage.flatten.length = 400 := by decide +kernel
  have hg : exFlags.flatten.length = 880 := by decide +kernel
  have hb : (exNoImage.flatten ++ List.replicate 2480 32 ++ exFlags.flatten ++ List.replicate 2000 32 ++ [170, 64] ++ List.replicate 2878 0).length + 5760 < 2 ^ 63 := by
    simp only [List.length_append, hf, hg, List.length_replicate]; decide
  obtain ⟨e, p, p1, p2, p3, p4, _⟩ := tableFile_first (F := F) (data := [170, 64]) (heap := []) (cards := exFlags)
    ⟨List.replicate 2480 32, List.replicate 2000 32, List.replicate 2878 0, by rw [List.append_nil], by rw [List.length_replicate]; rfl, by rw [List.length_replicate]; rfl,
      by rw [List.length_replicate]; rfl⟩ exNoImage_cards hx (by decide) hb
  have hpl : (exNoImage.flatten ++ List.replicate 2480 32).length = 2880 := by rw [List.length_append, hf, List.length_replicate]
  exact C150_bits F _ (exNoImage.flatten ++ List.replicate 2480 32) (List.replicate 2000 32) [170, 64] (List.replicate 2878 0) b!"FLAGS" exFlags 2 1 0 [(10, 88)] [e]
    ⟨p3, p1, p4.trans (by rw [hpl]; rfl)⟩ rfl (by rw [hpl]) (exFlags_binary F) ⟨(10, 88), by decide, rfl, by decide⟩ (exFlags_names F) hname (by decide)
    (by rw [List.length_replicate]; rfl) rfl (by decide) hb

/-- The header of a picture of three times two bytes in an extension. -/
def exPicture : List Str :=
  [exCard b!"XTENSION= 'IMAGE   '", exCard b!"BITPIX  = 8", exCard b!"NAXIS   = 2", exCard b!"NAXIS1  = 3", exCard b!"NAXIS2  = 2", exCard b!"PCOUNT  = 0",
   exCard b!"GCOUNT  = 1", exCard b!"END"]

/-- That extension is passed over. -/
example (F : FloatText) : ∃ e, Complete F (exPicture.flatten ++ List.replicate 2240 32 ++ [1, 2, 3, 4, 5, 6] ++ List.replicate 2874 0) e ∧ e.hdu = .blank ∧ e.next = 5760 := by
  have plain : ∀ (i gap : Nat) (k text raw : Str), exPicture[i]? = some raw → trim (raw.take 8) = k →
      (∀ j < exPicture.length, i < j → trim ((exPicture.getD j []).take 8) ≠ k) →
      slash ∉ raw.take 8 ∧ raw = raw.take 8 ++ b!"= " ++ List.replicate 0 32 ++ text ++ List.replicate gap 32 ++ [] ∧ raw.length = 80 → Says exPicture k text :=
    fun i gap k text raw hi hk hl hr => exSays i 0 gap none hi hk hl hr.1 hr.2.1 hr.2.2 (.inl rfl)
  have hg : exPicture.flatten.length = 640 := by decide +kernel
  have hs : ShapeCards exPicture .B8 [3, 2] := by
    refine ⟨?_, ⟨exPicture.dropLast, exCard b!"END", by decide, by unfold IsEnd; decide, ?_⟩, ?_, ⟨?_, by decide⟩, ?_⟩
    · intro r hr
      have h1 : r.length = 80 ∧ Card.ofRaw r = .ok ⟨r, none⟩ := by revert r; decide
      refine ⟨h1.1, Classical.byContradiction fun hn => ?_⟩
      rw [ofRaw_piece_bad h1.1 hn] at h1
      exact nomatch h1.2
    · intro r hr; revert r; unfold IsEnd; decide
    · exact ⟨8, ⟨b!"8", b!"8", plain 1 69 _ _ _ rfl (by decide) (by decide) (by decide), ⟨by decide, by decide⟩, .inl ⟨rfl, by decide⟩⟩, rfl⟩
    · exact ⟨b!"2", b!"2", plain 2 69 _ _ _ rfl (by decide) (by decide) (by decide), ⟨by decide, by decide⟩, .inl ⟨rfl, by decide⟩⟩
    · intro j a d ha hd
      obtain rfl := isNat_iff.1 hd
      match j, ha with
      | 0, ha =>
        cases ha
        exact ⟨⟨b!"3", b!"3", plain 3 69 _ _ _ rfl (by decide) (by decide) (by decide), ⟨by decide, by decide⟩, .inl ⟨rfl, by decide⟩⟩, by decide⟩
      | 1, ha =>
        cases ha
        exact ⟨⟨b!"2", b!"2", plain 4 69 _ _ _ rfl (by decide) (by decide) (by decide), ⟨by decide, by decide⟩, .inl ⟨rfl, by decide⟩⟩, by decide⟩
      | j + 2, ha => simp at ha
  obtain ⟨e, h1, h2, _, h4⟩ := C150_other F (exPicture.flatten ++ List.replicate 2240 32 ++ [1, 2, 3, 4, 5, 6] ++ List.replicate 2874 0) [] (List.replicate 2240 32)
    [1, 2, 3, 4, 5, 6] (List.replicate 2874 0) b!"IMAGE" exPicture .B8 [3, 2] rfl (by simp) hs (by intro r hr; rw [keywordIs_iff]; revert r; decide)
    ⟨3, plain 0 60 _ _ _ rfl (by decide) (by decide) (by decide), by unfold PlainText; decide, by decide, by decide, by decide, by decide⟩ (by decide) (by decide)
    (by rw [List.length_replicate]; rfl) rfl (by simp only [List.length_append, hg, List.length_replicate]; decide)
  exact ⟨e, h1, h2, h4.trans (by decide)⟩

/-- Formats that are not read. -/
example : NewerFormat b!"K" ∧ NewerFormat b!"1PE(30)" ∧ NewerFormat b!"QJ" :=
  ⟨⟨[], .inl rfl, .inl rfl⟩, ⟨b!"1", .inr ⟨by decide, by decide⟩, .inr ⟨80, by decide, 69, by decide, .inr ⟨b!"30", rfl⟩⟩⟩,
    ⟨[], .inl rfl, .inr ⟨81, by decide, 74, by decide, .inl rfl⟩⟩⟩

end Astro
