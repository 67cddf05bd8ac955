import Verif.Spec.ForeignCells
import Verif.Props.Resaved
import Verif.Props.ForeignNames
import Verif.Props.Cell
import Verif.Props.Float

/-
Property C155: the values in tables of other programs.
-/

namespace Astro

open Spec Header Reader

/-- The first read of a column. -/
theorem fresh_value {Φ : Family} {cols : List Column} {data : List (List Str)} {name : Str} {c : Column} (h : Table.columnMetadata cols name = .ok c) (t : Φ.Tag) (row : Nat) :
    ((Obj.fresh cols data : Obj Φ).read name t row).2 = decoded Φ data c t row := by
  unfold Obj.read Obj.getColumn
  have h' : Table.columnMetadata (Obj.fresh cols data : Obj Φ).cols name = .ok c := h
  rw [h']
  simp only [Obj.fresh, Obj.putView, View.read, decoded]
  cases cellAt data row c.index with
  | error e => rfl
  | ok s =>
    simp only
    cases Φ.deser t s c.total <;> rfl

/-- The HDU number `k` of the opened file. -/
theorem foreign_hdu {F : FloatText} {content : Str} {us : List ForeignHdu} (h : Laid us content) (hs : ∀ u ∈ us, Supported F u)
    (h36 : ∀ u ∈ us, ¬ 36 ∣ u.cards.length) (hd : ∀ u ∈ us.dropLast, u.data = [] ∨ ¬ 2880 ∣ u.data.length) (hb : content.length + 5760 < 2 ^ 63)
    {fuel n : Nat} {r : Reader} (e : readEntire F fuel n (openFile content) = some (.ok r)) {k : Nat} {u : ForeignHdu} (hk : us[k]? = some u) :
    ∃ x, r.hdus[k]? = some x ∧ Shows F u x := by
  obtain ⟨es, h1, h2, _⟩ := C33_name F content hb fuel n r e
  have g := List.forall₂_iff_get.1 (shown (laid_entries h hs h36 hd hb h1))
  rw [← h2] at g
  obtain ⟨hk', rfl⟩ := List.getElem?_eq_some_iff.1 hk
  exact ⟨_, List.getElem?_eq_getElem (g.1 ▸ hk'), g.2 k hk' (g.1 ▸ hk')⟩

theorem shows_kind {F : FloatText} {u : ForeignHdu} {x : Hdu} {kind : Str} (h : Shows F u x) (hx : SaysString u.cards b!"XTENSION" kind) :
    (kind = b!"BINTABLE" → ∃ t rowLen rows cols, x = .binary t ∧ BinaryTableCards F u.cards rowLen rows 0 cols ∧ ShowsBinary t u.cards rowLen rows cols u.data) ∧
    (kind = b!"TABLE" → ∃ t rowLen rows cols, x = .ascii t ∧ AsciiTableCards F u.cards rowLen rows 0 cols ∧ ShowsAscii t u.cards rowLen rows cols u.data) := by
  cases h with
  | image _ _ _ h =>
    obtain ⟨_, ⟨_, _, _, _, g, _⟩, _⟩ := hx
    exact absurd h.noXtension (lastWith_not_absent g)
  | binary _ _ _ h1 _ h2 =>
    have := says_string_fun hx (says_string (F := F) h1.xtension)
    exact ⟨fun _ => ⟨_, _, _, _, rfl, h1, h2⟩, fun hk => absurd (this.trans hk) (by decide)⟩
  | ascii _ _ _ h1 _ h2 =>
    have := says_string_fun hx (says_string (F := F) h1.xtension)
    exact ⟨fun hk => absurd (this.trans hk) (by decide), fun _ => ⟨_, _, _, _, rfl, h1, h2⟩⟩
  | other _ h1 h2 =>
    have := says_string_fun hx (says_string (F := F) h1)
    exact ⟨fun hk => absurd (this.trans hk) h2.2, fun hk => absurd (this.trans hk) h2.1⟩

/-- Looking a column up by its name in the cards. -/
theorem called_column {cards : List Str} {t : Table} {n : Nat} (hlen : t.cols.length = n)
    (names : ∀ (j : Nat) (c : Column) (d name : Str), t.cols[j]? = some c → IsNat d (j + 1) → SaysString cards (b!"TTYPE" ++ d) name → c.name = name)
    (unnamed : ∀ (j : Nat) (c : Column) (d : Str), t.cols[j]? = some c → IsNat d (j + 1) → Absent cards (b!"TTYPE" ++ d) → c.name = [])
    (notes : ∀ i < n, Absent cards (b!"TTYPE" ++ showNat (i + 1)) ∨ ∃ x, SaysString cards (b!"TTYPE" ++ showNat (i + 1)) x) {name : Str} {j : Nat}
    (hj : j < n) (hf : FirstCalled cards name j) : ∃ c, t.cols[j]? = some c ∧ Table.columnMetadata t.cols name = .ok c := by
  obtain ⟨hne, ⟨d, hd, hsay⟩, hfirst⟩ := hf
  have hjt : j < t.cols.length := by omega
  refine ⟨t.cols[j], List.getElem?_eq_getElem hjt, (C43_first _ _ _).2 ⟨t.cols.take j, t.cols.drop (j + 1), ?_, names j _ d name (List.getElem?_eq_getElem hjt) hd hsay, ?_⟩⟩
  · rw [← List.drop_eq_getElem_cons hjt, List.take_append_drop]
  · intro b hb
    obtain ⟨i, hi⟩ := List.mem_iff_getElem?.1 hb
    rw [List.getElem?_take] at hi
    split at hi
    · rename_i hij
      rcases notes i (by omega) with ha | ⟨x, hx⟩
      · rw [unnamed i b _ hi (showNat_isNat _) ha]; exact hne.symm
      · rw [names i b _ x hi (showNat_isNat _) hx]
        rintro rfl
        exact hfirst i _ hij (showNat_isNat _) hx
    · cases hi

theorem binary_decoded {F : FloatText} {t : Table} {cards : List Str} {rowLen rows : Nat} {cols : List (Nat × Byte)} {data : Str}
    (hh : BinaryTableCards F cards rowLen rows 0 cols) (hs : ShowsBinary t cards rowLen rows cols data) {name : Str} {j row : Nat} {c : Nat × Byte} (hj : cols[j]? = some c)
    (hf : FirstCalled cards name j) (hr : row < rows) (τ : BinTag) :
    ∃ x, IsTrim (binaryField data rowLen cols row j c) x ∧ ((Obj.fresh t.cols t.data : Obj binFamily).read name τ row).2 = binFamily.deser τ x c.1 := by
  have hj' : j < cols.length := (List.getElem?_eq_some_iff.1 hj).1
  obtain ⟨col, g1, g2⟩ := called_column hs.columns hs.names hs.unnamed
    (fun i hi => by
      obtain ⟨_, g, _⟩ := hh.column i _ _ (List.getElem?_eq_getElem hi) (showNat_isNat (i + 1))
      exact g.ttype.imp id fun ⟨x, hx, _⟩ => ⟨x, hx⟩) hj' hf
  obtain ⟨p1, p2⟩ := hs.place j col c g1 hj
  have hrow : t.data[row]? = some (t.data[row]'(hs.rows ▸ hr)) := List.getElem?_eq_getElem _
  have hl := hs.row row _ hrow
  have hcell := List.getElem?_eq_getElem (l := t.data[row]'(hs.rows ▸ hr)) (i := j) (by omega)
  refine ⟨_, hs.cell row j _ c _ hrow hj hcell, ?_⟩
  refine (fresh_value (Φ := binFamily) g2 τ row).trans ?_
  unfold decoded
  rw [cellAt_ok.2 ⟨by omega, _, hrow, by rw [p1, Nat.add_sub_cancel]; exact hcell⟩, p2]

theorem ascii_decoded {F : FloatText} {t : Table} {cards : List Str} {rowLen rows : Nat} {cols : List (Nat × Nat)} {data : Str}
    (hh : AsciiTableCards F cards rowLen rows 0 cols) (hs : ShowsAscii t cards rowLen rows cols data) {name : Str} {j row : Nat} {c : Nat × Nat} (hj : cols[j]? = some c)
    (hf : FirstCalled cards name j) (hr : row < rows) (G : StreamText) (τ : AsciiTag) :
    ∃ x n, IsTrim (asciiField data rowLen row c) x ∧ ((Obj.fresh t.cols t.data : Obj (asciiFamily F G)).read name τ row).2 = asciiDeser F τ x n := by
  have hj' : j < cols.length := (List.getElem?_eq_some_iff.1 hj).1
  obtain ⟨col, g1, g2⟩ := called_column hs.columns hs.names hs.unnamed
    (fun i hi => by
      obtain ⟨_, _, g⟩ := hh.column i _ _ (List.getElem?_eq_getElem hi) (showNat_isNat (i + 1))
      exact g.ttype.imp id fun ⟨x, hx, _⟩ => ⟨x, hx⟩) hj' hf
  have p1 := hs.index j col g1
  have hrow : t.data[row]? = some (t.data[row]'(hs.rows ▸ hr)) := List.getElem?_eq_getElem _
  have hl := hs.row row _ hrow
  have hcell := List.getElem?_eq_getElem (l := t.data[row]'(hs.rows ▸ hr)) (i := j) (by omega)
  refine ⟨_, col.total, hs.cell row j _ c _ hrow hj hcell, ?_⟩
  refine (fresh_value (Φ := asciiFamily F G) g2 τ row).trans ?_
  unfold decoded
  rw [cellAt_ok.2 ⟨by omega, _, hrow, by rw [p1, Nat.add_sub_cancel]; exact hcell⟩]
  rfl

/-- **C155** A value in a binary table of another program, read through the column of its name: it is found exactly if its bytes neither begin nor end with a white-space byte. -/
theorem C155_binary (F : FloatText) (content : Str) (us : List ForeignHdu) (h : Laid us content) (hs : ∀ u ∈ us, Supported F u)
    (h36 : ∀ u ∈ us, ¬ 36 ∣ u.cards.length) (hd : ∀ u ∈ us.dropLast, u.data = [] ∨ ¬ 2880 ∣ u.data.length) (hb : content.length + 5760 < 2 ^ 63)
    (fuel n : Nat) (r : Reader) (e : readEntire F fuel n (openFile content) = some (.ok r)) (k : Nat) (u : ForeignHdu) (hk : us[k]? = some u)
    (rowLen rows : Nat) (cols : List (Nat × Byte)) (hh : BinaryTableCards F u.cards rowLen rows 0 cols) :
    ∃ t, r.hdus[k]? = some (.binary t) ∧ ∀ (name : Str) (j : Nat) (c : Nat × Byte) (row : Nat), cols[j]? = some c → FirstCalled u.cards name j → row < rows →
      ∀ (τ : BinTag) (x : τ.El), τ ≠ ⟨.pair, true⟩ → HasCount c.1 τ x → Encodes τ x (binaryField u.data rowLen cols row j c) →
        (((Obj.fresh t.cols t.data : Obj binFamily).read name τ row).2 = .ok x ↔ NoOuterWhite (binaryField u.data rowLen cols row j c)) := by
  obtain ⟨x, hx, hsh⟩ := foreign_hdu h hs h36 hd hb e hk
  obtain ⟨t, _, _, _, rfl, g1, g2⟩ := (shows_kind hsh hh.xtension).1 rfl
  obtain ⟨rfl, rfl, rfl⟩ := binaryCards_unique hh g1
  refine ⟨t, hx, fun name j c row hj hf hr τ x hτ hn henc => ?_⟩
  obtain ⟨s, h1, h2⟩ := binary_decoded hh g2 hj hf hr τ
  rw [h2]
  exact C87_survives τ hτ x c.1 hn _ s henc h1

theorem binary_short {τ : BinScalar} {w : Nat} (h : NumberOf τ w) (s : Str) :
    (s.length + 1 = w → ∃ x : τ.El, binDeser1 τ s = .ok x ∧ Encodes1 τ x (s ++ [0])) ∧ (s.length + 2 ≤ w → binDeser1 τ s = .error .ub) := by
  have key : ∀ w, (s.length + 1 = w → ∃ x, Bin.elementToNumeric w s = .ok x ∧ IsBE w x (s ++ [0])) ∧ (s.length + 2 ≤ w → Bin.elementToNumeric w s = .error .ub) := by
    intro w
    obtain ⟨c1, c2, _⟩ := C15_decode w s
    refine ⟨fun hw => ?_, fun hw => c1 (by omega)⟩
    obtain ⟨v, h1, h2⟩ := c2 (by omega)
    rw [List.take_of_length_le (by simp; omega)] at h2
    exact ⟨v, h1, by simpa using hw, h2⟩
  cases τ <;> first | exact absurd h id | (cases h; exact key _)

/-- **C155** What becomes of numbers that do begin or end with such bytes: if one byte is lost, a zero byte behind the others takes its place, which is always a
different number (C155_binary); with two or more lost bytes the behaviour is undefined. -/
theorem C155_lost (F : FloatText) (content : Str) (us : List ForeignHdu) (h : Laid us content) (hs : ∀ u ∈ us, Supported F u)
    (h36 : ∀ u ∈ us, ¬ 36 ∣ u.cards.length) (hd : ∀ u ∈ us.dropLast, u.data = [] ∨ ¬ 2880 ∣ u.data.length) (hb : content.length + 5760 < 2 ^ 63)
    (fuel n : Nat) (r : Reader) (e : readEntire F fuel n (openFile content) = some (.ok r)) (k : Nat) (u : ForeignHdu) (hk : us[k]? = some u)
    (rowLen rows : Nat) (cols : List (Nat × Byte)) (hh : BinaryTableCards F u.cards rowLen rows 0 cols) :
    ∃ t, r.hdus[k]? = some (.binary t) ∧ ∀ (name : Str) (j : Nat) (c : Nat × Byte) (row : Nat), cols[j]? = some c → FirstCalled u.cards name j → row < rows →
      ∀ (τ : BinScalar) (s : Str), NumberOf τ (fieldBytes c) → IsTrim (binaryField u.data rowLen cols row j c) s →
        (s.length + 1 = fieldBytes c → ∃ x : τ.El, ((Obj.fresh t.cols t.data : Obj binFamily).read name ⟨τ, false⟩ row).2 = .ok x ∧ Encodes1 τ x (s ++ [0])) ∧
        (s.length + 2 ≤ fieldBytes c → ((Obj.fresh t.cols t.data : Obj binFamily).read name ⟨τ, false⟩ row).2 = .error .ub) := by
  obtain ⟨x, hx, hsh⟩ := foreign_hdu h hs h36 hd hb e hk
  obtain ⟨t, _, _, _, rfl, g1, g2⟩ := (shows_kind hsh hh.xtension).1 rfl
  obtain ⟨rfl, rfl, rfl⟩ := binaryCards_unique hh g1
  refine ⟨t, hx, fun name j c row hj hf hr τ s hn ht => ?_⟩
  obtain ⟨s', h1, h2⟩ := binary_decoded hh g2 hj hf hr ⟨τ, false⟩
  obtain rfl : s = s' := (isTrim_iff.1 ht).symm.trans (isTrim_iff.1 h1)
  rw [h2]
  exact binary_short hn s

theorem padded_trim {field x y : Str} (h : Padded field x) (h' : IsTrim field y) : y = x := by
  obtain ⟨a, b, rfl, h1⟩ := h
  refine (isTrim_iff.1 h').symm.trans (isTrim_iff.1 ⟨_, _, rfl, ?_, ?_, h1⟩)
  · intro c hc; rw [List.eq_of_mem_replicate hc]; exact .inl rfl
  · intro c hc; rw [List.eq_of_mem_replicate hc]; exact .inl rfl

/-- **C155** A field of an ASCII table of another program, read through the column of its name: as a text it is what stands between the blanks; as an integer the number written there,
if it is below 2^63; as a floating point number what C96 says of the text, wherever the format puts the decimal point; exponents with D and blank fields are refused. -/
theorem C155_ascii (content : Str) (us : List ForeignHdu) (h : Laid us content) (hs : ∀ u ∈ us, Supported ieeeText u)
    (h36 : ∀ u ∈ us, ¬ 36 ∣ u.cards.length) (hd : ∀ u ∈ us.dropLast, u.data = [] ∨ ¬ 2880 ∣ u.data.length) (hb : content.length + 5760 < 2 ^ 63)
    (fuel n : Nat) (r : Reader) (e : readEntire ieeeText fuel n (openFile content) = some (.ok r)) (k : Nat) (u : ForeignHdu) (hk : us[k]? = some u)
    (rowLen rows : Nat) (cols : List (Nat × Nat)) (hh : AsciiTableCards ieeeText u.cards rowLen rows 0 cols) (G : StreamText) :
    ∃ t, r.hdus[k]? = some (.ascii t) ∧ ∀ (name : Str) (j : Nat) (c : Nat × Nat) (row : Nat), cols[j]? = some c → FirstCalled u.cards name j → row < rows →
      ∀ (text : Str), Padded (asciiField u.data rowLen row c) text →
        let o : Obj (asciiFamily ieeeText G) := Obj.fresh t.cols t.data
        (o.read name AsciiTag.string row).2 = .ok text ∧
        (∀ d i, IntegerText text d i → (o.read name AsciiTag.longlong row).2 = if -(2 ^ 63) ≤ i ∧ i < 2 ^ 63 then .ok (BitVec.ofInt 64 i) else .error .invalidCast) ∧
        (∀ v : BitVec 64, (o.read name AsciiTag.double row).2 = .ok v ↔ Reads .double text v.toNat) ∧
        (∀ v : BitVec 32, (o.read name AsciiTag.float row).2 = .ok v ↔ Reads .single text v.toNat) ∧
        ((text = [] ∨ LikeNumber text ∧ (68 ∈ text ∨ 100 ∈ text)) → ∀ τ, τ ≠ AsciiTag.string → (o.read name τ row).2 = .error .invalidCast) := by
  obtain ⟨x, hx, hsh⟩ := foreign_hdu h hs h36 hd hb e hk
  obtain ⟨t, _, _, _, rfl, g1, g2⟩ := (shows_kind hsh hh.xtension).2 rfl
  obtain ⟨rfl, rfl, rfl⟩ := asciiCards_unique hh g1
  refine ⟨t, hx, fun name j c row hj hf hr text ht => ?_⟩
  have key : ∀ τ : AsciiTag, ∃ n, ((Obj.fresh t.cols t.data : Obj (asciiFamily ieeeText G)).read name τ row).2 = asciiDeser ieeeText τ text n := by
    intro τ
    obtain ⟨s, n, h1, h2⟩ := ascii_decoded hh g2 hj hf hr G τ
    rw [padded_trim ht h1] at h2
    exact ⟨n, h2⟩
  refine ⟨?_, ?_, ?_, ?_, ?_⟩
  · obtain ⟨n, h1⟩ := key .string
    exact h1
  · intro d i hi
    obtain ⟨n, h1⟩ := key .longlong
    rw [h1]
    simp only [asciiDeser]
    rw [lexSigned_text (by omega) hi]
    simp only [Nat.reduceSub]
    by_cases hi' : -(2 ^ 63 : Int) ≤ i ∧ i < 2 ^ 63
    · rw [if_pos hi', if_pos hi']; rfl
    · rw [if_neg hi', if_neg hi']; rfl
  · intro v
    obtain ⟨n, h1⟩ := key .double
    rw [h1]
    exact (C96_cell text n).1 v
  · intro v
    obtain ⟨n, h1⟩ := key .float
    rw [h1]
    exact (C96_cell text n).2 v
  · intro hbad τ hτ
    obtain ⟨n, h1⟩ := key τ
    rw [h1]
    rcases hbad with rfl | ⟨hl, hbad⟩
    · have p1 : ieeeText.parse64 [] = none := by decide +kernel
      have p2 : ieeeText.parse32 [] = none := by decide +kernel
      cases τ with
      | string => exact absurd rfl hτ
      | longlong => rfl
      | double => simp only [asciiDeser]; rw [p1]; rfl
      | float => simp only [asciiDeser]; rw [p2]; rfl
    · obtain ⟨b, hb1, hb2⟩ : ∃ b ∈ text, b = 68 ∨ b = 100 := hbad.elim (fun h => ⟨_, h, .inl rfl⟩) (fun h => ⟨_, h, .inr rfl⟩)
      obtain ⟨q1, q2⟩ := C96_refused text hl b hb1 (by rcases hb2 with rfl | rfl <;> decide) (by rcases hb2 with rfl | rfl <;> decide)
      simp only [Policy.parseTo] at q1 q2
      cases τ with
      | string => exact absurd rfl hτ
      | longlong =>
        simp only [asciiDeser]
        rw [lexSigned_bad hb1 (by rcases hb2 with rfl | rfl <;> decide) (by rcases hb2 with rfl | rfl <;> decide) (by rcases hb2 with rfl | rfl <;> decide)]
        rfl
      | double =>
        simp only [asciiDeser]
        cases hp : ieeeText.parse64 text with
        | none => rfl
        | some v => rw [hp] at q1; cases q1
      | float =>
        simp only [asciiDeser]
        cases hp : ieeeText.parse32 text with
        | none => rfl
        | some v => rw [hp] at q2; cases q2

/-- The cards of an ASCII table with a column of integers and one of numbers in the notation of Fortran. -/
def exList : List Str :=
  [exCard b!"XTENSION= 'TABLE   '", exCard b!"BITPIX  = 8", exCard b!"NAXIS   = 2", exCard b!"NAXIS1  = 14", exCard b!"NAXIS2  = 2", exCard b!"PCOUNT  = 0",
   exCard b!"GCOUNT  = 1", exCard b!"TFIELDS = 2", exCard b!"TBCOL1  = 1", exCard b!"TFORM1  = 'I4      '", exCard b!"TTYPE1  = 'ID      '", exCard b!"TBCOL2  = 6",
   exCard b!"TFORM2  = 'D9.2    '", exCard b!"TTYPE2  = 'MAG     '", exCard b!"EXTNAME = 'LIST    '", exCard b!"END"]

theorem exList_absent (k : Str) (h : ∀ r ∈ exList, trim (r.take 8) ≠ k) : Absent exList k := by
  intro r hr; rw [keywordIs_iff]; exact h r hr

theorem exList_id : SaysString exList b!"TTYPE1" b!"ID" :=
  ⟨6, exPlain 10 0 60 rfl (by decide) (by decide) (by decide), by unfold PlainText; decide, by decide, by decide, by decide, by decide⟩

theorem exList_mag : SaysString exList b!"TTYPE2" b!"MAG" :=
  ⟨5, exPlain 13 0 60 rfl (by decide) (by decide) (by decide), by unfold PlainText; decide, by decide, by decide, by decide, by decide⟩

theorem exList_shape : ShapeCards exList .B8 [14, 2] := by
  refine ⟨?_, ⟨exList.dropLast, exCard b!"END", by decide, by unfold IsEnd; decide, ?_⟩, ?_, ⟨?_, by decide⟩, ?_⟩
  · intro r hr
    have h1 : r.length = 80 ∧ Card.ofRaw r = .ok ⟨r, none⟩ := by revert r; decide
    refine ⟨h1.1, Classical.byContradiction fun hn => ?_⟩
    rw [ofRaw_piece_bad h1.1 hn] at h1
    exact nomatch h1.2
  · intro r hr; revert r; unfold IsEnd; decide
  · exact ⟨8, ⟨b!"8", b!"8", exPlain 1 0 69 rfl (by decide) (by decide) (by decide), ⟨by decide, by decide⟩, .inl ⟨rfl, by decide⟩⟩, rfl⟩
  · exact ⟨b!"2", b!"2", exPlain 2 0 69 rfl (by decide) (by decide) (by decide), ⟨by decide, by decide⟩, .inl ⟨rfl, by decide⟩⟩
  · intro j a d ha hd
    obtain rfl := isNat_iff.1 hd
    match j, ha with
    | 0, ha =>
      cases ha
      exact ⟨⟨b!"14", b!"14", exPlain 3 0 68 rfl (by decide) (by decide) (by decide), ⟨by decide, by decide⟩, .inl ⟨rfl, by decide⟩⟩, by decide⟩
    | 1, ha =>
      cases ha
      exact ⟨⟨b!"2", b!"2", exPlain 4 0 69 rfl (by decide) (by decide) (by decide), ⟨by decide, by decide⟩, .inl ⟨rfl, by decide⟩⟩, by decide⟩
    | j + 2, ha => simp at ha

theorem exList_ascii (F : FloatText) : AsciiTableCards F exList 14 2 0 [(1, 4), (6, 9)] := by
  refine ⟨⟨exList_shape, exList_absent _ (by decide), ?_, ⟨?_, by decide⟩, ?_, ?_, by decide⟩, by decide, ?_⟩
  · exact ⟨3, exPlain 0 0 60 rfl (by decide) (by decide) (by decide), by unfold PlainText; decide, by decide, by decide, by decide, by decide⟩
  · exact ⟨b!"0", b!"0", exPlain 5 0 69 rfl (by decide) (by decide) (by decide), ⟨by decide, by decide⟩, .inl ⟨rfl, by decide⟩⟩
  · exact ⟨b!"1", b!"1", exPlain 6 0 69 rfl (by decide) (by decide) (by decide), ⟨by decide, by decide⟩, .inl ⟨rfl, by decide⟩⟩
  · exact ⟨b!"2", b!"2", exPlain 7 0 69 rfl (by decide) (by decide) (by decide), ⟨by decide, by decide⟩, .inl ⟨rfl, by decide⟩⟩
  · intro j c d hc hd
    obtain rfl := isNat_iff.1 hd
    match j, hc with
    | 0, hc =>
      cases hc
      exact ⟨⟨b!"I4", ⟨6, exPlain 9 0 60 rfl (by decide) (by decide) (by decide), by unfold PlainText; decide, by decide, by decide, by decide, by decide⟩,
          ⟨73, b!"4", [], by decide, ⟨by decide, by decide⟩, rfl, by decide, .inl rfl⟩⟩,
        ⟨b!"1", b!"1", exPlain 8 0 69 rfl (by decide) (by decide) (by decide), ⟨by decide, by decide⟩, .inl ⟨rfl, by decide⟩⟩,
        ⟨.inr ⟨_, exList_id, exList_absent _ (by decide)⟩, .inl (exList_absent _ (by decide)), .inl (exList_absent _ (by decide)), .inl (exList_absent _ (by decide))⟩⟩
    | 1, hc =>
      cases hc
      exact ⟨⟨b!"D9.2", ⟨4, exPlain 12 0 60 rfl (by decide) (by decide) (by decide), by unfold PlainText; decide, by decide, by decide, by decide, by decide⟩,
          ⟨68, b!"9", b!".2", by decide, ⟨by decide, by decide⟩, rfl, by decide, .inr ⟨b!"2", ⟨by decide, by decide⟩, rfl⟩⟩⟩,
        ⟨b!"6", b!"6", exPlain 11 0 69 rfl (by decide) (by decide) (by decide), ⟨by decide, by decide⟩, .inl ⟨rfl, by decide⟩⟩,
        ⟨.inr ⟨_, exList_mag, exList_absent _ (by decide)⟩, .inl (exList_absent _ (by decide)), .inl (exList_absent _ (by decide)), .inl (exList_absent _ (by decide))⟩⟩
    | j + 2, hc => simp at hc

theorem exList_names (F : FloatText) : TextNames F exList := by
  intro d name h
  obtain ⟨i, raw, h1, h2, _⟩ := lookup_ok.1 h
  have hk : trim (raw.take 8) = b!"TTYPE" ++ d := by
    have := h1.2.1
    rw [(List.getElem?_eq_some_iff.1 h2).2] at this
    exact keywordIs_iff.1 this
  have hr : ∀ r ∈ exList, b!"TTYPE" <+: trim (r.take 8) → trim (r.take 8) = b!"TTYPE1" ∨ trim (r.take 8) = b!"TTYPE2" := by decide
  have := hr raw (List.mem_of_getElem? h2) (by rw [hk]; exact List.prefix_append _ _)
  rw [hk] at this
  rcases this with this | this
  · have hd : d = b!"1" := List.append_cancel_left (as := b!"TTYPE") this
    subst hd
    cases says_string_fun exList_id (lookup_ok.1 h)
    unfold TextKey; decide
  · have hd : d = b!"2" := List.append_cancel_left (as := b!"TTYPE") this
    subst hd
    cases says_string_fun exList_mag (lookup_ok.1 h)
    unfold TextKey; decide

theorem exList_supported (F : FloatText) (data : Str) (h : data.length = 28) : Supported F ⟨exList, data⟩ :=
  .ascii 14 2 [(1, 4), (6, 9)] b!"LIST" (exList_ascii F) (by decide) (exList_names F)
    ⟨4, exPlain (cards := exList) 14 0 60 rfl (by decide) (by decide) (by decide), by unfold PlainText; decide, by decide, by decide, by decide, by decide⟩ h

theorem exTwo_only {P : ForeignHdu → Prop} {a b : ForeignHdu} (ha : P a) (hb : P b) : ∀ u ∈ [a, b], P u := by
  intro u hu
  rcases List.mem_cons.1 hu with rfl | hu
  · exact ha
  · rw [List.mem_singleton.1 hu]; exact hb

/-- An integer is found; the number in the notation with D is refused, the one without exponent is found. -/
example (fuel n : Nat) (r : Reader) (G : StreamText) (e : readEntire ieeeText fuel n (openFile
      (exNoImage.flatten ++ List.replicate 2480 32 ++ [] ++ [] ++ (exList.flatten ++ List.replicate 1600 32 ++ b!"  12  1.50D+00  -7      1.50" ++ List.replicate 2852 32 ++ []))) =
        some (.ok r)) :
    ∃ t, r.hdus[1]? = some (.ascii t) ∧
      let o : Obj (asciiFamily ieeeText G) := Obj.fresh t.cols t.data
      (o.read b!"ID" AsciiTag.longlong 0).2 = .ok (12#64 : BitVec 64) ∧ (o.read b!"MAG" AsciiTag.double 0).2 = .error .invalidCast ∧
      (o.read b!"MAG" AsciiTag.double 1).2 = .ok (0x3FF8000000000000#64 : BitVec 64) := by
  have hf : exNoImage.flatten.length = 400 := by decide +kernel
  have hg : exList.flatten.length = 1280 := by decide +kernel
  have hl : Laid [⟨exNoImage, []⟩, ⟨exList, b!"  12  1.50D+00  -7      1.50"⟩] _ :=
    .cons (fill := List.replicate 2480 32) (tail := []) (by rw [List.length_replicate]; rfl) rfl
      (.cons (fill := List.replicate 1600 32) (tail := List.replicate 2852 32) (by rw [List.length_replicate]; rfl) (by rw [List.length_replicate]; rfl) .nil)
  have hb : (exNoImage.flatten ++ List.replicate 2480 32 ++ [] ++ [] ++ (exList.flatten ++ List.replicate 1600 32 ++ b!"  12  1.50D+00  -7      1.50" ++
      List.replicate 2852 32 ++ [])).length + 5760 < 2 ^ 63 := by
    simp only [List.length_append, hf, hg, List.length_replicate]; decide
  obtain ⟨t, h1, h2⟩ := C155_ascii _ _ hl (exTwo_only (exNoImage_supported _) (exList_supported _ _ rfl)) (exTwo_only (P := fun u => ¬ 36 ∣ u.cards.length) (by decide) (by decide))
    (by intro u hu; rw [List.mem_singleton.1 hu]; exact .inl rfl) hb fuel n r e 1 _ rfl 14 2 _ (exList_ascii _) G
  have f1 : FirstCalled exList b!"ID" 0 := ⟨by decide, ⟨b!"1", isNat_iff.2 rfl, exList_id⟩, fun i d hi => absurd hi (Nat.not_lt_zero i)⟩
  have f2 : FirstCalled exList b!"MAG" 1 := by
    refine ⟨by decide, ⟨b!"2", isNat_iff.2 rfl, exList_mag⟩, fun i d hi hd hs => ?_⟩
    obtain rfl : i = 0 := by omega
    obtain rfl := isNat_iff.1 hd
    exact absurd (says_string_fun exList_id (says_string (F := ieeeText) hs)) (by decide)
  refine ⟨t, h1, ?_, ?_, ?_⟩
  · exact (h2 b!"ID" 0 (1, 4) 0 rfl f1 (by decide) b!"12" ⟨2, 0, by decide, noOuter_of _ (by decide)⟩).2.1 b!"12" 12 ⟨⟨by decide, by decide⟩, .inl ⟨rfl, by decide⟩⟩
  · exact (h2 b!"MAG" 1 (6, 9) 0 rfl f2 (by decide) b!"1.50D+00" ⟨1, 0, by decide, noOuter_of _ (by decide)⟩).2.2.2.2
      (.inr ⟨⟨[], false, 49, b!".50D+00", rfl, .inl ⟨rfl, rfl⟩, .inr (by decide)⟩, .inl (by decide)⟩) _ (by decide)
  · refine ((h2 b!"MAG" 1 (6, 9) 1 rfl f2 (by decide) b!"1.50" ⟨5, 0, by decide, noOuter_of _ (by decide)⟩).2.2.1 _).2 ?_
    exact parse64_iff.1 (by decide +kernel)

/-- The number 32 is read as 0, because its last byte is a blank. -/
example (F : FloatText) (fuel n : Nat) (r : Reader) (e : readEntire F fuel n (openFile
      (exNoImage.flatten ++ List.replicate 2480 32 ++ [] ++ [] ++ (exStars.flatten ++ List.replicate 1840 32 ++ [0, 0, 0, 32, 65, 66, 0, 0, 0, 33, 67, 68] ++ List.replicate 2868 0 ++
        []))) = some (.ok r)) :
    ∃ t, r.hdus[1]? = some (.binary t) ∧
      let o : Obj binFamily := Obj.fresh t.cols t.data
      (o.read b!"ID" (⟨.int32, false⟩ : BinTag) 0).2 = .ok (0#32 : BitVec 32) ∧ (o.read b!"ID" (⟨.int32, false⟩ : BinTag) 1).2 = .ok (33#32 : BitVec 32) := by
  have hf : exNoImage.flatten.length = 400 := by decide +kernel
  have hg : exStars.flatten.length = 1040 := by decide +kernel
  have hl : Laid [⟨exNoImage, []⟩, ⟨exStars, [0, 0, 0, 32, 65, 66, 0, 0, 0, 33, 67, 68]⟩] _ :=
    .cons (fill := List.replicate 2480 32) (tail := []) (by rw [List.length_replicate]; rfl) rfl
      (.cons (fill := List.replicate 1840 32) (tail := List.replicate 2868 0) (by rw [List.length_replicate]; rfl) (by rw [List.length_replicate]; rfl) .nil)
  have hb : (exNoImage.flatten ++ List.replicate 2480 32 ++ [] ++ [] ++ (exStars.flatten ++ List.replicate 1840 32 ++ [0, 0, 0, 32, 65, 66, 0, 0, 0, 33, 67, 68] ++
      List.replicate 2868 0 ++ [])).length + 5760 < 2 ^ 63 := by
    simp only [List.length_append, hf, hg, List.length_replicate]; decide
  have hs := exTwo_only (exNoImage_supported F) (exStars_supported F [0, 0, 0, 32, 65, 66, 0, 0, 0, 33, 67, 68] rfl)
  have h36 := exTwo_only (a := ⟨exNoImage, []⟩) (b := ⟨exStars, [0, 0, 0, 32, 65, 66, 0, 0, 0, 33, 67, 68]⟩) (P := fun u => ¬ 36 ∣ u.cards.length) (by decide) (by decide)
  have hd : ∀ u ∈ [(⟨exNoImage, []⟩ : ForeignHdu)], u.data = [] ∨ ¬ 2880 ∣ u.data.length := by intro u hu; rw [List.mem_singleton.1 hu]; exact .inl rfl
  obtain ⟨t, h1, h2⟩ := C155_binary F _ _ hl hs h36 hd hb fuel n r e 1 _ rfl 6 2 _ (exStars_binary F)
  obtain ⟨t', h3, h4⟩ := C155_lost F _ _ hl hs h36 hd hb fuel n r e 1 _ rfl 6 2 _ (exStars_binary F)
  rw [h1] at h3
  cases h3
  have f1 : FirstCalled exStars b!"ID" 0 := ⟨by decide, ⟨b!"1", isNat_iff.2 rfl, exStars_id⟩, fun i d hi => absurd hi (Nat.not_lt_zero i)⟩
  refine ⟨t, h1, ?_, ?_⟩
  · obtain ⟨x, g1, g2⟩ := (h4 b!"ID" 0 (1, 74) 0 rfl f1 (by decide) .int32 [0, 0, 0] rfl (isTrim_iff.2 (by decide))).1 (by decide)
    refine g1.trans (congrArg _ ?_)
    exact BitVec.eq_of_toNat_eq (g2.2.symm.trans (by decide))
  · exact (h2 b!"ID" 0 (1, 74) 1 rfl f1 (by decide) (⟨.int32, false⟩ : BinTag) (33#32 : BitVec 32) (by decide) trivial ⟨by decide, by decide⟩).2 (noOuter_of _ (by decide))

end Astro
