import Verif.Lemmas.Cell

/-
Property C87: typed values survive being written to and read from a table.
-/

namespace Astro

open Spec Bin

/-! ## C87 -/

/-- **C87** The bytes a value is written as are those the FITS standard prescribes. -/
theorem C87_encode (t : BinTag) (x : t.El) (s : Str) : binFamily.ser t x = s ↔ Encodes t x s := by
  obtain ⟨a, v⟩ := t
  cases v with
  | true => exact eq_comm.trans (encodesN_iff a x s).symm
  | false => exact eq_comm.trans (encodes1_iff a x s).symm

/-- **C87** Read back, they give the value, for every type except arrays of pairs (see C17). -/
theorem C87_decode (t : BinTag) (ht : t ≠ ⟨.pair, true⟩) (x : t.El) (n : Nat) (hn : HasCount n t x) (s : Str) (hs : Encodes t x s) :
    binFamily.deser t s n = .ok x := by
  have := (C87_encode t x s).2 hs
  subst this
  obtain ⟨a, v⟩ := t
  cases v with
  | true =>
    cases hn
    exact deserN_serN a (fun h => ht (by rw [h])) x
  | false => exact deser1_ser1 a x

/-- **C87** Parsing removes the white-space bytes at both ends of a cell.  The value survives that exactly when there were none: a byte that was lost
is never made up for by chance (T and F are no white space, so logical values always survive). -/
theorem C87_survives (t : BinTag) (ht : t ≠ ⟨.pair, true⟩) (x : t.El) (n : Nat) (hn : HasCount n t x) (s s' : Str) (hs : Encodes t x s)
    (htrim : IsTrim s s') : binFamily.deser t s' n = .ok x ↔ NoOuterWhite s := by
  constructor
  · intro hd
    refine Classical.byContradiction fun hne => ?_
    have hlt : s'.length < s.length := by
      rw [← isTrim_iff.1 htrim]
      exact trim_shorter fun he => hne (trim_eq_iff.1 he)
    obtain ⟨a, v⟩ := t
    by_cases hb : a = .bool
    · subst hb
      apply hne
      cases v with
      | true => rw [(encodesN_iff .bool x s).1 hs]; exact bool_clean x
      | false =>
        have hb := bool_clean [x]
        rw [(encodes1_iff .bool x s).1 hs]
        cases x <;> exact hb
    · have key : s.length ≤ s'.length + 1 ∧ Encodes ⟨a, v⟩ x ((s' ++ [0]).take s.length) := by
        cases v with
        | true =>
          have hp : a ≠ .pair := fun h => ht (by rw [h])
          obtain ⟨g1, g2, g3⟩ := readsN hb hp hd
          have hl := encodesN_length hs
          rw [g1] at hl
          rw [hl]; exact ⟨g2, g3⟩
        | false =>
          obtain ⟨g2, g3⟩ := reads1 hb hd
          rw [encodes1_length hs]; exact ⟨g2, g3⟩
      have e := ((C87_encode _ x _).2 hs).symm.trans ((C87_encode _ x _).2 key.2)
      rw [List.take_of_length_le (by simp; omega)] at e
      exact trim_no_zero htrim hne e
  · intro hc
    have : s' = s := by rw [← isTrim_iff.1 htrim]; exact trim_eq_iff.2 hc
    subst this
    exact C87_decode t ht x n hn _ hs

/-- The 16-bit numbers 258 and 288 = 0x0120, written and parsed: the blank byte of the second is lost, it comes back as 256. -/
example : binFamily.deser ⟨.int16, false⟩ (trim (binFamily.ser ⟨.int16, false⟩ (258#16 : BitVec 16))) 1 = .ok (258#16 : BitVec 16) ∧
    binFamily.deser ⟨.int16, false⟩ (trim (binFamily.ser ⟨.int16, false⟩ (288#16 : BitVec 16))) 1 = .ok (256#16 : BitVec 16) := ⟨rfl, rfl⟩

variable {Φ : Family} {ty : Str → Φ.Tag}

/-- The values an operation writes have as many elements as the column says, and are not arrays of pairs. -/
def BinWrites (cols : List Column) {ty : Str → BinTag} : VOp binFamily ty → Prop
  | .write name _ x => ty name ≠ ⟨.pair, true⟩ ∧ ∀ c, Table.columnMetadata cols name = .ok c → HasCount c.total (ty name) x
  | .assign name _ x => ty name ≠ ⟨.pair, true⟩ ∧ ∀ c, Table.columnMetadata cols name = .ok c → HasCount c.total (ty name) x
  | _ => True

/-- **C87** Binary tables: after any sequence of typed reads, writes, assignments and loops the table is written, and what was written is parsed.  If no
cell has changed its width or begins or ends with a white-space byte, every column read from the new table holds the values it holds in the old one. -/
theorem C87_binary_reload {ty : Str → BinTag} (cols : List Column) (data : List (List Str)) (hl : Layout cols data) (ops : List (VOp binFamily ty))
    (hv : ∀ op ∈ ops, op.Valid (cols.map (·.name)) data.length) (hops : ∀ op ∈ ops, BinWrites cols op)
    (t : Table) (ht : t.cols = cols ∧ t.data = ((Obj.fresh cols data : Obj binFamily).run ops).1.data)
    (ws : List Nat) (hw : Widths BinWidth (cols.map (·.format)) ws) (hne : cols ≠ []) (hd : data ≠ [])
    (hrow : ∀ row ∈ t.data, row.map List.length = ws ∧ ∀ x ∈ row, NoOuterWhite x) (rest : Str) :
    ∃ d, BinTable.tableData ((BinTable.rowTexts t).flatten ++ rest) data.length cols = .ok d ∧
      ∀ name ∈ cols.map (·.name), ∀ row < data.length,
        ((Obj.fresh cols d : Obj binFamily).read name (ty name) row).2 =
          (((Obj.fresh cols data : Obj binFamily).run ops).1.read name (ty name) row).2 := by
  obtain ⟨rfl, ht⟩ := ht
  obtain ⟨_, g2, _⟩ := run_agree data.length ops (agree_initial (Φ := binFamily) (ty := ty) hl) rfl hv
  have hlen : t.data.length = data.length := by rw [ht]; exact g2
  have hd' : t.data ≠ [] := by
    intro h0; rw [h0] at hlen; exact hd (List.length_eq_zero_iff.1 hlen.symm)
  refine ⟨t.data, by rw [← hlen]; exact bin_reparse t ws hw hne hd' hrow rest, ?_⟩
  intro name hname row hr
  rw [ht]
  refine reload_read hl ops hv ?_ name hname row hr
  intro op ho
  have hb := hops op ho
  cases op with
  | read => trivial
  | iterate => trivial
  | write n r x =>
    intro c hc
    exact C87_decode _ hb.1 x _ (hb.2 c hc) _ ((C87_encode _ _ _).1 rfl)
  | assign n r x =>
    intro c hc
    exact C87_decode _ hb.1 x _ (hb.2 c hc) _ ((C87_encode _ _ _).1 rfl)

def exCellCols : List Column := [⟨1, b!"N", 0, b!"1I", [], none, none, [], [], [], 1⟩, ⟨2, b!"V", 2, b!"2B", [], none, none, [], [], [], 2⟩]

def exCellTy (name : Str) : BinTag := if name = b!"N" then ⟨.int16, false⟩ else ⟨.byte, true⟩

def exCellOps : List (VOp binFamily exCellTy) := [.read b!"N" 1, .write b!"N" 0 (show BitVec 16 from 0x4142#16), .iterate b!"V"]

/-- Two rows; the first number is overwritten; after writing and parsing everything is there. -/
example : let o := ((Obj.fresh exCellCols [[[1, 2], [3, 4]], [[5, 6], [7, 8]]] : Obj binFamily).run exCellOps).1
    let text := (BinTable.rowTexts ⟨Header.empty, 1, 0, [], 2, exCellCols, o.data⟩).flatten
    text = [0x41, 0x42, 3, 4, 5, 6, 7, 8] ∧
    (∃ d, BinTable.tableData (text ++ spaces 2) 2 exCellCols = .ok d ∧
      ((Obj.fresh exCellCols d : Obj binFamily).read b!"N" ⟨.int16, false⟩ 0).2 = .ok (0x4142#16 : BitVec 16) ∧
      ((Obj.fresh exCellCols d : Obj binFamily).read b!"V" ⟨.byte, true⟩ 1).2 = .ok ([7, 8] : List Byte)) :=
  ⟨by decide +kernel, [[[0x41, 0x42], [3, 4]], [[5, 6], [7, 8]]], by decide +kernel, rfl, rfl⟩

/-- A text, an integer, or a floating point number which the digits printed for it give back. -/
def Printable (F : FloatText) (G : StreamText) : (t : AsciiTag) → t.El → Prop
  | .string, _ => True
  | .longlong, _ => True
  | .float, x => F.parse32 (G.show32 x) = some x
  | .double, x => F.parse64 (G.show64 x) = some x

/-- The values an operation writes can be printed without loss. -/
def AsciiWrites (F : FloatText) (G : StreamText) {ty : Str → AsciiTag} : VOp (asciiFamily F G) ty → Prop
  | .write name _ x => Printable F G (ty name) x
  | .assign name _ x => Printable F G (ty name) x
  | _ => True

/-- **C87** In an ASCII table a value can be read back from its text exactly when it can be printed without loss; texts and integers always can. -/
theorem C87_ascii_decode (F : FloatText) (G : StreamText) (t : AsciiTag) (x : t.El) (n : Nat) :
    asciiDeser F t (asciiSer G t x) n = .ok x ↔ Printable F G t x := by
  cases t with
  | string => exact ⟨fun _ => trivial, fun _ => rfl⟩
  | longlong =>
    refine ⟨fun _ => trivial, fun _ => ?_⟩
    have := lexSigned_showInt 64 (by omega) x
    simp only [asciiDeser, asciiSer]
    rw [this]
  | float =>
    simp only [asciiDeser, asciiSer, Printable]
    cases F.parse32 (G.show32 x) with
    | none => simp
    | some y => exact ⟨fun h => by cases h; rfl, fun h => by cases h; rfl⟩
  | double =>
    simp only [asciiDeser, asciiSer, Printable]
    cases F.parse64 (G.show64 x) with
    | none => simp
    | some y => exact ⟨fun h => by cases h; rfl, fun h => by cases h; rfl⟩

/-- **C87** ASCII tables: the same, if the columns lie one behind the other, the cells fit their columns and have no white space at their ends, and the
floating point numbers that are written survive being printed with six digits. -/
theorem C87_ascii_reload (F : FloatText) (G : StreamText) {ty : Str → AsciiTag} (cols : List Column) (data : List (List Str)) (hl : Layout cols data)
    (ops : List (VOp (asciiFamily F G) ty))
    (hv : ∀ op ∈ ops, op.Valid (cols.map (·.name)) data.length) (hops : ∀ op ∈ ops, AsciiWrites F G op)
    (t : Table) (ht : t.cols = cols ∧ t.data = ((Obj.fresh cols data : Obj (asciiFamily F G)).run ops).1.data)
    (ws : List Nat) (hw : Widths AsciiWidth (cols.map (·.format)) ws) (hne : cols ≠ []) (hpos : ∀ w ∈ ws, 0 < w)
    (hstart : ∀ (j : Nat) (c : Column), cols[j]? = some c → c.start = fieldStart ws j + 1)
    (hfit : ∀ row ∈ t.data, ∀ (j : Nat) (s : Str) (w : Nat), row[j]? = some s → ws[j]? = some w → s.length ≤ w)
    (hsize : data.length * ws.sum < 2 ^ 64) (hclean : ∀ row ∈ t.data, ∀ s ∈ row, NoOuterWhite s) (rest : Str) :
    ∃ rows d, Ascii.rowTexts t = .ok rows ∧ Ascii.tableData (rows.flatten ++ rest) ws.sum data.length cols = .ok d ∧
      ∀ name ∈ cols.map (·.name), ∀ row < data.length,
        ((Obj.fresh cols d : Obj (asciiFamily F G)).read name (ty name) row).2 =
          (((Obj.fresh cols data : Obj (asciiFamily F G)).run ops).1.read name (ty name) row).2 := by
  obtain ⟨rfl, ht⟩ := ht
  obtain ⟨_, g2, g3⟩ := run_agree data.length ops (agree_initial (Φ := asciiFamily F G) (ty := ty) hl) rfl hv
  have hlen : t.data.length = data.length := by rw [ht]; exact g2
  have hwid : ∀ row ∈ t.data, row.length = t.cols.length := by rw [ht]; exact g3.layout.width
  obtain ⟨rows, r1, r2⟩ := C37_same_cells t ws hw hne hpos hstart (fun row hr => ⟨hwid row hr, hfit row hr⟩) (by rw [hlen]; exact hsize) rest hclean
  refine ⟨rows, t.data, r1, by rw [← hlen]; exact r2, ?_⟩
  intro name hname row hr
  rw [ht]
  refine reload_read hl ops hv ?_ name hname row hr
  intro op ho
  have hb := hops op ho
  cases op with
  | read => trivial
  | iterate => trivial
  | write n r x => intro c hc; exact (C87_ascii_decode F G _ x _).2 hb
  | assign n r x => intro c hc; exact (C87_ascii_decode F G _ x _).2 hb

end Astro
