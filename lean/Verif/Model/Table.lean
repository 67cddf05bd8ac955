import Verif.Model.Header
import Verif.Model.Convert

/-
io/column.hpp, io/extension_hdu.hpp, io/table_extension.hpp, io/ascii_table.hpp, io/binary_table.hpp:
table HDUs, their construction from header and data, and writing them.

Memory is unlimited: allocations that would exceed it (absurd TFIELDS or NAXIS2 values) are not modelled.
A call that throws in the middle is modelled by its error only; what was already written or stored is dropped.
-/

namespace Astro

namespace Header

/-- `value_of<T>(k)` used as an expression: header afterwards (caches) and value, or the exception.  Exceptions leave the header unchanged. -/
def get (F : FloatText) (h : Header) (k : Str) (t : Ty) : Res (Header × Val) :=
  match h.valueOf F k t with
  | (h', .ok v) => .ok (h', v)
  | (_, .error e) => .error e

/-- `value_of<std::string>(k)`. -/
def getStr (F : FloatText) (h : Header) (k : Str) : Res (Header × Str) :=
  match h.get F k .string with
  | .ok (h', .string s) => .ok (h', s)
  | .ok _ => .error .ub
  | .error e => .error e

/-- `value_of<std::size_t>(k)`. -/
def getSize (F : FloatText) (h : Header) (k : Str) : Res (Header × Nat) :=
  match h.get F k .sizeT with
  | .ok (h', .sizeT v) => .ok (h', v.toNat)
  | .ok _ => .error .ub
  | .error e => .error e

/-- `value_of<int>(k)`. -/
def getInt (F : FloatText) (h : Header) (k : Str) : Res (Header × BitVec 32) :=
  match h.get F k .int with
  | .ok (h', .int v) => .ok (h', v)
  | .ok _ => .error .ub
  | .error e => .error e

/-- `value_of<double>(k)`. -/
def getDouble (F : FloatText) (h : Header) (k : Str) : Res (Header × BitVec 64) :=
  match h.get F k .double with
  | .ok (h', .double v) => .ok (h', v)
  | .ok _ => .error .ub
  | .error e => .error e

/-- `try { x = <lookup>; } catch (std::out_of_range&) {}`: `none` if the exception was caught. -/
def optional {α : Type} (h : Header) (r : Res (Header × α)) : Res (Header × Option α) :=
  match r with
  | .ok (h', a) => .ok (h', some a)
  | .error .outOfRange => .ok (h, none)
  | .error e => .error e

end Header

/-- struct column, column.hpp l.23-36.  `scale` and `zero` are not initialised by the default constructor (`none`). -/
structure Column where
  index : Nat
  name : Str
  start : Nat
  format : Str
  unit : Str
  scale : Option (BitVec 64)
  zero : Option (BitVec 64)
  display : Str
  dimension : Str
  comment : Str
  total : Nat
  deriving DecidableEq, Repr

/-- extension_hdu (extension_hdu.hpp l.27-33) and table_extension (table_extension.hpp l.27-34). -/
structure Table where
  header : Header
  gcount : BitVec 32
  pcount : BitVec 32
  extname : Str
  tfields : Nat
  cols : List Column
  data : List (List Str)

namespace Table

/-- set_extension_info, extension_hdu.hpp l.58-62, and set_table_extension_info, table_extension.hpp l.101-104. -/
def base (F : FloatText) (h : Header) : Res Table := do
  let (h1, g) ← h.getInt F b!"GCOUNT"
  let (h2, p) ← h1.getInt F b!"PCOUNT"
  let (h3, e) ← h2.getStr F b!"EXTNAME"
  let (h4, n) ← h3.getSize F b!"TFIELDS"
  return ⟨h4, g, p, e, n, [], []⟩

/-- The block reading TTYPEi and, with its value as keyword, the comment (ascii_table.hpp l.187-196, binary_table.hpp l.256-265): name
and comment. -/
def columnName (F : FloatText) (h : Header) (i : Nat) : Res (Header × Str × Str) :=
  match h.getStr F (b!"TTYPE" ++ showNat i) with
  | .error .outOfRange => .ok (h, [], [])
  | .error e => .error e
  | .ok (h1, name) =>
    match h1.getStr F name with
    | .error .outOfRange => .ok (h1, name, [])
    | .error e => .error e
    | .ok (h2, comment) => .ok (h2, name, comment)

/-- get_column_metadata, table_extension.hpp l.67-73. -/
def columnMetadata (cols : List Column) (name : Str) : Res Column :=
  match cols.find? (fun c => c.name == name) with
  | some c => .ok c
  | none => .error .columnNotFound

end Table

namespace Ascii

/-- The loop of column_size, ascii_table.hpp l.111-119: position of the first dot, or the length. -/
def decimal (form : Str) : Nat :=
  match form.findIdx? (· == 46) with
  | some i => i
  | none => form.length

/-- column_size, ascii_table.hpp l.106-122 (`decimal - 1` is -1, that is `npos`: up to
the end, when the format starts with a dot). -/
def columnSize (format : Str) : Res Nat := do
  let form := Bin.trimQuotes format
  let digits ← substr form 1 (if decimal form = 0 then form.length else decimal form - 1)
  return (← lexUnsigned 64 digits).toNat

/-- get_type, ascii_table.hpp l.129-136 (`form[0]` of an empty string is the terminating zero). -/
def getType (format : Str) : Byte := (Bin.trimQuotes format).headD 0

/-- One turn of populate_column_data, ascii_table.hpp l.175-221, for column number `i` (from 1). -/
def column (F : FloatText) (h : Header) (i : Nat) : Res (Header × Column) := do
  let (h1, format) ← h.getStr F (b!"TFORM" ++ showNat i)
  let (h2, start) ← h1.getSize F (b!"TBCOL" ++ showNat i)
  let (h3, name, comment) ← Table.columnName F h2 i
  let (h4, unit) ← h3.optional (h3.getStr F (b!"TUNIT" ++ showNat i))
  let (h5, scale) ← h4.optional (h4.getDouble F (b!"TSCAL" ++ showNat i))
  let (h6, zero) ← h5.optional (h5.getDouble F (b!"TZERO" ++ showNat i))
  return (h6, ⟨i, name, start, format, unit.getD [], scale, zero, [], [], comment, 0⟩)

/-- populate_column_data, ascii_table.hpp l.173-222: `n` columns left, the next has number `i`. -/
def columns (F : FloatText) : Nat → Nat → Header → Res (Header × List Column)
  | 0, _, h => .ok (h, [])
  | n + 1, i, h => do
    let (h1, c) ← column F h i
    let (h2, cs) ← columns F n (i + 1) h1
    return (h2, c :: cs)

/-- The text of one cell, ascii_table.hpp l.253-256 (`size_t` product): iterators outside the buffer are undefined behaviour.  (A TBCOL of
`2^63` or more, a negative offset, is undefined already in row 0.) -/
def cell (buf : Str) (rowLen row : Nat) (c : Column) : Res Str := do
  let start := row * rowLen % sizeMod + c.start
  if start = 0 ∨ buf.length < start then .error .ub
  else
    let w ← columnSize c.format
    if start - 1 + w ≤ buf.length then return trim ((buf.drop (start - 1)).take w) else .error .ub

/-- set_table_data, ascii_table.hpp l.240-264: without columns `col_metadata_[0]` is undefined. -/
def tableData (buf : Str) (rowLen rows : Nat) (cols : List Column) : Res (List (List Str)) :=
  if cols.isEmpty ∧ rows ≠ 0 then .error .ub
  else (List.range rows).mapM fun r => cols.mapM (cell buf rowLen r)

/-- set_ascii_table_info, ascii_table.hpp l.228-235, on a table with fresh column metadata. -/
def setInfo (F : FloatText) (t : Table) (buf : Str) : Res Table := do
  let (h, cols) ← columns F t.tfields 1 t.header
  let t' := { t with header := h, cols := cols }
  if buf.isEmpty then return t'
  else
    let rows ← h.naxisAt 2
    let rowLen ← h.naxisAt 1
    return { t' with data := ← tableData buf rowLen rows cols }

/-- The constructor, ascii_table.hpp l.65-67. -/
def make (F : FloatText) (h : Header) (buf : Str) : Res Table := do
  setInfo F (← Table.base F h) buf

/-- One row of write_to, ascii_table.hpp l.150-156. -/
def rowBytes (cols : List Column) : List Str → Nat → Res Str
  | [], _ => .ok []
  | s :: r, i =>
    match cols[i]? with
    | none => .error .ub
    | some c => do
      let w ← columnSize c.format
      let k ← padCount w s.length
      let rest ← rowBytes cols r (i + 1)
      return spaces k ++ s ++ rest

/-- The texts of all rows as written by write_to, ascii_table.hpp l.148-157. -/
def rowTexts (t : Table) : Res (List Str) := t.data.mapM fun r => rowBytes t.cols r 0

end Ascii

namespace BinTable

/-- get_type, binary_table.hpp l.187-194: the last character; `form[length - 1]` of an empty string is undefined. -/
def getType (format : Str) : Res Byte :=
  match (Bin.trimQuotes format).getLast? with
  | some c => .ok c
  | none => .error .ub

/-- type_size, binary_table.hpp l.201-230. -/
def typeSize (c : Byte) : Res Nat :=
  if c = 76 then .ok 1        -- L
  else if c = 88 then .ok 1   -- X
  else if c = 66 then .ok 1   -- B
  else if c = 73 then .ok 2   -- I
  else if c = 74 then .ok 4   -- J
  else if c = 65 then .ok 1   -- A
  else if c = 69 then .ok 4   -- E
  else if c = 68 then .ok 8   -- D
  else if c = 67 then .ok 8   -- C
  else if c = 77 then .ok 16  -- M
  else if c = 80 then .ok 8   -- P
  else .error .invalidTableFormat

/-- column_size, binary_table.hpp l.155-163 (`size_t` product). -/
def columnSize (format : Str) : Res Nat := do
  let form := Bin.trimQuotes format
  let n ← Bin.elementCount form
  let s ← typeSize (← getType form)
  return n * s % sizeMod

/-- One turn of populate_column_data, binary_table.hpp l.244-303, for column number `i` (from 1); `start` is the running offset. -/
def column (F : FloatText) (h : Header) (i start : Nat) : Res (Header × Column × Nat) := do
  let (h1, format) ← h.getStr F (b!"TFORM" ++ showNat i)
  let w ← columnSize format
  let (h3, name, comment) ← Table.columnName F h1 i
  let (h4, unit) ← h3.optional (h3.getStr F (b!"TUNIT" ++ showNat i))
  let (h5, scale) ← h4.optional (h4.getDouble F (b!"TSCAL" ++ showNat i))
  let (h6, zero) ← h5.optional (h5.getDouble F (b!"TZERO" ++ showNat i))
  let (h7, display) ← h6.optional (h6.getStr F (b!"TDISP" ++ showNat i))
  let (h8, dimension) ← h7.optional (h7.getStr F (b!"TDIM" ++ showNat i))
  let n ← Bin.elementCount format
  return (h8, ⟨i, name, start, format, unit.getD [], scale, zero, display.getD [], dimension.getD [], comment, n⟩, (start + w) % sizeMod)

/-- populate_column_data, binary_table.hpp l.241-304: `n` columns left, the next has number `i` and offset `start`. -/
def columns (F : FloatText) : Nat → Nat → Nat → Header → Res (Header × List Column)
  | 0, _, _, h => .ok (h, [])
  | n + 1, i, start, h => do
    let (h1, c, start') ← column F h i start
    let (h2, cs) ← columns F n (i + 1) start' h1
    return (h2, c :: cs)

/-- One row of set_table_data, binary_table.hpp l.338-348: cells and the offset behind the row; iterators outside the buffer are
undefined behaviour. -/
def readRow (buf : Str) : List Column → Nat → Res (List Str × Nat)
  | [], off => .ok ([], off)
  | c :: cs, off => do
    let w ← columnSize c.format
    if off + w ≤ buf.length then
      let (r, off') ← readRow buf cs (off + w)
      return (trim ((buf.drop off).take w) :: r, off')
    else .error .ub

/-- The loop of set_table_data, binary_table.hpp l.338-349, `n` rows left. -/
def readRows (buf : Str) (cols : List Column) : Nat → Nat → Res (List (List Str))
  | 0, _ => .ok []
  | n + 1, off => do
    let (r, off') ← readRow buf cols off
    let rest ← readRows buf cols n off'
    return r :: rest

/-- set_table_data, binary_table.hpp l.322-350: without columns `col_metadata_[0]` is undefined. -/
def tableData (buf : Str) (rows : Nat) (cols : List Column) : Res (List (List Str)) :=
  if cols.isEmpty ∧ rows ≠ 0 then .error .ub else readRows buf cols rows 0

/-- set_binary_table_info, binary_table.hpp l.311-316, on a table with fresh column metadata. -/
def setInfo (F : FloatText) (t : Table) (buf : Str) : Res Table := do
  let (h, cols) ← columns F t.tfields 1 0 t.header
  let t' := { t with header := h, cols := cols }
  if buf.isEmpty then return t'
  else
    let rows ← h.naxisAt 2
    let _ ← h.naxisAt 1
    return { t' with data := ← tableData buf rows cols }

/-- The constructor, binary_table.hpp l.88-92. -/
def make (F : FloatText) (h : Header) (buf : Str) : Res Table := do
  setInfo F (← Table.base F h) buf

/-- The bytes of all rows as written by write_to, binary_table.hpp l.124-132. -/
def rowTexts (t : Table) : List Str := t.data.map fun r => r.foldl (fun a s => a ++ s) []

end BinTable

/-- The end of every write_to: blanks up to the end of the unit (ascii_table.hpp l.159-162, binary_table.hpp l.134-137, primary_hdu.hpp l.93-97). -/
def padUnit (s : Stream) : Stream :=
  let (s1, current) := s.tellg
  let (s2, unitEnd) := s1.findUnitEnd
  (s2.write (spaces (szSub unitEnd current))).1

/-- The rows are written one after the other (ascii_table.hpp l.157, binary_table.hpp l.132). -/
def writeRows (s : Stream) (rows : List Str) : Stream := rows.foldl (fun s r => (s.write r).1) s

/-- write_to of an ASCII table, ascii_table.hpp l.144-163. -/
def Ascii.writeTo (t : Table) (s : Stream) : Res Stream := do
  let rows ← Ascii.rowTexts t
  return padUnit (writeRows (t.header.writeHeader s) rows)

/-- write_to of a binary table, binary_table.hpp l.120-138. -/
def BinTable.writeTo (t : Table) (s : Stream) : Stream := padUnit (writeRows (t.header.writeHeader s) (BinTable.rowTexts t))

end Astro
