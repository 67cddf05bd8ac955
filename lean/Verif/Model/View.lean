import Verif.Model.Table

/-
io/column_data.hpp and get_column / set_data of the two table classes: typed, cached views of the columns of a table.

Row numbers are natural numbers; a negative `int` is undefined behaviour like every row outside the table.  Element counts are
below `2^31` (they are passed as `int`).  Copying a table object, whose cached views go on pointing to the matrix of the original, is
in Model/TableCopy.
-/

namespace Astro

/-- The element types a table class offers for its columns (the alternatives of its `boost::variant`) and its converter. -/
structure Family where
  Tag : Type
  tagEq : DecidableEq Tag
  El : Tag → Type
  deser : (t : Tag) → Str → Nat → Res (El t)
  ser : (t : Tag) → El t → Str

attribute [instance] Family.tagEq

/-- column_view, column_data.hpp l.63-67: column number, elements per cell, and the values cached so far. -/
structure View (α : Type) where
  index : Nat
  total : Nat
  cache : Nat → Option α

/-- `(*table_ref)[row][index - 1]`: anything outside the matrix is undefined behaviour. -/
def cellAt (data : List (List Str)) (row index : Nat) : Res Str :=
  match data[row]? with
  | none => .error .ub
  | some r =>
    if index = 0 then .error .ub
    else match r[index - 1]? with
      | none => .error .ub
      | some s => .ok s

/-- `(*table_ref)[row][index - 1] = s`. -/
def setCell (data : List (List Str)) (row index : Nat) (s : Str) : Res (List (List Str)) := do
  let _ ← cellAt data row index
  return data.set row ((data.getD row []).set (index - 1) s)

namespace View

/-- `cached_index[row] = x`. -/
def remember {α : Type} (v : View α) (row : Nat) (x : α) : View α :=
  { v with cache := fun r => if r = row then some x else v.cache r }

/-- operator[], column_data.hpp l.156-167. -/
def read {α : Type} (deser : Str → Nat → Res α) (data : List (List Str)) (v : View α) (row : Nat) : View α × Res α :=
  match v.cache row with
  | some x => (v, .ok x)
  | none =>
    match cellAt data row v.index with
    | .error e => (v, .error e)
    | .ok s =>
      match deser s v.total with
      | .error e => (v, .error e)
      | .ok x => (v.remember row x, .ok x)

/-- update_value, column_data.hpp l.147-150. -/
def update {α : Type} (ser : α → Str) (data : List (List Str)) (v : View α) (row : Nat) (x : α) : View α × Res (List (List Str)) :=
  (v.remember row x, setCell data row v.index (ser x))

end View

/-- The part of a table object that matters here: column metadata, the matrix, and `cached_columns` (ascii_table.hpp l.45-53, binary_table.hpp l.41-74). -/
structure Obj (Φ : Family) where
  cols : List Column
  data : List (List Str)
  views : Str → Option ((t : Φ.Tag) × View (Φ.El t))

namespace Obj

variable {Φ : Family}

/-- A table object right after construction. -/
def fresh (cols : List Column) (data : List (List Str)) : Obj Φ := ⟨cols, data, fun _ => none⟩

/-- Store a view. -/
def putView (o : Obj Φ) (name : Str) (t : Φ.Tag) (v : View (Φ.El t)) : Obj Φ :=
  { o with views := fun n => if n = name then some ⟨t, v⟩ else o.views n }

/-- get_column, ascii_table.hpp l.85-97, binary_table.hpp l.101-112, with make_column_view, table_extension.hpp l.80-84. -/
def getColumn (o : Obj Φ) (name : Str) (t : Φ.Tag) : Obj Φ × Res (View (Φ.El t)) :=
  match o.views name with
  | some ⟨t', v⟩ => if h : t' = t then (o, .ok (h ▸ v)) else (o, .error .badGet)
  | none =>
    match Table.columnMetadata o.cols name with
    | .error e => (o, .error e)
    | .ok c =>
      let v : View (Φ.El t) := ⟨c.index, c.total, fun _ => none⟩
      (o.putView name t v, .ok v)

/-- `x = table.get_column<T>(name)[row]`. -/
def read (o : Obj Φ) (name : Str) (t : Φ.Tag) (row : Nat) : Obj Φ × Res (Φ.El t) :=
  match o.getColumn name t with
  | (o', .error e) => (o', .error e)
  | (o', .ok v) =>
    let (v', r) := v.read (Φ.deser t) o'.data row
    (o'.putView name t v', r)

/-- `table.get_column<T>(name).update_value(row, x)`. -/
def update (o : Obj Φ) (name : Str) (t : Φ.Tag) (row : Nat) (x : Φ.El t) : Obj Φ × Res Unit :=
  match o.getColumn name t with
  | (o', .error e) => (o', .error e)
  | (o', .ok v) =>
    let (v', r) := v.update (Φ.ser t) o'.data row x
    match r with
    | .error e => (o'.putView name t v', .error e)
    | .ok d => ({ o'.putView name t v' with data := d }, .ok ())

/-- `table.get_column<T>(name)[row] = x`: operator[] first, then Proxy::operator= (column_data.hpp l.52-55). -/
def assign (o : Obj Φ) (name : Str) (t : Φ.Tag) (row : Nat) (x : Φ.El t) : Obj Φ × Res Unit :=
  match o.read name t row with
  | (o', .error e) => (o', .error e)
  | (o', .ok _) => o'.update name t row x

/-- The loop `for (auto i = c.begin(); i != c.end(); ++i) x = *i;` over the view `c` of a column, column_data.hpp l.88-142, from row `i` on, `n` rows
left. -/
def iterateFrom (name : Str) (t : Φ.Tag) : Nat → Nat → Obj Φ → Obj Φ × Res (List (Φ.El t))
  | 0, _, o => (o, .ok [])
  | n + 1, i, o =>
    match o.read name t i with
    | (o', .error e) => (o', .error e)
    | (o', .ok x) =>
      match iterateFrom name t n (i + 1) o' with
      | (o'', .error e) => (o'', .error e)
      | (o'', .ok l) => (o'', .ok (x :: l))

/-- The whole loop. -/
def iterate (o : Obj Φ) (name : Str) (t : Φ.Tag) : Obj Φ × Res (List (Φ.El t)) :=
  match o.getColumn name t with
  | (o', .error e) => (o', .error e)
  | (o', .ok _) => iterateFrom name t o'.data.length 0 o'

/-- set_data with a buffer that is parsed without exception: metadata and matrix are replaced, the cached views stay (ascii_table.hpp l.73-77,
binary_table.hpp l.144-148). -/
def replace (o : Obj Φ) (cols : List Column) (data : List (List Str)) : Obj Φ := { o with cols := cols, data := data }

end Obj

/-! ### the two table classes -/

/-- `ostream << float/double` with the default precision of six digits (an arbitrary function, like `FloatText`; `ieeeStream` in Model/Float is the real one). -/
structure StreamText where
  show32 : BitVec 32 → Str
  show64 : BitVec 64 → Str

/-- Alternatives of the variant of basic_ascii_table, ascii_table.hpp l.45-53. -/
inductive AsciiTag where
  | string | longlong | float | double
  deriving DecidableEq, Repr

/-- Values of these types; floating point numbers are bit patterns. -/
def AsciiTag.El : AsciiTag → Type
  | .string => Str
  | .longlong => BitVec 64
  | .float => BitVec 32
  | .double => BitVec 64

/-- deserialize_to of ascii_converter, string_conversion_utility.hpp l.34-42. -/
def asciiDeser (F : FloatText) : (t : AsciiTag) → Str → Nat → Res t.El
  | .string, s, _ => .ok s
  | .longlong, s, _ => match lexSigned 64 s with | .ok v => .ok v | .error _ => .error .invalidCast
  | .float, s, _ => match F.parse32 s with | some v => .ok v | none => .error .invalidCast
  | .double, s, _ => match F.parse64 s with | some v => .ok v | none => .error .invalidCast

/-- serialize of ascii_converter, string_conversion_utility.hpp l.49-61.  (For `std::string` the code does not compile, both branches of the `eval_if`
are compiled and there is no `std::to_string` of a string; the case is filled in as if it did.) -/
def asciiSer (G : StreamText) : (t : AsciiTag) → t.El → Str
  | .string, s => s
  | .longlong, v => showInt (BitVec.toInt (show BitVec 64 from v))
  | .float, v => G.show32 v
  | .double, v => G.show64 v

/-- basic_ascii_table with ascii_converter. -/
def asciiFamily (F : FloatText) (G : StreamText) : Family where
  Tag := AsciiTag
  tagEq := inferInstance
  El := AsciiTag.El
  deser := asciiDeser F
  ser := asciiSer G

/-- Alternatives of the variant of basic_binary_table_extension, binary_table.hpp l.41-74: ten scalar types, and vectors of them. -/
inductive BinScalar where
  | bool | int16 | int32 | float | double | pair | complexFloat | complexDouble | byte | char
  deriving DecidableEq, Repr

/-- A scalar type or vectors of it. -/
structure BinTag where
  scalar : BinScalar
  vector : Bool
  deriving DecidableEq, Repr

/-- Values of the scalar types. -/
def BinScalar.El : BinScalar → Type
  | .bool => Bool
  | .int16 => BitVec (8 * 2)
  | .int32 => BitVec (8 * 4)
  | .float => BitVec (8 * 4)
  | .double => BitVec (8 * 8)
  | .pair => BitVec (8 * 4) × BitVec (8 * 4)
  | .complexFloat => BitVec (8 * 4) × BitVec (8 * 4)
  | .complexDouble => BitVec (8 * 8) × BitVec (8 * 8)
  | .byte => Byte
  | .char => Byte

/-- Values of the column types. -/
def BinTag.El (t : BinTag) : Type := if t.vector then List t.scalar.El else t.scalar.El

/-- The scalar specialisations of deserialize_to, binary_data_converter.hpp l.260-366. -/
def binDeser1 : (t : BinScalar) → Str → Res t.El
  | .bool, s => Bin.toBool s 1
  | .int16, s => Bin.elementToNumeric 2 s
  | .int32, s => Bin.elementToNumeric 4 s
  | .float, s => Bin.elementToNumeric 4 s
  | .double, s => Bin.elementToNumeric 8 s
  | .pair, s => Bin.toPair s
  | .complexFloat, s => Bin.elementToComplex 4 s
  | .complexDouble, s => Bin.elementToComplex 8 s
  | .byte, s => Bin.elementToByte s
  | .char, s => Bin.elementToByte s

/-- The vector specialisations of deserialize_to, binary_data_converter.hpp l.265-369. -/
def binDeserN : (t : BinScalar) → Str → Nat → Res (List t.El)
  | .bool, s, n => Bin.toBools s n
  | .int16, s, n => Bin.elementsToNumeric 2 s n
  | .int32, s, n => Bin.elementsToNumeric 4 s n
  | .float, s, n => Bin.elementsToNumeric 4 s n
  | .double, s, n => Bin.elementsToNumeric 8 s n
  | .pair, s, n => Bin.toPairs s n
  | .complexFloat, s, n => Bin.elementsToComplex 4 s n
  | .complexDouble, s, n => Bin.elementsToComplex 8 s n
  | .byte, s, n => Bin.elementsToByte s n
  | .char, s, n => Bin.elementsToByte s n

/-- serialize for the scalar types, binary_data_converter.hpp l.205-236, l.371-375. -/
def binSer1 : (t : BinScalar) → t.El → Str
  | .bool, v => Bin.serializeBool v
  | .int16, v => Bin.serialize 2 v
  | .int32, v => Bin.serialize 4 v
  | .float, v => Bin.serialize 4 v
  | .double, v => Bin.serialize 8 v
  | .pair, v => Bin.serializePair 4 v
  | .complexFloat, v => Bin.serializePair 4 v
  | .complexDouble, v => Bin.serializePair 8 v
  | .byte, v => [v]
  | .char, v => [v]

/-- serialize for vectors, binary_data_converter.hpp l.241-249, l.377-384. -/
def binSerN : (t : BinScalar) → List t.El → Str
  | .bool, l => Bin.serializeBools l
  | t, l => Bin.serializeAll (binSer1 t) l

/-- basic_binary_table_extension with binary_data_converter. -/
def binFamily : Family where
  Tag := BinTag
  tagEq := inferInstance
  El := BinTag.El
  deser t s n := match t with
    | ⟨a, true⟩ => binDeserN a s n
    | ⟨a, false⟩ => binDeser1 a s
  ser t v := match t, v with
    | ⟨a, true⟩, v => binSerN a v
    | ⟨a, false⟩, v => binSer1 a v

end Astro
