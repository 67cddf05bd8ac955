import Verif.Model.View

/-
io/column.hpp: objects of struct column with their constructors, setters and getters, and populate_column_data of the two table classes as the
sequence of setter calls it is.  (Model/Table builds the finished record at once; Props/Column proves that both give the same.)

Numbers a constructor does not initialise are `none`; reading one is undefined behaviour.  Copying an object with such a number (get_column_metadata and
every column view copy the metadata) is taken to copy the bytes, although the standard leaves it undefined.
-/

namespace Astro

/-- struct column, column.hpp l.23-36. -/
structure ColObj where
  index : Option Nat
  name : Str
  start : Option Nat
  format : Str
  unit : Str
  scale : Option (BitVec 64)
  zero : Option (BitVec 64)
  display : Str
  dimension : Str
  comment : Str
  total : Option Nat
  deriving DecidableEq, Repr

/-- The setters, column.hpp l.82-85, 109-112, 127-130, 145-148, 163-166, 183-186, 207-210, 227-230, 245-248, 263-266, 272-274. -/
inductive ColSet where
  | index (i : Nat)
  | tbcol (n : Nat)
  | ttype (s : Str)
  | comment (s : Str)
  | tform (s : Str)
  | tunit (s : Str)
  | tscal (x : BitVec 64)
  | tzero (x : BitVec 64)
  | tdisp (s : Str)
  | tdim (s : Str)
  | total (n : Nat)

/-- The getters. -/
inductive ColField where
  | index | tbcol | ttype | comment | tform | tunit | tscal | tzero | tdisp | tdim | total
  deriving DecidableEq

/-- What the getters return: `std::size_t`, `std::string` or `double`. -/
inductive ColVal where
  | size (n : Nat)
  | text (s : Str)
  | real (x : BitVec 64)
  deriving DecidableEq

namespace ColObj

/-- The bits of the double -1. -/
def minusOne : BitVec 64 := 0xBFF0000000000000#64

/-- `column()`, column.hpp l.42: the strings are empty, the numbers not initialised. -/
def default : ColObj := ⟨none, [], none, [], [], none, none, [], [], [], none⟩

/-- `column(tbcol, tform)`, column.hpp l.50-60 (`index_(-1)` converted to `size_t`; total_elem_field is not initialised). -/
def ofPlace (tbcol : Nat) (tform : Str) : ColObj := ⟨some (2 ^ 64 - 1), [], some tbcol, tform, [], some minusOne, some minusOne, [], [], [], none⟩

/-- `column(tform)`, column.hpp l.66-76. -/
def ofForm (tform : Str) : ColObj := ⟨some (2 ^ 64 - 1), [], some (2 ^ 64 - 1), tform, [], some minusOne, some minusOne, [], [], [], none⟩

/-- One setter call. -/
def set (o : ColObj) : ColSet → ColObj
  | .index i => { o with index := some i }
  | .tbcol n => { o with start := some n }
  | .ttype s => { o with name := s }
  | .comment s => { o with comment := s }
  | .tform s => { o with format := s }
  | .tunit s => { o with unit := s }
  | .tscal x => { o with scale := some x }
  | .tzero x => { o with zero := some x }
  | .tdisp s => { o with display := s }
  | .tdim s => { o with dimension := s }
  | .total n => { o with total := some n }

/-- A number that may not be initialised. -/
def number {α : Type} (f : α → ColVal) : Option α → Res ColVal
  | some x => .ok (f x)
  | none => .error .ub

/-- The getters, column.hpp l.91-94, 100-103, 118-121, 136-139, 154-157, 173-176, 195-198, 217-220, 236-239, 254-257, 279-281. -/
def get (o : ColObj) : ColField → Res ColVal
  | .index => number .size o.index
  | .tbcol => number .size o.start
  | .ttype => .ok (.text o.name)
  | .comment => .ok (.text o.comment)
  | .tform => .ok (.text o.format)
  | .tunit => .ok (.text o.unit)
  | .tscal => number .real o.scale
  | .tzero => number .real o.zero
  | .tdisp => .ok (.text o.display)
  | .tdim => .ok (.text o.dimension)
  | .total => number .size o.total

/-- `try { o.SETTER(value); } catch (std::out_of_range&) {}` around an optional value. -/
def setIf {α : Type} (o : ColObj) (f : α → ColSet) : Option α → ColObj
  | some x => o.set (f x)
  | none => o

end ColObj

/-- The try block for TTYPEi and, with the value as keyword, the comment (ascii_table.hpp l.187-196, binary_table.hpp l.256-265). -/
def Table.populateName (F : FloatText) (h : Header) (i : Nat) (o : ColObj) : Res (Header × ColObj) :=
  match h.getStr F (b!"TTYPE" ++ showNat i) with
  | .error .outOfRange => .ok (h, o)
  | .error e => .error e
  | .ok (h1, name) =>
    let o1 := o.set (.ttype name)
    match h1.getStr F o1.name with
    | .error .outOfRange => .ok (h1, o1)
    | .error e => .error e
    | .ok (h2, comment) => .ok (h2, o1.set (.comment comment))

/-- The body of the loop of populate_column_data, ascii_table.hpp l.177-219, working on the object `o` = `col_metadata_[i - 1]`. -/
def Ascii.populate (F : FloatText) (h : Header) (i : Nat) (o : ColObj) : Res (Header × ColObj) := do
  let o1 := o.set (.index i)
  let (h1, format) ← h.getStr F (b!"TFORM" ++ showNat i)
  let o2 := o1.set (.tform format)
  let (h2, start) ← h1.getSize F (b!"TBCOL" ++ showNat i)
  let o3 := o2.set (.tbcol start)
  let (h3, o4) ← Table.populateName F h2 i o3
  let (h4, unit) ← h3.optional (h3.getStr F (b!"TUNIT" ++ showNat i))
  let o5 := o4.setIf .tunit unit
  let (h5, scale) ← h4.optional (h4.getDouble F (b!"TSCAL" ++ showNat i))
  let o6 := o5.setIf .tscal scale
  let (h6, zero) ← h5.optional (h5.getDouble F (b!"TZERO" ++ showNat i))
  let o7 := o6.setIf .tzero zero
  return (h6, o7.set (.total 0))

/-- The body of the loop of populate_column_data, binary_table.hpp l.246-302, working on the object `o` = `col_metadata_[i - 1]`. -/
def BinTable.populate (F : FloatText) (h : Header) (i start : Nat) (o : ColObj) : Res (Header × ColObj × Nat) := do
  let o1 := o.set (.index i)
  let (h1, format) ← h.getStr F (b!"TFORM" ++ showNat i)
  let o2 := (o1.set (.tform format)).set (.tbcol start)
  let w ← BinTable.columnSize o2.format
  let (h3, o4) ← Table.populateName F h1 i o2
  let (h4, unit) ← h3.optional (h3.getStr F (b!"TUNIT" ++ showNat i))
  let o5 := o4.setIf .tunit unit
  let (h5, scale) ← h4.optional (h4.getDouble F (b!"TSCAL" ++ showNat i))
  let o6 := o5.setIf .tscal scale
  let (h6, zero) ← h5.optional (h5.getDouble F (b!"TZERO" ++ showNat i))
  let o7 := o6.setIf .tzero zero
  let (h7, display) ← h6.optional (h6.getStr F (b!"TDISP" ++ showNat i))
  let o8 := o7.setIf .tdisp display
  let (h8, dimension) ← h7.optional (h7.getStr F (b!"TDIM" ++ showNat i))
  let o9 := o8.setIf .tdim dimension
  let n ← Bin.elementCount o9.format
  return (h8, o9.set (.total n), (start + w) % sizeMod)

/-- The finished record of Model/Table as an object. -/
def Column.toObj (c : Column) : ColObj :=
  ⟨some c.index, c.name, some c.start, c.format, c.unit, c.scale, c.zero, c.display, c.dimension, c.comment, some c.total⟩

end Astro
