import Verif.Spec.ForeignFiles

/-
Specification vocabulary: what becomes of the HDUs of another program's file that is opened and saved.
-/

namespace Astro.Spec

/-- The field of row `r` and column `j` in the data of a binary table. -/
def binaryField (data : Str) (rowLen : Nat) (cols : List (Nat × Byte)) (r j : Nat) (c : Nat × Byte) : Str :=
  window data (r * rowLen + ((columnBytes cols).take j).sum) (fieldBytes c)

/-- The field of row `r` and a column that begins at `c.1` (from 1) and is `c.2` wide, in the data of an ASCII table. -/
def asciiField (data : Str) (rowLen r : Nat) (c : Nat × Nat) : Str := window data (r * rowLen + c.1 - 1) c.2

/-- The data of the HDU after it was opened and saved: the same bytes for images of more than one byte to a pixel, zeros for those of one byte to a pixel; the fields of
a binary table without the white space at their ends; the fields of an ASCII table without the white space at their ends, with blanks in front up to the width of the column,
and nothing between them. -/
inductive Resaved (F : FloatText) (u : ForeignHdu) : Str → Prop
  | image (b : Bitpix) (axes : List Nat) : ImageCards u.cards b axes → b ≠ .B8 → Resaved F u u.data
  | bytes (axes : List Nat) : ImageCards u.cards .B8 axes → Resaved F u (List.replicate u.data.length 0)
  | binary (rowLen rows : Nat) (cols : List (Nat × Byte)) (cells : List (List Str)) : BinaryTableCards F u.cards rowLen rows 0 cols → u.data.length = rowLen * rows →
      cells.length = rows → (∀ (r : Nat) (row : List Str), cells[r]? = some row → row.length = cols.length) →
      (∀ (r j : Nat) (row : List Str) (c : Nat × Byte) (x : Str), cells[r]? = some row → cols[j]? = some c → row[j]? = some x → IsTrim (binaryField u.data rowLen cols r j c) x) →
      Resaved F u cells.flatten.flatten
  | ascii (rowLen rows : Nat) (cols : List (Nat × Nat)) (fields : List (List Str)) : AsciiTableCards F u.cards rowLen rows 0 cols → u.data.length = rowLen * rows →
      fields.length = rows → (∀ (r : Nat) (row : List Str), fields[r]? = some row → row.length = cols.length) →
      (∀ (r j : Nat) (row : List Str) (c : Nat × Nat) (f : Str), fields[r]? = some row → cols[j]? = some c → row[j]? = some f →
        ∃ x, IsTrim (asciiField u.data rowLen r c) x ∧ rightJustified c.2 x f) →
      Resaved F u fields.flatten.flatten

/-- The HDUs of a file and those of its copy: the cards are the same; extensions that are neither ASCII nor binary tables are left out. -/
inductive SavedAs (F : FloatText) : List ForeignHdu → List ForeignHdu → Prop
  | nil : SavedAs F [] []
  | keep {u v : ForeignHdu} {us vs : List ForeignHdu} : v.cards = u.cards → Resaved F u v.data → SavedAs F us vs → SavedAs F (u :: us) (v :: vs)
  | drop {u : ForeignHdu} {us vs : List ForeignHdu} (kind : Str) : SaysString u.cards b!"XTENSION" kind → kind ≠ b!"TABLE" ∧ kind ≠ b!"BINTABLE" → SavedAs F us vs →
      SavedAs F (u :: us) vs

/-- The HDUs one behind the other, cards and data of each filled up with 1 to 2880 blanks. -/
def Written (vs : List ForeignHdu) (content : Str) : Prop :=
  ∃ texts : List Str, content = texts.flatten ∧
    List.Forall₂ (fun (v : ForeignHdu) t => ∃ u1 u2, Filled v.cards.flatten u1 ∧ Filled v.data u2 ∧ t = u1 ++ u2) vs texts

/-- The HDU is an image of more than one byte to a pixel, a binary table without white space at the ends of its fields, or an ASCII table without gaps whose fields are
right-justified. -/
structure Lossless (F : FloatText) (u : ForeignHdu) : Prop where
  image : ∀ b axes, ImageCards u.cards b axes → b ≠ .B8
  binary : ∀ rowLen rows cols, BinaryTableCards F u.cards rowLen rows 0 cols → ∀ r j c, r < rows → cols[j]? = some c → NoOuterWhite (binaryField u.data rowLen cols r j c)
  ascii : ∀ rowLen rows cols, AsciiTableCards F u.cards rowLen rows 0 cols → (cols.map (·.2)).sum = rowLen ∧
    ∀ j c, cols[j]? = some c → c.1 = ((cols.map (·.2)).take j).sum + 1 ∧
      ∀ r, r < rows → ∃ x, IsTrim (asciiField u.data rowLen r c) x ∧ rightJustified c.2 x (asciiField u.data rowLen r c)
  other : ∀ kind, SaysString u.cards b!"XTENSION" kind → kind = b!"TABLE" ∨ kind = b!"BINTABLE"

end Astro.Spec
