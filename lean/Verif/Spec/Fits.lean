import Verif.Model.Fits
import Verif.Spec.File
import Verif.Spec.Table

/-
What a file with several HDUs looks like.  Reading one header and building one HDU are taken from the model (they have their own properties); how they
are strung together is stated here without reference to the reading and writing loops.
-/

namespace Astro.Spec

/-- A header begins at byte `loc` of the file. -/
def HeaderAt (F : FloatText) (content : Str) (loc : Nat) (h : Header) : Prop :=
  ∃ fuel s', Header.readHeader F fuel Header.empty { Stream.openRead content with pos := loc } = some (.ok (h, s'))

/-- The number of data bytes a header announces: elements times element size. -/
def DataBytes (h : Header) (n : Nat) : Prop := ∃ b, h.bitpix = some b ∧ n = h.dataSize * b.size % 2 ^ 64

/-- One HDU in a file: where its header begins, the header, where its data begins, how many bytes of data, where the next HDU begins, its name and
the object. -/
structure Entry where
  loc : Nat
  header : Header
  dataLoc : Nat
  bytes : Nat
  next : Nat
  name : Str
  hdu : Hdu

/-- The positions of an HDU: header inside the file, data at the next block boundary, next HDU at the block boundary after the data (immediately if
no data is announced). -/
structure Placed (F : FloatText) (content : Str) (e : Entry) : Prop where
  header : HeaderAt F content e.loc e.header
  start : e.loc < content.length
  cards : e.loc + 80 * e.header.cards.length ≤ content.length
  dataLoc : NextBoundary (e.loc + 80 * e.header.cards.length) e.dataLoc
  noData : e.header.dataSize = 0 → e.bytes = 0 ∧ e.next = e.dataLoc
  data : e.header.dataSize ≠ 0 → DataBytes e.header e.bytes ∧ NextBoundary (e.dataLoc + e.bytes) e.next

/-- Name and object follow from header and data. -/
def Built (F : FloatText) (e : Entry) (buf : Str) : Prop :=
  ∃ h1, e.header.getHduName F = (h1, .ok e.name) ∧ Hdu.construct F h1 buf = .ok e.hdu

/-- A complete HDU: all its data is in the file. -/
structure Complete (F : FloatText) (content : Str) (e : Entry) : Prop extends Placed F content e where
  inside : e.bytes = 0 ∨ e.dataLoc + e.bytes ≤ content.length
  built : Built F e (window content e.dataLoc e.bytes)

/-- The HDUs `es` follow each other from byte `p` to byte `q`, and each satisfies `P`. -/
def Chain (P : Entry → Prop) : Nat → List Entry → Nat → Prop
  | p, [], q => p = q
  | p, e :: es, q => e.loc = p ∧ P e ∧ Chain P e.next es q

/-- The file consists of the HDUs `es`. -/
def FileOf (F : FloatText) (content : Str) (es : List Entry) : Prop :=
  ∃ q, Chain (Complete F content) 0 es q ∧ content.length ≤ q

/-- An HDU as the headers-only mode sees it: its object is built without data and its data is skipped, not read.  (The sum of position and length is a
64 bit number.) -/
structure Listed (F : FloatText) (content : Str) (e : Entry) : Prop where
  header : HeaderAt F content e.loc e.header
  start : e.loc < content.length
  cards : e.loc + 80 * e.header.cards.length ≤ content.length
  dataLoc : NextBoundary (e.loc + 80 * e.header.cards.length) e.dataLoc
  noData : e.header.dataSize = 0 → e.bytes = 0 ∧ e.next = e.dataLoc
  data : e.header.dataSize ≠ 0 → DataBytes e.header e.bytes ∧ NextBoundary ((e.dataLoc + e.bytes) % 2 ^ 64) e.next ∧ e.next < 2 ^ 63
  built : Built F e []

/-- The file consists, for the headers-only mode, of the HDUs `es`. -/
def HeadersOf (F : FloatText) (content : Str) (es : List Entry) : Prop :=
  ∃ q, Chain (Listed F content) 0 es q ∧ content.length ≤ q

/-- `y` is the HDU `x` without its pixels or cells. -/
def WithoutData : Hdu → Hdu → Prop
  | .blank, .blank => True
  | .primary p, .primary q => q = { p with data := ⟨p.data.kind, { p.data.img with data := [] }⟩ }
  | .ascii t, .ascii u => u = { t with data := [] }
  | .binary t, .binary u => u = { t with data := [] }
  | _, _ => False

/-- `i` is the position of the last element of `l` that equals `a`. -/
def LastOf (l : List Str) (a : Str) (i : Nat) : Prop := l[i]? = some a ∧ ∀ j, i < j → l[j]? ≠ some a

/-- `y` is `x` followed by 1 to 2880 blanks so that whole blocks are filled. -/
def Filled (x y : Str) : Prop := ∃ k, y = x ++ List.replicate k 32 ∧ 0 < k ∧ k ≤ 2880 ∧ 2880 ∣ y.length

/-- The cards and the data bytes that belong to an HDU: big-endian pixels, cells right-justified in their columns (ASCII tables), cells one after the
other (binary tables). -/
def Holds : Hdu → List Str → Str → Prop
  | .blank, _, _ => False
  | .primary p, cards, data => cards = p.header.cards.map (·.raw) ∧
      ∃ px : List Str, data = px.flatten ∧ px.length = p.data.img.data.length ∧
        ∀ (i : Nat) (v : BitVec (8 * p.data.kind.size)) (s : Str), p.data.img.data[i]? = some v → px[i]? = some s → IsBE p.data.kind.size v s
  | .ascii t, cards, data => cards = t.header.cards.map (·.raw) ∧
      ∃ fields : List (List Str), data = fields.flatten.flatten ∧ fields.length = t.data.length ∧
        ∀ (r : Nat) (row frow : List Str), t.data[r]? = some row → fields[r]? = some frow → frow.length = row.length ∧
          ∀ (j : Nat) (x f : Str), row[j]? = some x → frow[j]? = some f →
            ∃ (c : Column) (w : Nat), t.cols[j]? = some c ∧ AsciiWidth c.format w ∧ rightJustified w x f
  | .binary t, cards, data => cards = t.header.cards.map (·.raw) ∧ data = t.data.flatten.flatten

/-- The bytes of an HDU in a file: cards and data, each filled up to whole blocks; nothing at all for an HDU of unknown kind. -/
def HduText : Hdu → Str → Prop
  | .blank, t => t = []
  | h, t => ∃ cards data u1 u2, Holds h cards data ∧ Filled cards.flatten u1 ∧ Filled data u2 ∧ t = u1 ++ u2

/-- `x` is the HDU `x0` with other pixels or cells. -/
def OtherData : Hdu → Hdu → Prop
  | .primary p0, .primary p => ∃ px, p = { p0 with data := ⟨p0.data.kind, { p0.data.img with data := px }⟩ }
  | .ascii t0, .ascii t => ∃ d, t = { t0 with data := d }
  | .binary t0, .binary t => ∃ d, t = { t0 with data := d }
  | _, _ => False

/-- The HDU carries data, of the shape its header announces: as many pixels as the axes say; rows of cells that fit columns which follow each other without
gaps (ASCII); rows of cells that fill their columns (binary).  Cells neither begin nor end with white space. -/
def DataFits (h : Header) : Hdu → Prop
  | .blank => False
  | .primary p => p.data.kind ≠ .B8 ∧ p.data.img.data ≠ [] ∧ h.naxis ≠ [] ∧ p.data.img.data.length = h.naxis.foldr (· * ·) 1
  | .ascii t => ∃ ws, Widths AsciiWidth (t.cols.map (·.format)) ws ∧ h.bitpix = some .B8 ∧ h.naxis = [ws.sum, t.data.length] ∧ ws ≠ [] ∧ t.data ≠ [] ∧
      (∀ w ∈ ws, 0 < w) ∧ (∀ (j : Nat) (c : Column), t.cols[j]? = some c → c.start = fieldStart ws j + 1) ∧
      ∀ row ∈ t.data, row.length = ws.length ∧ (∀ (j : Nat) (x : Str) (w : Nat), row[j]? = some x → ws[j]? = some w → x.length ≤ w) ∧
        ∀ x ∈ row, NoOuterWhite x
  | .binary t => ∃ ws, Widths BinWidth (t.cols.map (·.format)) ws ∧ h.bitpix = some .B8 ∧ h.naxis = [ws.sum, t.data.length] ∧ 0 < ws.sum ∧ t.data ≠ [] ∧
      ∀ row ∈ t.data, row.map List.length = ws ∧ ∀ x ∈ row, NoOuterWhite x

/-- An HDU as a program holds it: built from a header `h` that was read from some file, its pixels or cells possibly replaced by others that fit. -/
structure Ready (F : FloatText) (h : Header) (x : Hdu) : Prop where
  read : ∃ fuel s s', s.good = true ∧ Header.readHeader F fuel Header.empty s = some (.ok (h, s'))
  built : ∃ h1 name buf x0, h.getHduName F = (h1, .ok name) ∧ Hdu.construct F h1 buf = .ok x0 ∧ OtherData x0 x
  fits : DataFits h x

/-- An HDU without data: built from a header `h` that was read from some file and announces no data. -/
structure Dataless (F : FloatText) (h : Header) (x : Hdu) : Prop where
  read : ∃ fuel s s', s.good = true ∧ Header.readHeader F fuel Header.empty s = some (.ok (h, s'))
  built : ∃ h1 name, h.getHduName F = (h1, .ok name) ∧ Hdu.construct F h1 [] = .ok x
  noData : h.dataSize = 0
  known : x ≠ .blank

/-- The cards of an HDU (none if its kind is unknown). -/
def cardsOf : Hdu → List Str
  | .blank => []
  | .primary p => p.header.cards.map (·.raw)
  | .ascii t => t.header.cards.map (·.raw)
  | .binary t => t.header.cards.map (·.raw)

end Astro.Spec
