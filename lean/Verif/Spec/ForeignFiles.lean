import Verif.Spec.ForeignTable

/-
Specification vocabulary: whole files of other programs, HDU by HDU (FITS standard, version 4.0, section 3.1).
-/

namespace Astro.Spec

/-- What another program wrote as one HDU: its cards and its data. -/
structure ForeignHdu where
  cards : List Str
  data : Str

/-- HDUs one behind the other: cards and data are each filled up to a multiple of 2880 bytes, which may mean not at all. -/
inductive Laid : List ForeignHdu → Str → Prop
  | nil : Laid [] []
  | cons {u : ForeignHdu} {us : List ForeignHdu} {fill tail more : Str} :
      80 * u.cards.length + fill.length = roundUp (80 * u.cards.length) → u.data.length + tail.length = roundUp u.data.length → Laid us more →
      Laid (u :: us) (u.cards.flatten ++ fill ++ u.data ++ tail ++ more)

/-- The name under which the reader files an HDU: what its XTENSION card says, or `primary_hdu` if there is none.  The EXTNAME card, which is the name according to the standard,
has no part in it. -/
inductive FiledAs (u : ForeignHdu) : Str → Prop
  | primary : Absent u.cards b!"XTENSION" → FiledAs u b!"primary_hdu"
  | extension (kind : Str) : SaysString u.cards b!"XTENSION" kind → FiledAs u kind

/-- The HDUs the reader can make something of: images with an EXTEND card as primary HDUs, tables with an EXTNAME card, at least one column and no columns of several bits, and
extensions of other kinds. -/
inductive Supported (F : FloatText) (u : ForeignHdu) : Prop
  | image (b : Bitpix) (axes : List Nat) (ext : Bool) : ImageCards u.cards b axes → Says u.cards b!"EXTEND" (if ext then b!"T" else b!"F") →
      u.data.length = pixelCount axes * b.size → Supported F u
  | binary (rowLen rows : Nat) (cols : List (Nat × Byte)) (x : Str) : BinaryTableCards F u.cards rowLen rows 0 cols → (∀ c ∈ cols, c.2 = 88 → c.1 ≤ 1) →
      TextNames F u.cards → SaysString u.cards b!"EXTNAME" x → u.data.length = rowLen * rows → 0 < rowLen → Supported F u
  | ascii (rowLen rows : Nat) (cols : List (Nat × Nat)) (x : Str) : AsciiTableCards F u.cards rowLen rows 0 cols → cols ≠ [] →
      TextNames F u.cards → SaysString u.cards b!"EXTNAME" x → u.data.length = rowLen * rows → Supported F u
  | other (kind : Str) (b : Bitpix) (axes : List Nat) : ShapeCards u.cards b axes → Absent u.cards b!"SIMPLE" → SaysString u.cards b!"XTENSION" kind →
      kind ≠ b!"TABLE" ∧ kind ≠ b!"BINTABLE" → u.data.length = pixelCount axes * b.size → Supported F u

end Astro.Spec
