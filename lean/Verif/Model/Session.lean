import Verif.Model.Fits
import Verif.Model.View

/-
io/fits.hpp: opening a file and working with its HDUs through references.

`basic_fits::open` returns the reader, `reader[k]` a reference into its list of HDUs, `basic_fits::convert_to<T>` a reference to the object inside the
variant.  What a program does with that object it does to the HDU in the list, which is what `write_to` writes.  The tables in the list are never copied
or moved after their columns were viewed (the list is a `std::deque`), so that the views always belong to the table they are stored in: see
Model/TableCopy for programs that make copies.
-/

namespace Astro

/-- enum reading_options, fits.hpp l.37-40. -/
inductive ReadingOption where
  | onlyHeaders | entireHdus
  deriving DecidableEq, Repr

/-- basic_fits::open, fits.hpp l.62-72.  (`fuel` and `n` bound the cards of a header and the HDUs; `none`: still running.) -/
def Reader.openWith (F : FloatText) (fuel n : Nat) (content : Str) (option : ReadingOption) : Option (Res Reader) :=
  if option = .onlyHeaders then Reader.readHeaders F fuel n (Reader.openFile content)
  else Reader.readEntire F fuel n (Reader.openFile content)

/-- The `cached_columns` of a table. -/
abbrev Views (Φ : Family) := Str → Option ((t : Φ.Tag) × View (Φ.El t))

/-- An HDU in the list of an open file, default_hdus.hpp l.60-66, tables with the views they have given out. -/
inductive Live (F : FloatText) (G : StreamText) where
  | blank
  | primary (p : Primary)
  | binary (t : Table) (views : Views binFamily)
  | ascii (t : Table) (views : Views (asciiFamily F G))

namespace Live

variable {F : FloatText} {G : StreamText}

/-- As construct_hdu leaves it. -/
def ofHdu : Hdu → Live F G
  | .blank => .blank
  | .primary p => .primary p
  | .binary t => .binary t fun _ => none
  | .ascii t => .ascii t fun _ => none

/-- What is written to a file does not depend on the views. -/
def hdu : Live F G → Hdu
  | .blank => .blank
  | .primary p => .primary p
  | .binary t _ => .binary t
  | .ascii t _ => .ascii t

/-- `convert_to<ascii_table>(x)`, fits.hpp l.80-82, and then some code that uses columns of the table: `boost::get` of a reference throws `bad_get` if
there is something else in the variant. -/
def inAscii {β : Type} (x : Live F G) (f : Obj (asciiFamily F G) → Obj (asciiFamily F G) × β) : Live F G × Res β :=
  match x with
  | .ascii t views =>
    let (o, b) := f ⟨t.cols, t.data, views⟩
    (.ascii { t with cols := o.cols, data := o.data } o.views, .ok b)
  | y => (y, .error .badGet)

/-- `convert_to<binary_table>(x)` in the same way. -/
def inBinary {β : Type} (x : Live F G) (f : Obj binFamily → Obj binFamily × β) : Live F G × Res β :=
  match x with
  | .binary t views =>
    let (o, b) := f ⟨t.cols, t.data, views⟩
    (.binary { t with cols := o.cols, data := o.data } o.views, .ok b)
  | y => (y, .error .badGet)

/-- `convert_to<primary_hdu>(x).get_data<b>()`, primary_hdu.hpp l.80-81: a copy of the image. -/
def image (x : Live F G) (b : Bitpix) : Res (Image b) :=
  match x with
  | .primary p => p.data.getData b
  | _ => .error .badGet

end Live

/-- `f(reader[k])`, fits_reader.hpp l.150-152. -/
def atHdu {F : FloatText} {G : StreamText} {β : Type} (live : List (Live F G)) (k : Int) (f : Live F G → Live F G × Res β) : List (Live F G) × Res β :=
  if k < 0 then (live, .error .outOfRange)
  else match live[k.toNat]? with
    | none => (live, .error .outOfRange)
    | some x =>
      let (y, b) := f x
      (live.set k.toNat y, b)

/-- `reader.write_to(path)`, fits_reader.hpp l.134-142. -/
def saveAll {F : FloatText} {G : StreamText} (live : List (Live F G)) : Res Stream := Reader.writeAll (live.map Live.hdu)

end Astro
