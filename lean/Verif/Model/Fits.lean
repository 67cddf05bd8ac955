import Verif.Model.Table
import Verif.Model.Image

/-
io/primary_hdu.hpp, io/image_extension.hpp, io/default_hdus.hpp, io/fits_reader.hpp, io/fits.hpp: HDUs and whole files.

Opening (set_file, create_file) always succeeds here: missing files and permissions are not modelled.  A call that throws in the middle is
modelled by its error only.
-/

namespace Astro

/-- `value_of<bool>(k)` used as an expression. -/
def Header.getBool (F : FloatText) (h : Header) (k : Str) : Res (Header × Bool) :=
  match h.get F k .bool with
  | .ok (h', .bool v) => .ok (h', v)
  | .ok _ => .error .ub
  | .error e => .error e

/-- The `boost::variant` of the five image types, primary_hdu.hpp l.37-43, image_extension.hpp l.37-43. -/
structure AnyImage where
  kind : Bitpix
  img : Image kind

namespace AnyImage

/-- instantiate_primary_hdu with read_image_visitor, primary_hdu.hpp l.61-63, l.135-156: an image of the type BITPIX asks for, filled from the
buffer. -/
def make (b : Bitpix) (buf : Str) : Res AnyImage := do
  let img ← (Image.fresh : Image b).readImage buf
  return ⟨b, img⟩

/-- write_image_visitor, primary_hdu.hpp l.91-92. -/
def bytes (a : AnyImage) : Str := a.img.writeImage

/-- get_data<DT>, primary_hdu.hpp l.80-81: `boost::get` through a pointer gives a null pointer for another type, which is dereferenced. -/
def getData (a : AnyImage) (b : Bitpix) : Res (Image b) :=
  if h : a.kind = b then .ok (h ▸ a.img) else .error .ub

end AnyImage

/-- struct basic_primary_hdu, primary_hdu.hpp l.30-46. -/
structure Primary where
  header : Header
  data : AnyImage
  simple : Bool
  extend : Bool

/-- The constructor, primary_hdu.hpp l.59-65, with init_primary_hdu l.125-129; a BITPIX that was never set is an uninitialised enumerator. -/
def Primary.make (F : FloatText) (h : Header) (buf : Str) : Res Primary :=
  match h.bitpix with
  | none => .error .ub
  | some b => do
    let img ← AnyImage.make b buf
    let (h1, s) ← h.getBool F b!"SIMPLE"
    let (h2, e) ← h1.getBool F b!"EXTEND"
    return ⟨h2, img, s, e⟩

/-- write_to, primary_hdu.hpp l.88-98. -/
def Primary.writeTo (p : Primary) (s : Stream) : Stream := padUnit ((p.header.writeHeader s).write p.data.bytes).1

/-- struct basic_image_extension, image_extension.hpp l.35-45, with its base extension_hdu. -/
structure ImageExt where
  header : Header
  gcount : BitVec 32
  pcount : BitVec 32
  extname : Str
  data : AnyImage

/-- The constructor, image_extension.hpp l.51-54, l.95-127: extension_hdu first (extension_hdu.hpp l.58-62), then the image. -/
def ImageExt.make (F : FloatText) (h : Header) (buf : Str) : Res ImageExt := do
  let (h1, g) ← h.getInt F b!"GCOUNT"
  let (h2, p) ← h1.getInt F b!"PCOUNT"
  let (h3, e) ← h2.getStr F b!"EXTNAME"
  match h.bitpix with
  | none => .error .ub
  | some b =>
    let img ← AnyImage.make b buf
    return ⟨h3, g, p, e, img⟩

/-- write_to, image_extension.hpp l.79-89. -/
def ImageExt.writeTo (p : ImageExt) (s : Stream) : Stream := padUnit ((p.header.writeHeader s).write p.data.bytes).1

/-- The variant Extension, default_hdus.hpp l.60-66. -/
inductive Hdu where
  | blank
  | primary (p : Primary)
  | binary (t : Table)
  | ascii (t : Table)

namespace Hdu

/-- generate_extension_hdu, default_hdus.hpp l.93-98. -/
def generateExtension (F : FloatText) (h : Header) (buf : Str) : Res Hdu := do
  let (h1, name) ← h.getStr F b!"XTENSION"
  if name = b!"TABLE" then return .ascii (← Ascii.make F h1 buf)
  else if name = b!"BINTABLE" then return .binary (← BinTable.make F h1 buf)
  else return .blank

/-- construct_hdu, default_hdus.hpp l.77-86, with generate_primary_hdu l.105-109.  (What the call does to the caches of the header it is given is
dropped, the caller does not use them any more.) -/
def construct (F : FloatText) (h : Header) (buf : Str) : Res Hdu :=
  if h.containsKeyword b!"SIMPLE" then do return .primary (← Primary.make F h buf)
  else generateExtension F h buf

/-- The writer visitor, default_hdus.hpp l.27-51. -/
def writeTo (s : Stream) : Hdu → Res Stream
  | .blank => .ok s
  | .primary p => .ok (p.writeTo s)
  | .binary t => .ok (BinTable.writeTo t s)
  | .ascii t => Ascii.writeTo t s

end Hdu

/-- control_block::info, fits_reader.hpp l.25-32 (`read_status` is always false). -/
structure Info where
  headerLocation : Nat
  dataLocation : Nat
  index : Nat
  deriving DecidableEq, Repr

/-- fits_io, fits_reader.hpp l.59-64: file, HDU list and the `std::map` of the control block (one entry per name, here in order of insertion). -/
structure Reader where
  file : Stream
  hdus : List Hdu
  infos : List (Str × Info)

namespace Reader

/-- `hdus_info[name] = info`. -/
def setInfo (m : List (Str × Info)) (name : Str) (i : Info) : List (Str × Info) :=
  if m.any (fun p => p.1 == name) then m.map fun p => if p.1 = name then (name, i) else p
  else m ++ [(name, i)]

/-- The constructor with a file name, fits_reader.hpp l.73-75, l.81-85. -/
def openFile (content : Str) : Reader := ⟨Stream.openRead content, [], []⟩

/-- initialize, fits_reader.hpp l.81-85: the HDU list is kept. -/
def reinitialize (r : Reader) (content : Str) : Reader := { r with file := Stream.openRead content, infos := [] }

/-- total_hdus, fits_reader.hpp l.38-40. -/
def totalHdus (r : Reader) : Nat := r.infos.length

/-- extract_header, fits_reader.hpp l.180-185. -/
def extractHeader (F : FloatText) (fuel : Nat) (s : Stream) : Option (Res (Header × Stream)) :=
  match Header.readHeader F fuel Header.empty s with
  | none => none
  | some (.error e) => some (.error e)
  | some (.ok (h, s')) => some (.ok (h, s'.setUnitEnd))

/-- `total_elements * element_size`, fits_reader.hpp l.104, l.198 (`size_t` product). -/
def dataBytes (h : Header) : Res Nat :=
  match h.bitpix with
  | none => .error .ub
  | some b => .ok (h.dataSize * b.size % sizeMod)

/-- extract_data_buffer, fits_reader.hpp l.191-202. -/
def extractData (h : Header) (s : Stream) : Res (Str × Stream) :=
  if h.dataSize = 0 then .ok ([], s)
  else do
    let n ← dataBytes h
    let (buf, s') ← s.read n
    return (buf, s'.setUnitEnd)

/-- The end of one turn of both reading loops: control block entry, HDU, list (fits_reader.hpp l.96-100, l.123-125). -/
def store (F : FloatText) (r : Reader) (s : Stream) (h : Header) (loc dataLoc : Nat) (buf : Str) : Res Reader :=
  match h.getHduName F with
  | (_, .error e) => .error e
  | (h1, .ok name) => do
    let hdu ← Hdu.construct F h1 buf
    return ⟨s, r.hdus ++ [hdu], setInfo r.infos name ⟨loc, dataLoc, r.hdus.length⟩⟩

/-- One turn of read_entire_hdus, fits_reader.hpp l.118-126; `fuel` bounds the header loop. -/
def entireTurn (F : FloatText) (fuel : Nat) (r : Reader) (s : Stream) : Option (Res Reader) :=
  let (s1, loc) := s.tellg
  match extractHeader F fuel s1 with
  | none => none
  | some (.error e) => some (.error e)
  | some (.ok (h, s2)) =>
    let (s3, dataLoc) := s2.tellg
    match extractData h s3 with
    | .error e => some (.error e)
    | .ok (buf, s4) => some (store F r s4 h loc dataLoc buf)

/-- read_entire_hdus, fits_reader.hpp l.117-127, given at most `n` turns; `none` means that it is still running. -/
def readEntire (F : FloatText) (fuel : Nat) : Nat → Reader → Option (Res Reader)
  | 0, _ => none
  | n + 1, r =>
    match r.file.atEnd with
    | (s, true) => some (.ok { r with file := s })
    | (s, false) =>
      match entireTurn F fuel r s with
      | none => none
      | some (.error e) => some (.error e)
      | some (.ok r') => readEntire F fuel n r'

/-- Skipping the data, fits_reader.hpp l.101-107. -/
def skipData (h : Header) (s : Stream) : Res Stream :=
  if h.dataSize = 0 then .ok s
  else do
    let n ← dataBytes h
    let (s1, pos) := s.tellg
    return (s1.seekg ((pos + n) % sizeMod)).setUnitEnd

/-- One turn of read_only_headers, fits_reader.hpp l.91-109. -/
def headersTurn (F : FloatText) (fuel : Nat) (r : Reader) (s : Stream) : Option (Res Reader) :=
  let (s1, loc) := s.tellg
  match extractHeader F fuel s1 with
  | none => none
  | some (.error e) => some (.error e)
  | some (.ok (h, s2)) =>
    let (s3, dataLoc) := s2.tellg
    match store F r s3 h loc dataLoc [] with
    | .error e => some (.error e)
    | .ok r' =>
      match skipData h s3 with
      | .error e => some (.error e)
      | .ok s4 => some (.ok { r' with file := s4 })

/-- read_only_headers, fits_reader.hpp l.90-110. -/
def readHeaders (F : FloatText) (fuel : Nat) : Nat → Reader → Option (Res Reader)
  | 0, _ => none
  | n + 1, r =>
    match r.file.atEnd with
    | (s, true) => some (.ok { r with file := s })
    | (s, false) =>
      match headersTurn F fuel r s with
      | none => none
      | some (.error e) => some (.error e)
      | some (.ok r') => readHeaders F fuel n r'

/-- operator[](int), fits_reader.hpp l.150-152: `at`, a negative number becomes a huge one. -/
def at' (r : Reader) (i : Int) : Res Hdu :=
  if i < 0 then .error .outOfRange
  else match r.hdus[i.toNat]? with
    | some h => .ok h
    | none => .error .outOfRange

/-- operator[](string), fits_reader.hpp l.157-159: `at` in the map, then the unchecked operator of the list. -/
def byName (r : Reader) (name : Str) : Res Hdu :=
  match r.infos.find? (fun p => p.1 == name) with
  | none => .error .outOfRange
  | some (_, i) =>
    match r.hdus[i.index]? with
    | some h => .ok h
    | none => .error .ub

/-- write_to, fits_reader.hpp l.134-142: the HDUs one after the other into a new file. -/
def writeAll (hdus : List Hdu) : Res Stream := hdus.foldlM Hdu.writeTo Stream.create

end Reader

end Astro
