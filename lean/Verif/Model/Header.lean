import Verif.Model.Stream
import Verif.Model.Card
import Verif.Model.Bitpix

/-
io/header.hpp.
-/

namespace Astro

/-- struct header, header.hpp l.44-52.  `bitpix` is `none` while uninitialised; `keyIndex` is the `unordered_map`, of which only
look-up and insertion are used. -/
structure Header where
  bitpix : Option Bitpix
  naxis : List Nat
  hduName : Str
  cards : List Card
  keyIndex : Str → Option Nat

namespace Header

/-- A default constructed header. -/
def empty : Header := ⟨none, [], [], [], fun _ => none⟩

/-- `key_index[k] = i`. -/
def setKey (m : Str → Option Nat) (k : Str) (i : Nat) : Str → Option Nat := fun k' => if k' = k then some i else m k'

/-- `key_index[k]` used as a value: a missing key is inserted with 0. -/
def indexOf (h : Header) (k : Str) : Header × Nat :=
  match h.keyIndex k with
  | some i => (h, i)
  | none => ({ h with keyIndex := setKey h.keyIndex k 0 }, 0)

/-- `cards[i].value<T>()`; the cache of the card is updated in place. -/
def cardValue (F : FloatText) (h : Header) (i : Nat) (t : Ty) : Header × Res Val :=
  match h.cards[i]? with
  | none => (h, .error .ub)
  | some c =>
    let (c', r) := c.value F t
    ({ h with cards := h.cards.set i c' }, r)

/-- One turn of the loop of read_header, header.hpp l.78-92; the flag tells that END was found. -/
def readCard (h : Header) (s : Stream) : Res (Header × Stream × Bool) := do
  let (buf, s') ← s.read 80
  let c ← Card.ofRaw buf
  let k ← c.keyword
  let cards := h.cards ++ [c]
  let h' := { h with cards := cards, keyIndex := setKey h.keyIndex k (cards.length - 1) }
  let w ← c.keywordWhole
  return (h', s', w == b!"END     ")

/-- The loop of read_header, header.hpp l.78-92, given at most `fuel` turns; `none` means that it is still running. -/
def readCards : Nat → Header → Stream → Option (Res (Header × Stream))
  | 0, _, _ => none
  | fuel + 1, h, s =>
    match h.readCard s with
    | .error e => some (.error e)
    | .ok (h', s', true) => some (.ok (h', s'))
    | .ok (h', s', false) => readCards fuel h' s'

/-- The switch of read_header, header.hpp l.95-115. -/
def bitpixOf (v : Int) : Option Bitpix :=
  if v = 8 then some .B8
  else if v = 16 then some .B16
  else if v = 32 then some .B32
  else if v = -32 then some .F32
  else if v = -64 then some .F64
  else none

/-- `cards[key_index[k]].value<size_t>()`, header.hpp l.118, l.123. -/
def sizeValue (F : FloatText) (h : Header) (k : Str) : Res (Header × Nat) :=
  let (h1, i) := h.indexOf k
  match h1.cardValue F i .sizeT with
  | (h2, .ok (.sizeT v)) => .ok (h2, v.toNat)
  | (_, .ok _) => .error .ub
  | (_, .error e) => .error e

/-- The loop of read_header, header.hpp l.121-125, from axis number `i` on, `n` axes left. -/
def readAxes (F : FloatText) : Nat → Nat → Header → Res Header
  | 0, _, h => .ok h
  | n + 1, i, h => do
    let (h', v) ← h.sizeValue F (b!"NAXIS" ++ showNat i)
    readAxes F n (i + 1) { h' with naxis := h'.naxis ++ [v] }

/-- read_header after the card loop, header.hpp l.93-125.  `reserve` throws for more than `2^60 - 1` elements. -/
def interpret (F : FloatText) (h : Header) : Res Header :=
  let (h1, i) := h.indexOf b!"BITPIX"
  match h1.cardValue F i .int with
  | (_, .error e) => .error e
  | (h2, .ok (.int v)) =>
    match bitpixOf v.toInt with
    | none => .error .fitsException
    | some b => do
      let (h3, n) ← { h2 with bitpix := some b }.sizeValue F b!"NAXIS"
      if 2 ^ 60 ≤ n then .error .lengthError
      else readAxes F n 1 h3
  | (_, .ok _) => .error .ub

/-- read_header, header.hpp l.72-127. -/
def readHeader (F : FloatText) (fuel : Nat) (h : Header) (s : Stream) : Option (Res (Header × Stream)) :=
  match readCards fuel h s with
  | none => none
  | some (.error e) => some (.error e)
  | some (.ok (h', s')) =>
    match h'.interpret F with
    | .error e => some (.error e)
    | .ok h'' => some (.ok (h'', s'))

/-- write_header, header.hpp l.135-146. -/
def writeHeader (h : Header) (s : Stream) : Stream :=
  let s1 := (s.write (h.cards.foldl (fun a c => a ++ c.raw) [])).1
  let (s2, current) := s1.tellg
  let (s3, unitEnd) := s2.findUnitEnd
  (s3.write (spaces (szSub unitEnd current))).1

/-- value_of, header.hpp l.225-228. -/
def valueOf (F : FloatText) (h : Header) (k : Str) (t : Ty) : Header × Res Val :=
  match h.keyIndex k with
  | none => (h, .error .outOfRange)
  | some i => h.cardValue F i t

/-- get_hdu_name, header.hpp l.151-163: every exception of the first attempt is caught (undefined behaviour is not an exception). -/
def getHduName (F : FloatText) (h : Header) : Header × Res Str :=
  match h.valueOf F b!"XTENSION" .string with
  | (h1, .ok (.string s)) => ({ h1 with hduName := s }, .ok s)
  | (h1, .error .ub) => (h1, .error .ub)
  | (h1, _) =>
    match h1.valueOf F b!"SIMPLE" .bool with
    | (h2, .ok _) => (h2, .ok b!"primary_hdu")
    | (h2, .error e) => (h2, .error e)

/-- contains_keyword, header.hpp l.169-174 (`keyword()` cannot throw here, `substr(0, 8)` accepts every string). -/
def containsKeyword (h : Header) (k : Str) : Bool :=
  h.cards.any fun c => c.keyword == .ok k

/-- naxis(n), header.hpp l.198-201: `naxis_[n - 1]` without a check; the default argument 0 is out of range. -/
def naxisAt (h : Header) (n : Nat) : Res Nat :=
  if n = 0 then .error .ub
  else match h.naxis[n - 1]? with
    | some v => .ok v
    | none => .error .ub

/-- total_dimensions, header.hpp l.206. -/
def totalDimensions (h : Header) : Nat := h.naxis.length

/-- data_size, header.hpp l.212-215 (`size_t` products). -/
def dataSize (h : Header) : Nat :=
  if h.naxis.isEmpty then 0 else h.naxis.foldl (fun a b => a * b % sizeMod) 1

/-- card_count, header.hpp l.234-237 (`size_t` difference). -/
def cardCount (h : Header) : Nat := szSub h.cards.length 1

/-- operator==, header.hpp l.59-65. -/
def Equal (a b : Header) : Prop :=
  a.bitpix = b.bitpix ∧ a.naxis = b.naxis ∧ a.hduName = b.hduName ∧
    a.cards.map (·.raw) = b.cards.map (·.raw) ∧ a.keyIndex = b.keyIndex

end Header

end Astro
