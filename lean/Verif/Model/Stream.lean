import Verif.Model.Basic

/-
io/fits_stream.hpp: the file stream used for reading and writing.

`std::fstream` is modelled by the bytes of the file, the joint read/write position and the two state
bits `eofbit` and `failbit`, with the C++11 rules for unformatted input.  Not modelled: `badbit`
(device errors), files that change while open, a full disk.
-/

namespace Astro

/-- An open file. -/
structure Stream where
  content : Str
  pos : Nat
  eof : Bool
  fail : Bool
  writable : Bool
  deriving DecidableEq, Repr

namespace Stream

/-- The file after set_file(path), fits_stream.hpp l.32-39 (read only). -/
def openRead (content : Str) : Stream := ⟨content, 0, false, false, false⟩

/-- The file after create_file(path), fits_stream.hpp l.45-50 (truncated). -/
def create : Stream := ⟨[], 0, false, false, true⟩

/-- `std::ios::good`. -/
def good (s : Stream) : Bool := !s.eof && !s.fail

/-- Construction of an `istream::sentry` (no white space skipping): a stream that is not good gets the failbit. -/
def sentry (s : Stream) : Stream := if s.good then s else { s with fail := true }

/-- get_current_pos, fits_stream.hpp l.81-83: `tellg` gives -1 on a failed stream, converted to `size_t`. -/
def tellg (s : Stream) : Stream × Nat :=
  let s1 := s.sentry
  (s1, if s1.fail then sizeMod - 1 else s1.pos)

/-- set_reading_pos, fits_stream.hpp l.64-66: `seekg` clears the eofbit, then does nothing if the failbit is set; a position above
the largest `streamoff` makes it fail. -/
def seekg (s : Stream) (p : Nat) : Stream :=
  let s1 := ({ s with eof := false } : Stream).sentry
  if s1.fail then s1 else if p < 2 ^ 63 then { s1 with pos := p } else { s1 with fail := true }

/-- read, fits_stream.hpp l.111-115: a buffer of spaces overwritten by the bytes that could be read.  Memory is unlimited except
that `std::string` cannot hold `2^63` bytes or more. -/
def read (s : Stream) (n : Nat) : Res (Str × Stream) :=
  if 2 ^ 63 ≤ n then .error .lengthError
  else if s.good then
    let d := (s.content.drop s.pos).take n
    if d.length = n then .ok (d, { s with pos := s.pos + n })
    else .ok (d ++ spaces (n - d.length), { s with pos := s.pos + d.length, eof := true, fail := true })
  else .ok (spaces n, s.sentry)

/-- at_end, fits_stream.hpp l.120-123: `peek`, then the eofbit. -/
def atEnd (s : Stream) : Stream × Bool :=
  let s1 := if s.good then (if s.pos < s.content.length then s else { s with eof := true }) else s.sentry
  (s1, s1.eof)

/-- get, fits_stream.hpp l.71-76; `file.get()` gives EOF (-1, cut to 255) on a failed stream. -/
def get (s : Stream) : Stream × Byte :=
  if s.good then
    match s.content[s.pos]? with
    | some b => ({ s with pos := s.pos + 1 }, b)
    | none => ({ s with eof := true, fail := true }, 0)
  else
    let s1 := s.sentry
    (s1, if s1.eof then 0 else 255)

/-- write, fits_stream.hpp l.89-93: object afterwards and the returned flag. -/
def write (s : Stream) (d : Str) : Stream × Bool :=
  let s1 :=
    if s.good && s.writable then
      { s with content := s.content.take s.pos ++ List.replicate (s.pos - s.content.length) 0 ++ d ++ s.content.drop (s.pos + d.length)
               pos := s.pos + d.length }
    else { s with fail := true }
  (s1, s1.good)

/-- write with a position, fits_stream.hpp l.99-105: `seekp` does nothing on a failed stream and leaves the eofbit; a position above the largest
`streamoff` makes it fail. -/
def writeAt (s : Stream) (d : Str) (p : Nat) : Stream × Bool :=
  if s.fail then (s, false)
  else if p < 2 ^ 63 then (if ({ s with pos := p } : Stream).good then ({ s with pos := p } : Stream).write d else ({ s with pos := p }, false))
  else ({ s with fail := true }, false)

/-- find_unit_end, fits_stream.hpp l.147-154 (`size_t` arithmetic). -/
def findUnitEnd (s : Stream) : Stream × Nat :=
  let (s1, current) := s.tellg
  let offset := 2880 - current % 2880
  (s1, (current + offset) % sizeMod)

/-- set_unit_end, fits_stream.hpp l.140-142. -/
def setUnitEnd (s : Stream) : Stream :=
  let (s1, p) := s.findUnitEnd
  s1.seekg p

end Stream

end Astro
