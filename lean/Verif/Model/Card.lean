import Verif.Model.Basic

/-
FITS cards: include/boost/astronomy/io/default_card_policy.hpp and card.hpp.
-/

namespace Astro

/-- Types a card value can have: the non-blank members of `supported_types`
(default_card_policy.hpp l.31-45). -/
inductive Ty where
  | bool | int | float | double | uint | longlong | sizeT | string
  | cint | cdouble | cfloat | csizeT
  deriving DecidableEq, Repr

/-- A typed value: a non-blank state of the cache variant (default_card_policy.hpp l.31-45).
`int`, `unsigned` are 32-bit, `long long`, `size_t` 64-bit, floats are bit patterns. -/
inductive Val where
  | bool (b : Bool)
  | int (v : BitVec 32)
  | float (v : BitVec 32)
  | double (v : BitVec 64)
  | uint (v : BitVec 32)
  | longlong (v : BitVec 64)
  | sizeT (v : BitVec 64)
  | string (s : Str)
  | cint (re im : BitVec 32)
  | cdouble (re im : BitVec 64)
  | cfloat (re im : BitVec 32)
  | csizeT (re im : BitVec 64)
  deriving DecidableEq, Repr

/-- The alternative of the variant a value occupies. -/
def Val.ty : Val → Ty
  | .bool _ => .bool | .int _ => .int | .float _ => .float | .double _ => .double
  | .uint _ => .uint | .longlong _ => .longlong | .sizeT _ => .sizeT | .string _ => .string
  | .cint _ _ => .cint | .cdouble _ _ => .cdouble | .cfloat _ _ => .cfloat | .csizeT _ _ => .csizeT

namespace Policy

/-- `reserved_keywords` (default_card_policy.hpp l.51-55). -/
def reservedKeywords : List Str := [b!"COMMENT", b!"HISTORY", b!"END"]

/-- `is_key_valid` (default_card_policy.hpp l.62-64). -/
def isKeyValid (k : Str) : Bool := k.length ≤ 8

/-- `is_reserved_keyword` (default_card_policy.hpp l.225-227). -/
def isReservedKeyword (k : Str) : Bool := reservedKeywords.contains k

/-- `in_proper_format` (default_card_policy.hpp l.232-234). -/
def inProperFormat (c : Str) : Res Bool := do
  let s ← substr c 8 2
  return s == b!"= "

/-- `is_blank` (default_card_policy.hpp l.239-241). -/
def isBlank (c : Str) : Res Bool := do
  let s ← substr c 0 8
  return s == spaces 8

/-- `is_card_valid(string)` (default_card_policy.hpp l.70-78), with the short-circuit evaluation of `||`. -/
def isCardValid (c : Str) : Res Bool := do
  if c.length ≤ 80 then
    if (← inProperFormat c) then return true
    if isReservedKeyword (trim (← substr c 0 7)) then return true
    if (← isBlank c) then return true
    return false
  else return false

/-- `is_card_valid(keyword, value, comment)` (default_card_policy.hpp l.83-90). -/
def isCardValid3 (k v c : Str) : Bool :=
  if isKeyValid k then
    if c.isEmpty then v.length ≤ 70 else v.length + c.length ≤ 68
  else false

/-- `ascii_converter::deserialize_to<T>` turns a failed `lexical_cast` into `invalid_cast`
(string_conversion_utility.hpp l.34-42). -/
def recast {α : Type} : Res α → Res α
  | .error .badLexicalCast => .error .invalidCast
  | r => r

/-- The same for an optional (uninterpreted) scan. -/
def recastOpt {α : Type} : Option α → Res α
  | some a => .ok a
  | none => .error .invalidCast

/-- `parse_to(value, type<bool>)` (default_card_policy.hpp l.114-121). -/
def parseBool (s : Str) : Res Bool :=
  if s = b!"T" then .ok true
  else if s = b!"F" then .ok false
  else .error .invalidCast

/-- `parse_to(value, type<complex<T>>)` (default_card_policy.hpp l.128-138): split at the first space, the part
before it is the real part, everything after it the imaginary part.  (The C++ leaves the evaluation order of the two
parses open; both report the same error.) -/
def parseComplex {α : Type} (parse : Str → Res α) (s : Str) : Res (α × α) :=
  match s.findIdx? (· == 32) with
  | some i => do
    let re ← parse (s.take i)
    let im ← parse (s.drop (i + 1))
    return (re, im)
  | none => .error .invalidCast

/-- `parse_to<T>` (default_card_policy.hpp l.97-138).  For `string` this is
`lexical_cast<std::string>`, which copies; cards do not use it (see `valueImp`). -/
def parseTo (F : FloatText) (t : Ty) (s : Str) : Res Val :=
  match t with
  | .bool => (parseBool s).map .bool
  | .int => (recast (lexSigned 32 s)).map .int
  | .float => (recastOpt (F.parse32 s)).map .float
  | .double => (recastOpt (F.parse64 s)).map .double
  | .uint => (recast (lexUnsigned 32 s)).map .uint
  | .longlong => (recast (lexSigned 64 s)).map .longlong
  | .sizeT => (recast (lexUnsigned 64 s)).map .sizeT
  | .string => .ok (.string s)
  | .cint => (parseComplex (fun x => recast (lexSigned 32 x)) s).map fun p => .cint p.1 p.2
  | .cdouble => (parseComplex (fun x => recastOpt (F.parse64 x)) s).map fun p => .cdouble p.1 p.2
  | .cfloat => (parseComplex (fun x => recastOpt (F.parse32 x)) s).map fun p => .cfloat p.1 p.2
  | .csizeT => (parseComplex (fun x => recast (lexUnsigned 64 x)) s).map fun p => .csizeT p.1 p.2

/-- `insert(0, 20 - len, ' ')` of the numeric serialisers (default_card_policy.hpp l.152, l.183). -/
def pad20 (s : Str) : Res Str := do
  let n ← padCount 20 s.length
  return spaces n ++ s

/-- `serialize_to_fits_format` (default_card_policy.hpp l.144-194). -/
def serialize (F : FloatText) : Val → Res Str
  | .bool b => .ok (spaces 19 ++ (if b then b!"T" else b!"F"))
  | .int v => pad20 (showInt v.toInt)
  | .float v => pad20 (F.show32 v)
  | .double v => pad20 (F.show64 v)
  | .uint v => pad20 (showNat v.toNat)
  | .longlong v => pad20 (showInt v.toInt)
  | .sizeT v => pad20 (showNat v.toNat)
  | .string s => .ok (b!"'" ++ s ++ b!"'")
  | .cint re im => do return (← pad20 (showInt re.toInt)) ++ (← pad20 (showInt im.toInt))
  | .cdouble re im => do return (← pad20 (F.show64 re)) ++ (← pad20 (F.show64 im))
  | .cfloat re im => do return (← pad20 (F.show32 re)) ++ (← pad20 (F.show32 im))
  | .csizeT re im => do return (← pad20 (showNat re.toNat)) ++ (← pad20 (showNat im.toNat))

/-- `serialize_to_fits_format<char const*>`: a C string literal selects the generic template
(default_card_policy.hpp l.144-154), so it is padded to 20 bytes and not quoted. -/
def serializeCStr (s : Str) : Res Str := pad20 s

/-- `extract_keyword` (default_card_policy.hpp l.200-202). -/
def extractKeyword (c : Str) : Res Str := substr c 0 8

/-- `format_keyword` (default_card_policy.hpp l.208-210). -/
def formatKeyword (k : Str) : Res Str := do
  let n ← padCount 8 k.length
  return k ++ spaces n

/-- `extract_value` (default_card_policy.hpp l.216-218): `substr(9, find('/') - 10)`, the subtraction wraps. -/
def extractValue (c : Str) : Res Str := substr c 9 (szSub (findByte c 47) 10)

end Policy

/-- `struct card` (card.hpp l.34-39): the raw text and the cached value (`none` is the `boost::blank`
state of the variant). -/
structure Card where
  raw : Str
  cache : Option Val
  deriving DecidableEq, Repr

namespace Card

open Policy

/-- Default constructor (card.hpp l.47-50). -/
def empty : Card := ⟨[], none⟩

/-- `card(std::string)` (card.hpp l.60-68). -/
def ofRaw (s : Str) : Res Card := do
  if (← isCardValid s) then return ⟨s, none⟩ else .error .invalidCard

/-- `create_card_impl` (card.hpp l.202-218).  Returns the object left behind next to the outcome. -/
def createImpl (c : Card) (key v comment : Str) : Card × Res Unit :=
  if isCardValid3 key v comment then
    match formatKeyword key with
    | .error e => (c, .error e)
    | .ok k =>
      let raw := if comment.isEmpty then k ++ b!"= " ++ v else k ++ b!"= " ++ v ++ b!" /" ++ comment
      match padCount 80 raw.length with
      | .error e => ({ c with raw := raw }, .error e)
      | .ok n => ({ c with raw := raw ++ spaces n }, .ok ())
  else (c, .error .invalidCard)

/-- `create_card<Value>` (card.hpp l.101-106). -/
def create (F : FloatText) (c : Card) (key : Str) (v : Val) (comment : Str) : Card × Res Unit :=
  match serialize F v with
  | .error e => (c, .error e)
  | .ok s => createImpl c key s comment

/-- `create_card<char const*>` (card.hpp l.101-106). -/
def createCStr (c : Card) (key : Str) (v : Str) (comment : Str) : Card × Res Unit :=
  match serializeCStr v with
  | .error e => (c, .error e)
  | .ok s => createImpl c key s comment

/-- `create_commentary_card` (card.hpp l.119-129): the text is stored before the padding is computed. -/
def createCommentary (c : Card) (key v : Str) : Card × Res Unit :=
  if isKeyValid key then
    let content := key ++ b!"  " ++ v
    match padCount 80 content.length with
    | .error e => ({ c with raw := content }, .error e)
    | .ok n => ({ c with raw := content ++ spaces n }, .ok ())
  else (c, .error .invalidCard)

/-- `keyword(true)` (card.hpp l.136-144). -/
def keywordWhole (c : Card) : Res Str := extractKeyword c.raw

/-- `keyword(false)` (card.hpp l.136-144). -/
def keyword (c : Card) : Res Str := do return trim (← extractKeyword c.raw)

/-- `value_imp` (card.hpp l.225-244).  For strings: `val[0]` of an empty string is the terminating
zero; a lone quote makes `begin()+1 > end()-1`, which is undefined. -/
def valueImp (F : FloatText) (raw : Str) (t : Ty) : Res Val := do
  let val := trim (← extractValue raw)
  match t with
  | .string =>
    match val with
    | [] => return .string []
    | c :: r =>
      if c = 39 then
        if r.isEmpty then .error .ub else return .string (trim r.dropLast)
      else return .string val
  | t => parseTo F t val

/-- `value<T>()` (card.hpp l.151-158): object afterwards (only the mutable cache can change) and outcome. -/
def value (F : FloatText) (c : Card) (t : Ty) : Card × Res Val :=
  match c.cache with
  | none =>
    match valueImp F c.raw t with
    | .error e => (c, .error e)
    | .ok v => ({ c with cache := some v }, .ok v)
  | some v => if v.ty = t then (c, .ok v) else (c, .error .badGet)

/-- `value_with_comment` (card.hpp l.164-167). -/
def valueWithComment (c : Card) : Res Str := do
  return trim (← substr c.raw 10 npos)

/-- `set_value<T>` (card.hpp l.173-185). -/
def setValue (F : FloatText) (c : Card) (v : Val) : Card × Res Unit :=
  match serialize F v with
  | .error e => (c, .error e)
  | .ok s =>
    match c.keyword with
    | .error e => (c, .error e)
    | .ok k =>
      if isCardValid3 k s [] then
        match c.keywordWhole with
        | .error e => (c, .error e)
        | .ok kw => (⟨kw ++ s, some v⟩, .ok ())
      else (c, .ok ())

/-- `operator==` (card.hpp l.90-92). -/
def beq (a b : Card) : Bool := a.raw == b.raw

end Card

end Astro
