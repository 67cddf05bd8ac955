import Verif.Spec.Card
import Verif.Spec.FitsAny
import Verif.Model.CardSet
import Verif.Model.View
import Verif.Model.Exceptions
import Mathlib.Data.Set.Basic

/-
Exception specifications: what can come out of a call, and which handler stops it.
-/

namespace Astro.Spec

/-- Everything that can go wrong in `op` when it is called in one of the situations `P`. -/
def Throws {ι α : Type} (P : ι → Prop) (op : ι → Res α) : Set Err := {e | ∃ i, P i ∧ op i = .error e}

/-- `c` is `d` or derived from it. -/
inductive IsA : ExClass → ExClass → Prop
  | refl (c : ExClass) : IsA c c
  | step {c b d : ExClass} : c.base = some b → IsA b d → IsA c d

/-- The classes whose handlers stop an exception of the class, as written in the documentation of the standard library and Boost and in fits_exception.hpp. -/
def handlers : ExClass → List ExClass
  | .stdException => [.stdException]
  | .logicError => [.logicError, .stdException]
  | .outOfRange => [.outOfRange, .logicError, .stdException]
  | .lengthError => [.lengthError, .logicError, .stdException]
  | .badCast => [.badCast, .stdException]
  | .badLexicalCast => [.badLexicalCast, .badCast, .stdException]
  | .badGet => [.badGet, .stdException]
  | .fitsException => [.fitsException, .stdException]
  | .invalidKeyLength => [.invalidKeyLength, .invalidCard, .fitsException, .stdException]
  | .invalidValueLength => [.invalidValueLength, .invalidCard, .fitsException, .stdException]
  | c => [c, .fitsException, .stdException]

/-- `catch (d&)` stops it. -/
def CaughtBy (d : ExClass) (e : Err) : Prop := ∃ c, e.thrown = some c ∧ IsA c d

/-- The value can be turned into the text of a card: no number is printed with more than twenty characters. -/
def HasText (F : FloatText) (v : Val) : Prop := ∃ text, TextOf F v text

/-- The cards a program can have: made by the constructors, then changed by the member functions, whatever they reported. -/
inductive MadeCard (F : FloatText) : Card → Prop
  | empty : MadeCard F Card.empty
  | raw {s : Str} {c : Card} : Card.ofRaw s = .ok c → MadeCard F c
  | create {c : Card} (key : Str) (v : Val) (comment : Str) : MadeCard F c → MadeCard F (Card.create F c key v comment).1
  | createCStr {c : Card} (key v comment : Str) : MadeCard F c → MadeCard F (Card.createCStr c key v comment).1
  | commentary {c : Card} (key v : Str) : MadeCard F c → MadeCard F (Card.createCommentary c key v).1
  | setValue {c : Card} (v : Val) : MadeCard F c → MadeCard F (Card.setValue F c v).1
  | setValueCStr {c : Card} (v : Str) : MadeCard F c → MadeCard F (Card.setValueCStr c v).1
  | value {c : Card} (t : Ty) : MadeCard F c → MadeCard F (Card.value F c t).1

/-- The headers a program can have: read from any stream, then asked for values. -/
inductive LoadedHeader (F : FloatText) : Header → Prop
  | load {fuel : Nat} {s s' : Stream} {h : Header} : Header.readHeader F fuel Header.empty s = some (.ok (h, s')) → LoadedHeader F h
  | ask {h : Header} (k : Str) (t : Ty) : LoadedHeader F h → LoadedHeader F (h.valueOf F k t).1

/-- The table objects a program can have. -/
inductive UsedTable (Φ : Family) : Obj Φ → Prop
  | fresh (cols : List Column) (data : List (List Str)) : UsedTable Φ (Obj.fresh cols data)
  | column {o : Obj Φ} (name : Str) (t : Φ.Tag) : UsedTable Φ o → UsedTable Φ (o.getColumn name t).1
  | read {o : Obj Φ} (name : Str) (t : Φ.Tag) (row : Nat) : UsedTable Φ o → UsedTable Φ (o.read name t row).1
  | update {o : Obj Φ} (name : Str) (t : Φ.Tag) (row : Nat) (x : Φ.El t) : UsedTable Φ o → UsedTable Φ (o.update name t row x).1
  | assign {o : Obj Φ} (name : Str) (t : Φ.Tag) (row : Nat) (x : Φ.El t) : UsedTable Φ o → UsedTable Φ (o.assign name t row x).1
  | replace {o : Obj Φ} (cols : List Column) (data : List (List Str)) : UsedTable Φ o → UsedTable Φ (o.replace cols data)

/-- What read_entire_hdus and read_only_headers raise for some file. -/
def RaisedBy (read : FloatText → Nat → Nat → Reader → Option (Res Reader)) (F : FloatText) : Set Err :=
  {e | ∃ content, EndsIn (fun cards turns => read F cards turns (Reader.openFile content)) (.raised e)}

end Astro.Spec
