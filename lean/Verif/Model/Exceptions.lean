import Verif.Model.Basic

/-
exception/fits_exception.hpp: the exception classes and what a handler catches.

The classes of the standard library and of Boost that the code lets through are included (their bases are those of the C++ standard and, for
`bad_lexical_cast` and `bad_get`, of the Boost documentation).
-/

namespace Astro

/-- The exception classes. -/
inductive ExClass where
  /-- `std::exception` -/
  | stdException
  /-- `std::logic_error` -/
  | logicError
  /-- `std::out_of_range` -/
  | outOfRange
  /-- `std::length_error` -/
  | lengthError
  /-- `std::bad_cast` -/
  | badCast
  /-- `boost::bad_lexical_cast` -/
  | badLexicalCast
  /-- `boost::bad_get` -/
  | badGet
  /-- fits_exception.hpp l.19-26 -/
  | fitsException
  /-- fits_exception.hpp l.28-35 -/
  | wrongExtensionType
  /-- fits_exception.hpp l.37-44 -/
  | invalidCard
  /-- fits_exception.hpp l.46-55 -/
  | invalidCast
  /-- fits_exception.hpp l.59-66 -/
  | hduUnitOverflow
  /-- fits_exception.hpp l.68-75 -/
  | invalidKeyLength
  /-- fits_exception.hpp l.77-84 -/
  | invalidValueLength
  /-- fits_exception.hpp l.86-93 -/
  | keyNotDefined
  /-- fits_exception.hpp l.95-102 -/
  | invalidTableFormat
  /-- fits_exception.hpp l.103-111 -/
  | fileReading
  /-- fits_exception.hpp l.112-122 -/
  | columnNotFound
  /-- fits_exception.hpp l.124-129 -/
  | columnException
  deriving DecidableEq, Repr

/-- The public base class, fits_exception.hpp l.19-129. -/
def ExClass.base : ExClass → Option ExClass
  | .stdException => none
  | .logicError => some .stdException
  | .outOfRange => some .logicError
  | .lengthError => some .logicError
  | .badCast => some .stdException
  | .badLexicalCast => some .badCast
  | .badGet => some .stdException
  | .fitsException => some .stdException
  | .invalidKeyLength => some .invalidCard
  | .invalidValueLength => some .invalidCard
  | _ => some .fitsException

/-- The class of the object thrown in the model; undefined behaviour throws nothing. -/
def Err.thrown : Err → Option ExClass
  | .invalidCard => some .invalidCard
  | .outOfRange => some .outOfRange
  | .lengthError => some .lengthError
  | .badGet => some .badGet
  | .invalidCast => some .invalidCast
  | .badLexicalCast => some .badLexicalCast
  | .fitsException => some .fitsException
  | .columnNotFound => some .columnNotFound
  | .invalidTableFormat => some .invalidTableFormat
  | .ub => none

end Astro
