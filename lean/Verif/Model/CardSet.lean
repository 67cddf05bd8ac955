import Verif.Model.Card

/-
`card::set_value` with a C string.
-/

namespace Astro.Card

open Policy

/-- `set_value<char const*>` (card.hpp l.173-185).  `card_cache = value` assigns a pointer to the variant of card.hpp l.38; among the conversions to
the alternatives (default_card_policy.hpp l.31-45) the one to `bool` is a standard conversion and wins over the constructor of `std::string`, so the
variant holds `true`. -/
def setValueCStr (c : Card) (v : Str) : Card × Res Unit :=
  match serializeCStr v with
  | .error e => (c, .error e)
  | .ok s =>
    match c.keyword with
    | .error e => (c, .error e)
    | .ok k =>
      if isCardValid3 k s [] then
        match c.keywordWhole with
        | .error e => (c, .error e)
        | .ok kw => (⟨kw ++ s, some (.bool true)⟩, .ok ())
      else (c, .ok ())

end Astro.Card
