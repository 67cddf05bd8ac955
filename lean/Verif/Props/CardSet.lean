import Verif.Model.CardSet
import Verif.Props.CardState
import Verif.Props.CardText

/-
Property C111: set_value with a C string.
-/

namespace Astro

open Spec

theorem setValueCStr_short (c : Card) (hc : 8 ≤ c.raw.length) (v : Str) (h : v.length ≤ 20) :
    Card.setValueCStr c v = (⟨c.raw.take 8 ++ (spaces (20 - v.length) ++ v), some (.bool true)⟩, .ok ()) := by
  unfold Card.setValueCStr Policy.serializeCStr
  rw [pad20_ok h, (keyword_len8 hc).1, (keyword_len8 hc).2]
  simp only
  have hl : (trim (c.raw.take 8)).length ≤ 8 := by
    have := trim_length_le (c.raw.take 8)
    have := List.length_take_le 8 c.raw
    omega
  rw [if_pos (isCardValid3_iff.2 ⟨hl, Or.inl ⟨rfl, by simp; omega⟩⟩)]

/-- **C111** set_value with a C string of at most twenty bytes: the card's text becomes the keyword field followed by the string right-justified in twenty
columns, without `"= "` and quotes, 28 bytes in all.  Whatever the string says, the value of the card is then `true`, and asking for any other type, in
particular for a string, throws `bad_get`. -/
theorem C111_short (F : FloatText) (c : Card) (hc : c.raw.length = 80) (v : Str) (h : v.length ≤ 20) :
    (Card.setValueCStr c v).2 = .ok () ∧
    (∃ text, rightJustified 20 v text ∧ (Card.setValueCStr c v).1.raw = c.raw.take 8 ++ text) ∧
    (Card.setValueCStr c v).1.raw.length = 28 ∧
    (Card.setValueCStr c v).1.keyword = c.keyword ∧
    (Card.value F (Card.setValueCStr c v).1 .bool).2 = .ok (.bool true) ∧
    (∀ t, t ≠ .bool → (Card.value F (Card.setValueCStr c v).1 t).2 = .error .badGet) := by
  rw [setValueCStr_short c (by omega) v h]
  have h8 : (c.raw.take 8).length = 8 := by simp [hc]
  refine ⟨rfl, ⟨_, rightJustified_iff.2 ⟨h, rfl⟩, rfl⟩, ?_, ?_, ?_, ?_⟩
  · simp [hc]; omega
  · rw [(keyword_len8 (c := c) (by omega)).2,
      (keyword_len8 (c := ⟨c.raw.take 8 ++ (spaces (20 - v.length) ++ v), some (.bool true)⟩) (by simp [hc])).2]
    congr 2
    exact List.take_left' h8
  · simp [Card.value, Val.ty]
  · intro t ht
    have : ¬ Ty.bool = t := fun e => ht e.symm
    simp [Card.value, Val.ty, this]

/-- **C111** A longer C string is refused with `length_error` and the card is as before — while a `std::string` of up to 68 bytes is accepted and read back. -/
theorem C111_long (F : FloatText) (c : Card) (hc : c.raw.length = 80) (v : Str) (h : 20 < v.length) :
    Card.setValueCStr c v = (c, .error .lengthError) ∧
    (v.length ≤ 68 → (Card.value F (Card.setValue F c (.string v)).1 .string).2 = .ok (.string v)) := by
  constructor
  · unfold Card.setValueCStr Policy.serializeCStr
    rw [pad20_error h]
  · intro h68
    exact ((C10_set_value_effect F c hc (.string v) (b!"'" ++ v ++ b!"'") (serialize_iff.1 rfl)).2 (by simp; omega)).2.2.2.2

/-- **C111** set_value with a `std::string` and with a C string never leave the same card, except that both leave a card alone when the string has more
than 68 bytes (the first silently, the second with `length_error`). -/
theorem C111_differs (F : FloatText) (c : Card) (hc : c.raw.length = 80) (v : Str) :
    (Card.setValueCStr c v).1 = (Card.setValue F c (.string v)).1 ↔ 68 < v.length := by
  by_cases h : v.length ≤ 20
  · rw [setValueCStr_short c (by omega) v h, setValue_eq F c (.string v) (b!"'" ++ v ++ b!"'") (serialize_iff.1 rfl), if_pos (by simp; omega)]
    constructor
    · intro e
      have := congrArg Card.cache e
      simp at this
    · intro; omega
  · rw [(C111_long F c hc v (by omega)).1, setValue_eq F c (.string v) (b!"'" ++ v ++ b!"'") (serialize_iff.1 rfl)]
    by_cases h68 : v.length ≤ 68
    · rw [if_pos (by simp; omega)]
      constructor
      · intro e
        have := congrArg (fun c => c.raw.length) e
        simp [hc] at this
        omega
      · intro; omega
    · rw [if_neg (by simp; omega)]
      exact ⟨fun _ => by omega, fun _ => rfl⟩

/-- Set the flag of a card with the letter `F`, and the name of an object. -/
example (F : FloatText) : let c := (Card.create F Card.empty b!"EXTEND" (.bool false) []).1
    (Card.setValueCStr c b!"F").1.raw = b!"EXTEND                     F" ∧
    (Card.value F (Card.setValueCStr c b!"F").1 .bool).2 = .ok (.bool true) ∧
    (Card.value F (Card.setValueCStr c b!"M31").1 .string).2 = .error .badGet := ⟨rfl, rfl, rfl⟩

end Astro
