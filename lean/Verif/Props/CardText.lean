import Verif.Props.Card

/-
Property C92: cards created from C strings.
-/

namespace Astro

open Spec

theorem createCStr_long (c : Card) (key v comment : Str) (h : 20 < v.length) : Card.createCStr c key v comment = (c, .error .lengthError) := by
  unfold Card.createCStr Policy.serializeCStr
  rw [pad20_error h]

theorem createCStr_short (c : Card) (key v comment : Str) (h : v.length ≤ 20) :
    Card.createCStr c key v comment = Card.createImpl c key (spaces (20 - v.length) ++ v) comment := by
  unfold Card.createCStr Policy.serializeCStr
  rw [pad20_ok h]

theorem fits_cstr {key v comment : Str} (hv : v.length ≤ 20) :
    Fits key (spaces (20 - v.length) ++ v) comment ↔ key.length ≤ 8 ∧ comment.length ≤ 48 := by
  unfold Fits
  cases comment with
  | nil => simp; omega
  | cons x t => simp; omega

/-- **C92** A C string is put right-justified into twenty columns, without quotes.  More than twenty bytes are refused with `length_error` (a
std::string may have 68), a long keyword or comment with `invalid_card`; a refused card is as before. -/
theorem C92_create (c : Card) (key v comment : Str) :
    (20 < v.length → Card.createCStr c key v comment = (c, .error .lengthError)) ∧
    (v.length ≤ 20 → ¬ (key.length ≤ 8 ∧ comment.length ≤ 48) → Card.createCStr c key v comment = (c, .error .invalidCard)) ∧
    (v.length ≤ 20 → key.length ≤ 8 → comment.length ≤ 48 → ∃ raw text, Card.createCStr c key v comment = ({ c with raw := raw }, .ok ()) ∧
      rightJustified 20 v text ∧ Layout raw key text comment) := by
  refine ⟨createCStr_long c key v comment, fun h hn => ?_, fun h hk hm => ?_⟩
  · rw [createCStr_short _ _ _ _ h, createImpl_not_fits _ (by rwa [fits_cstr h])]
  · have hf := (fits_cstr h).2 ⟨hk, hm⟩
    rw [createCStr_short _ _ _ _ h, createImpl_fits _ hf]
    exact ⟨_, _, rfl, rightJustified_iff.2 ⟨h, rfl⟩, (layout_iff hf).2 rfl⟩

/-- **C92** So the card is the one of the number or truth value whose text the string is; nothing on it says that it was a string. -/
theorem C92_same_as_number (F : FloatText) (c : Card) (key d text comment : Str) (v : Val) (h1 : TextOf F v text) (h2 : rightJustified 20 d text) :
    Card.createCStr c key d comment = Card.create F c key v comment := by
  obtain ⟨h3, h4⟩ := rightJustified_iff.1 h2
  rw [createCStr_short _ _ _ _ h3, ← h4]
  unfold Card.create
  rw [serialize_iff.2 h1]

/-- **C92** Without `'/'` in keyword and text the string can be read as it was, but for outer white space, unless it begins with a quote; a string which
is given in quotes comes back without them, and a lone quote is undefined behaviour. -/
theorem C92_read (F : FloatText) (c : Card) (key v comment t : Str) (hc : Fresh c) (hv : v.length ≤ 20) (hk : key.length ≤ 8)
    (hm : comment.length ≤ 48) (hs : slash ∉ key) (hs' : slash ∉ v) (ht : IsTrim v t) :
    (t.head? ≠ some 39 → (Card.value F (Card.createCStr c key v comment).1 .string).2 = .ok (.string t)) ∧
    (∀ x u, t = b!"'" ++ x ++ b!"'" → IsTrim x u → (Card.value F (Card.createCStr c key v comment).1 .string).2 = .ok (.string u)) ∧
    (t = b!"'" → (Card.value F (Card.createCStr c key v comment).1 .string).2 = .error .ub) := by
  have hf := (fits_cstr (key := key) (comment := comment) hv).2 ⟨hk, hm⟩
  have hw : windowText key (spaces (20 - v.length) ++ v) comment = t := by
    rw [windowText_plain (Or.inr hs)]
    · rw [trim_spaces_left, isTrim_iff.1 ht]
    · simp only [List.mem_append, not_or]
      exact ⟨not_mem_spaces (by decide) _, hs'⟩
  rw [createCStr_short _ _ _ _ hv, createImpl_fits _ hf]
  simp only
  rw [valueString_created hc hf, hw]
  refine ⟨fun h => ?_, fun x u e hu => ?_, fun e => ?_⟩
  · cases t with
    | nil => rfl
    | cons y r =>
      unfold unquote
      simp only
      rw [if_neg (by intro e; apply h; simp [e])]
  · rw [e]
    simp [unquote, isTrim_iff.1 hu]
  · rw [e]
    simp [unquote]

/-- The name of an object, the digits of a number and a truth value. -/
example (F : FloatText) : (Card.createCStr Card.empty b!"OBJECT" b!"M31" []).1.raw =
      b!"OBJECT  =                  M31                                                  " ∧
    (Card.value F (Card.createCStr Card.empty b!"OBJECT" b!"M31" []).1 .string).2 = .ok (.string b!"M31") ∧
    (Card.value F (Card.createCStr Card.empty b!"OBJECT" b!"'M 31'" b!"a/b").1 .string).2 = .ok (.string b!"M 31") ∧
    (Card.value F (Card.createCStr Card.empty b!"NAXIS" b!"2" []).1 .int).2 = .ok (.int 2#32) ∧
    (Card.value F (Card.createCStr Card.empty b!"SIMPLE" b!"T" []).1 .bool).2 = .ok (.bool true) ∧
    (Card.createCStr Card.empty b!"TELESCOP" b!"a text of 21 letters." []).2 = .error .lengthError := by
  refine ⟨by decide, ?_, ?_, by rfl, by rfl, by decide⟩
  · exact (C92_read F Card.empty b!"OBJECT" b!"M31" [] b!"M31" rfl (by decide) (by decide) (by decide) (by decide) (by decide)
      (isTrim_iff.2 (by decide))).1 (by decide)
  · exact (C92_read F Card.empty b!"OBJECT" b!"'M 31'" b!"a/b" b!"'M 31'" rfl (by decide) (by decide) (by decide) (by decide) (by decide)
      (isTrim_iff.2 (by decide))).2.1 b!"M 31" b!"M 31" (by decide) (isTrim_iff.2 (by decide))

end Astro
