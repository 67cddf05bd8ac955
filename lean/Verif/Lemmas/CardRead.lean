import Verif.Lemmas.Card

namespace Astro

open Spec Policy

theorem lexUnsigned_bad {w : Nat} {s : Str} {c : Byte} (hc : c ∈ s) (hd : isDigit c = false) (h1 : c ≠ 45) (h2 : c ≠ 43) :
    lexUnsigned w s = .error .badLexicalCast := by
  cases s with
  | nil => rfl
  | cons x r =>
    simp only [lexUnsigned]
    have : parseNat (if x = 45 ∨ x = 43 then r else x :: r) = none := by
      by_cases hx : x = 45 ∨ x = 43
      · rw [if_pos hx]
        apply parseNat_none _ hd
        rcases List.mem_cons.1 hc with h | h
        · rcases hx with hx | hx
          · exact absurd (h.trans hx) h1
          · exact absurd (h.trans hx) h2
        · exact h
      · rw [if_neg hx]; exact parseNat_none hc hd
    rw [this]

theorem lexSigned_bad {w : Nat} {s : Str} {c : Byte} (hc : c ∈ s) (hd : isDigit c = false) (h1 : c ≠ 45) (h2 : c ≠ 43) :
    lexSigned w s = .error .badLexicalCast := by
  cases s with
  | nil => rfl
  | cons x r =>
    simp only [lexSigned]
    by_cases hx : x = 45
    · rw [if_pos hx]
      have : parseNat r = none := by
        apply parseNat_none _ hd
        rcases List.mem_cons.1 hc with h | h
        · exact absurd (h.trans hx) h1
        · exact h
      rw [this]
    · rw [if_neg hx]
      have : parseNat (if x = 43 then r else x :: r) = none := by
        by_cases hx : x = 43
        · rw [if_pos hx]
          apply parseNat_none _ hd
          rcases List.mem_cons.1 hc with h | h
          · exact absurd (h.trans hx) h2
          · exact h
        · rw [if_neg hx]; exact parseNat_none hc hd
      rw [this]

/-- No number or boolean has a `'/'` in its text. -/
theorem parseTo_slash {F : FloatText} {t : Ty} {s : Str} (ht : IsIntegerTy t ∨ t = .bool) (hs : (47 : Byte) ∈ s) :
    parseTo F t s = .error .invalidCast := by
  have hu : ∀ w, lexUnsigned w s = .error .badLexicalCast := fun w => lexUnsigned_bad hs (by decide) (by decide) (by decide)
  have hi : ∀ w, lexSigned w s = .error .badLexicalCast := fun w => lexSigned_bad hs (by decide) (by decide) (by decide)
  cases t <;> simp only [IsIntegerTy, reduceCtorEq, or_self, or_false, or_true] at ht <;>
    simp [parseTo, hu, hi, recast, Except.map]
  unfold parseBool
  have h1 : s ≠ [84] := by intro e; rw [e] at hs; revert hs; decide
  have h2 : s ≠ [70] := by intro e; rw [e] at hs; revert hs; decide
  rw [if_neg h1, if_neg h2]

theorem windowText_plain {key v comment : Str} (h : comment = [] ∨ (47 : Byte) ∉ key) (hv : (47 : Byte) ∉ v) :
    windowText key v comment = trim v := by
  unfold windowText
  rcases h with h | h
  · simp [h, hv]
  · by_cases hc : comment = [] <;> simp [hc, hv, h]

theorem windowText_keyslash {key v comment : Str} (h1 : comment ≠ []) (h2 : (47 : Byte) ∈ key) :
    windowText key v comment = trim (v ++ b!" /" ++ comment) := by
  unfold windowText; simp [h1, h2]

theorem mem_trim_of_mem {s : Str} {c : Byte} (hc : isSpace c = false) (h : c ∈ s) : c ∈ trim s := by
  rw [← List.one_le_count_iff, count_trim hc]
  exact List.one_le_count_iff.2 h

theorem slash_mem_keyslash (v comment : Str) : (47 : Byte) ∈ trim (v ++ b!" /" ++ comment) :=
  mem_trim_of_mem (by decide) (by simp)

/-- First space of `a ++ spaces (q+1) ++ b` when `a` has none. -/
theorem findIdx_space {a r : Str} (ha : (32 : Byte) ∉ a) : (a ++ 32 :: r).findIdx? (· == 32) = some a.length := by
  rw [List.findIdx?_eq_some_iff_getElem]
  refine ⟨by simp, by simp, ?_⟩
  intro j hj
  rw [List.getElem_append_left hj]
  intro e
  apply ha
  have : a[j] = 32 := by simpa using e
  rw [← this]; exact List.getElem_mem _

theorem findIdx_nospace {a : Str} (ha : (32 : Byte) ∉ a) : a.findIdx? (· == 32) = none := by
  rw [List.findIdx?_eq_none_iff]
  intro x hx
  simp only [beq_eq_false_iff_ne]
  intro e; exact ha (e ▸ hx)

theorem parseComplex_split {α : Type} {parse : Str → Res α} {a r : Str} (ha : (32 : Byte) ∉ a) :
    parseComplex parse (a ++ 32 :: r) = (do let x ← parse a; let y ← parse r; return (x, y)) := by
  unfold parseComplex
  rw [findIdx_space ha]
  simp only [List.take_left]
  have : (a ++ 32 :: r).drop (a.length + 1) = r := by
    rw [show a ++ 32 :: r = (a ++ [32]) ++ r by simp]
    exact List.drop_left' (by simp)
  rw [this]

/-- The imaginary part does not parse: the outcome is the cast error. -/
theorem parseComplex_bad {α : Type} {parse : Str → Res α} {s : Str}
    (h : ∀ a r, s = a ++ 32 :: r → (32 : Byte) ∉ a → (∀ e, parse a = .error e → e = .invalidCast) ∧ parse r = .error .invalidCast) :
    parseComplex parse s = .error .invalidCast := by
  by_cases hs : (32 : Byte) ∈ s
  · obtain ⟨a, r, e, hn⟩ := split_first hs
    rw [e, parseComplex_split hn]
    obtain ⟨h1, h2⟩ := h a r e hn
    cases hp : parse a with
    | error x => simp only [bind, Except.bind, h1 x hp]
    | ok x => simp only [bind, Except.bind, h2]
  · unfold parseComplex; rw [findIdx_nospace hs]

theorem recast_error {w : Nat} {s : Str} {e : Err} (h : recast (lexUnsigned w s) = .error e) : e = .invalidCast := by
  unfold lexUnsigned at h
  repeat' split at h
  all_goals simp_all [recast]

theorem recast_error_signed {w : Nat} {s : Str} {e : Err} (h : recast (lexSigned w s) = .error e) : e = .invalidCast := by
  unfold lexSigned at h
  repeat' split at h
  all_goals simp_all [recast]

theorem countP_trim {p : Byte → Bool} (hp : ∀ c, p c = true → isSpace c = false) (s : Str) :
    (trim s).countP p = s.countP p := by
  obtain ⟨a, b, e, h1, h2, _⟩ := trim_split s
  have ha : a.countP p = 0 := List.countP_eq_zero.2 (fun c h hc => by have := h1 c h; simp [hp c hc] at this)
  have hb : b.countP p = 0 := List.countP_eq_zero.2 (fun c h hc => by have := h2 c h; simp [hp c hc] at this)
  conv => rhs; rw [e]
  simp [List.countP_append, ha, hb]

theorem countP_dropLast (p : Byte → Bool) (s : Str) : s.countP p ≤ s.dropLast.countP p + 1 := by
  by_cases h : s = []
  · simp [h]
  · conv => lhs; rw [← List.dropLast_concat_getLast h]
    rw [List.countP_append]
    have : [s.getLast h].countP p ≤ 1 := by simpa using List.countP_le_length (p := p) (l := [s.getLast h])
    omega

/-- String value of a trimmed value field. -/
def unquote : Str → Res Val
  | [] => .ok (.string [])
  | x :: r => if x = 39 then (if r.isEmpty then .error .ub else .ok (.string (trim r.dropLast)))
              else .ok (.string (x :: r))

/-- The outcome of the first read of a created card as a string. -/
theorem valueString_created {F : FloatText} {c : Card} {key s comment : Str} (hc : c.cache = none)
    (h : Fits key s comment) :
    (Card.value F { c with raw := fullCard key s comment } .string).2 =
      unquote (windowText key s comment) := by
  obtain ⟨x, hx, hw⟩ := extract_created h
  unfold Card.value
  simp only [hc]
  have : Card.valueImp F (fullCard key s comment) .string =
      unquote (windowText key s comment) := by
    unfold Card.valueImp
    rw [hx]
    simp only [bind, Except.bind, hw]
    cases windowText key s comment <;> rfl
  rw [this]
  cases windowText key s comment with
  | nil => rfl
  | cons y r =>
    simp only [unquote]
    by_cases hy : y = 39
    · simp only [hy, if_true]
      by_cases hr : r.isEmpty = true <;> simp [hr]
    · simp [hy]

theorem quoted_trimmed (s : Str) : Trimmed (39 :: s ++ [39]) := by
  refine ⟨?_, ?_⟩
  · intro c hc; simp at hc; rw [← hc]; decide
  · intro c hc
    rw [List.getLast?_concat] at hc
    simp at hc; rw [← hc]; decide

end Astro
