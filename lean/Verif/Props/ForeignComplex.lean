import Verif.Props.ForeignCard

/-
Property C148, complex numbers on cards of other programs.
-/

namespace Astro

open Spec Policy Header

/-- No number begins with a parenthesis. -/
theorem reads_paren {f : FloatFmt} {t : Str} {b : Nat} : ¬ Reads f (40 :: t) b := by
  rintro ⟨sg, r, neg, n, e, hs, -, hr⟩
  have hr' : ∃ y u, r = y :: u ∧ y ≠ 40 := by
    rcases hr with hr | ⟨q, hq, -⟩
    · obtain ⟨y, u, rfl, hy⟩ := special_head hr
      exact ⟨y, u, rfl, by rintro rfl; revert hy; decide⟩
    · obtain ⟨y, u, rfl, hy⟩ := numeral_head hq
      exact ⟨y, u, rfl, by rintro rfl; revert hy; decide⟩
  obtain ⟨y, u, rfl, hy⟩ := hr'
  rcases hs with ⟨rfl, -⟩ | ⟨rfl, -⟩ | ⟨rfl, -⟩ <;> simp only [List.nil_append, List.cons_append, List.cons.injEq] at e
  · exact hy e.1.symm
  · exact absurd e.1 (by decide)
  · exact absurd e.1 (by decide)

theorem parseComplex_paren {α : Type} {parse : Str → Res α} (h : ∀ t, parse (40 :: t) = .error .invalidCast) (s : Str) :
    parseComplex parse (40 :: s) = .error .invalidCast := by
  unfold parseComplex
  cases hi : (40 :: s).findIdx? (· == 32) with
  | none => rfl
  | some i =>
    obtain ⟨j, rfl⟩ : ∃ j, i = j + 1 := by
      cases i with
      | zero =>
        exfalso
        rw [List.findIdx?_cons] at hi
        have : ((40 : Byte) == 32) = false := by decide
        rw [this] at hi
        simp at hi
      | succ j => exact ⟨j, rfl⟩
    simp only [List.take_succ_cons]
    rw [h]; rfl

theorem trim_paren {s v : Str} (h : trim v = trim (40 :: s)) : ∃ u, trim v = 40 :: u := by
  obtain ⟨a, b, e, ha, hb, -, -⟩ : IsTrim (40 :: s) (trim v) := isTrim_iff.2 h.symm
  have h40 : ¬ White 40 := by rintro (h | ⟨_, h⟩) <;> revert h <;> decide
  cases a with
  | cons c a => exact absurd (ha c List.mem_cons_self) (by rw [← (List.cons.inj e).1]; exact h40)
  | nil =>
    cases ht : trim v with
    | nil =>
      rw [ht] at e
      cases b with
      | nil => cases e
      | cons c b => exact absurd (hb c List.mem_cons_self) (by rw [← (List.cons.inj e).1]; exact h40)
    | cons c u =>
      rw [ht] at e
      exact ⟨u, by rw [← (List.cons.inj e).1]⟩

/-- **C148** Complex numbers as the standard writes them, `(re, im)`, are refused whatever they are: the library has no parentheses in its own notation (which it cannot read back
either, C07 and C99). -/
theorem C148_complex (raw x : Str) (gap : Nat) (comment : Option Str) (hc : ValueCard raw (40 :: x) gap comment) (hs : slash ∉ x) (hx : x ≠ []) (t : Ty)
    (ht : t = .cint ∨ t = .csizeT ∨ t = .cfloat ∨ t = .cdouble) : (Card.value ieeeText ⟨raw, none⟩ t).2 = .error .invalidCast := by
  have hsl : slash ∉ 40 :: x := by simpa using ⟨by decide, hs⟩
  have key : ∃ v u, extractValue raw = .ok v ∧ trim v = 40 :: u := by
    by_cases ha : Apart gap comment
    · obtain ⟨v, h1, h2⟩ := extract_apart hc hsl ha
      obtain ⟨u, hu⟩ := trim_paren h2
      exact ⟨v, u, h1, hu⟩
    · unfold Apart at ha
      rw [not_or] at ha
      obtain ⟨c, rfl⟩ := Option.ne_none_iff_exists'.1 ha.1
      obtain rfl : gap = 0 := by omega
      obtain ⟨v, h1, h2⟩ := extract_tight hc hsl (by simp)
      rw [List.dropLast_cons_of_ne_nil hx] at h2
      obtain ⟨u, hu⟩ := trim_paren h2
      exact ⟨v, u, h1, hu⟩
  obtain ⟨v, u, h1, h2⟩ := key
  have hd : isDigit 40 = false := by decide
  rw [value_fresh, valueImp_of (by rcases ht with rfl | rfl | rfl | rfl <;> decide) h1 h2]
  rcases ht with rfl | rfl | rfl | rfl <;> simp only [parseTo]
  · rw [parseComplex_paren fun t => by rw [lexSigned_bad List.mem_cons_self hd (by decide) (by decide)]; rfl]; rfl
  · rw [parseComplex_paren fun t => by rw [lexUnsigned_bad List.mem_cons_self hd (by decide) (by decide)]; rfl]; rfl
  · rw [parseComplex_paren fun t => by
      cases h : ieeeText.parse32 (40 :: t) with
      | none => rfl
      | some v => exact absurd (parse32_iff.1 h) reads_paren]
    rfl
  · rw [parseComplex_paren fun t => by
      cases h : ieeeText.parse64 (40 :: t) with
      | none => rfl
      | some v => exact absurd (parse64_iff.1 h) reads_paren]
    rfl

/-- One such card. -/
example : (Card.value ieeeText ⟨exForeign b!"IMPEDANC= (50.0, 1.5) / ohm", none⟩ .cdouble).2 = .error .invalidCast :=
  C148_complex _ b!"50.0, 1.5)" 1 (some (b!" ohm" ++ List.replicate 53 32)) ⟨b!"IMPEDANC", 0, by decide, by decide, by decide, by decide⟩ (by decide) (by decide) _
    (.inr (.inr (.inr rfl)))

end Astro
