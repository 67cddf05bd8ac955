import Verif.Lemmas.Str
import Verif.Spec.Text

/-
The model's string functions meet the text specifications.
-/

namespace Astro

open Spec

theorem isDigit_iff {c : Byte} : isDigit c = true ↔ 48 ≤ c.toNat ∧ c.toNat ≤ 57 := by
  simp only [isDigit, UInt8.le_iff_toNat_le, Bool.and_eq_true, decide_eq_true_eq]
  have e1 : (48 : UInt8).toNat = 48 := rfl
  have e2 : (57 : UInt8).toNat = 57 := rfl
  omega

theorem isSpace_iff {c : Byte} : isSpace c = true ↔ White c := by
  simp only [isSpace, White, UInt8.le_iff_toNat_le, Bool.and_eq_true, decide_eq_true_eq, Bool.or_eq_true, beq_iff_eq]
  have e1 : (9 : UInt8).toNat = 9 := rfl
  have e2 : (13 : UInt8).toNat = 13 := rfl
  have e3 : c = 32 ↔ c.toNat = 32 := by
    constructor
    · intro h; rw [h]; rfl
    · intro h; apply UInt8.toNat_inj.1; rw [h]; rfl
  rw [e3]; omega

theorem isSpace_false_iff {c : Byte} : isSpace c = false ↔ ¬ White c := by
  rw [← isSpace_iff]; simp

theorem trimmed_iff {s : Str} : Trimmed s ↔ NoOuterWhite s := by
  unfold Trimmed NoOuterWhite
  simp only [isSpace_false_iff]

/-- `trim` computes the specified string, and nothing else satisfies the specification. -/
theorem isTrim_iff {s t : Str} : IsTrim s t ↔ trim s = t := by
  constructor
  · rintro ⟨a, b, e, ha, hb, h1, h2⟩
    rw [e]
    exact trim_unique (fun c hc => isSpace_iff.2 (ha c hc)) (fun c hc => isSpace_iff.2 (hb c hc))
      (trimmed_iff.2 ⟨h1, h2⟩)
  · intro e
    obtain ⟨a, b, h, ha, hb, ht⟩ := trim_split s
    rw [e] at h ht
    exact ⟨a, b, h, fun c hc => isSpace_iff.1 (ha c hc), fun c hc => isSpace_iff.1 (hb c hc),
      (trimmed_iff.1 ht).1, (trimmed_iff.1 ht).2⟩

theorem positional_append (s t : Str) : positional (s ++ t) = positional s * 10 ^ t.length + positional t := by
  induction s with
  | nil => simp [positional]
  | cons c r ih =>
    simp only [List.cons_append, positional, ih, List.length_append, Nat.pow_add, Nat.add_mul, Nat.mul_assoc, Nat.add_assoc]

theorem foldl_positional (s : Str) (h : ∀ c ∈ s, isDigit c = true) : ∀ a,
    s.foldlM (fun a c => if isDigit c then some (a * 10 + (c.toNat - 48)) else none) a
      = some (a * 10 ^ s.length + positional s) := by
  induction s with
  | nil => intro a; simp [positional]
  | cons c t ih =>
    intro a
    have hc := h c (by simp)
    simp only [List.foldlM, hc, if_true, Option.bind_eq_bind, Option.bind_some]
    rw [ih (fun c hc => h c (by simp [hc]))]
    simp only [positional, List.length_cons, Nat.pow_succ, Nat.add_mul]
    congr 1
    rw [Nat.mul_assoc, Nat.mul_comm 10, Nat.add_assoc]

/-- `parseNat` succeeds exactly on non-empty digit strings and returns their positional value. -/
theorem parseNat_iff {s : Str} {n : Nat} : parseNat s = some n ↔ AllDigits s ∧ positional s = n := by
  constructor
  · intro h
    have hs : (parseNat s).isSome = true := by rw [h]; rfl
    obtain ⟨h1, h2⟩ := parseNat_isSome.1 hs
    refine ⟨⟨h1, fun c hc => isDigit_iff.1 (h2 c hc)⟩, ?_⟩
    rw [parseNat_eq h1, foldl_positional s h2 0] at h
    simpa using h
  · rintro ⟨⟨h1, h2⟩, e⟩
    rw [parseNat_eq h1, foldl_positional s (fun c hc => isDigit_iff.2 (h2 c hc)) 0]
    simp [e]

theorem positional_lt (s : Str) (h : ∀ c ∈ s, isDigit c = true) : positional s < 10 ^ s.length := by
  induction s with
  | nil => simp [positional]
  | cons c t ih =>
    have hc := isDigit_iff.1 (h c (by simp))
    have := ih (fun c hc => h c (by simp [hc]))
    simp only [positional, List.length_cons, Nat.pow_succ]
    have h9 : c.toNat - 48 ≤ 9 := by omega
    have := Nat.mul_le_mul_right (10 ^ t.length) h9
    omega

theorem showNat_head_zero (n : Nat) (h : (showNat n).head? = some 48) : showNat n = [48] := by
  induction n using Nat.strongRecOn with
  | ind n ih =>
    by_cases hn : n < 10
    · rw [showNat_small hn] at h ⊢
      simpa using h
    · exfalso
      rw [showNat_big hn] at h
      have h1 : (showNat (n / 10)).head? = some 48 := by
        cases e : showNat (n / 10) with
        | nil => exact absurd e (showNat_ne_nil _)
        | cons x t => rw [e] at h; simpa using h
      have h2 := ih (n / 10) (by omega) h1
      have h3 := parseNat_showNat (n / 10)
      rw [h2] at h3
      have h4 : parseNat [48] = some 0 := by decide
      rw [h4] at h3
      simp at h3; omega

theorem showNat_isNat (n : Nat) : IsNat (showNat n) n := by
  obtain ⟨h1, h2⟩ := parseNat_iff.1 (parseNat_showNat n)
  exact ⟨h1, h2, showNat_head_zero n⟩

theorem isNat_unique {s : Str} {n : Nat} (h : IsNat s n) : s = showNat n := by
  obtain ⟨⟨h1, h2⟩, h3, h4⟩ := h
  have hd : ∀ c ∈ s, isDigit c = true := fun c hc => isDigit_iff.2 (h2 c hc)
  clear h2
  -- induction on the length, from the right
  generalize hl : s.length = l
  induction l generalizing s n with
  | zero => exact absurd (List.length_eq_zero_iff.1 hl) h1
  | succ l ih =>
    obtain ⟨t, c, rfl⟩ : ∃ t c, s = t ++ [c] := ⟨s.dropLast, s.getLast h1, (List.dropLast_concat_getLast h1).symm⟩
    have hc := isDigit_iff.1 (hd c (by simp))
    rw [positional_append] at h3
    simp only [List.length_cons, List.length_nil, Nat.zero_add, Nat.pow_one, positional, Nat.pow_zero, Nat.mul_one,
      Nat.add_zero] at h3
    have ec : c = digitByte (c.toNat - 48) := by
      apply UInt8.toNat_inj.1
      rw [digitByte_toNat (by omega)]; omega
    cases t with
    | nil =>
      simp only [positional] at h3
      have hn : n = c.toNat - 48 := by omega
      rw [showNat_small (by omega), hn, ← ec]; rfl
    | cons x r =>
      have hx := isDigit_iff.1 (hd x (by simp))
      have hx0 : x ≠ 48 := by
        intro e
        have := h4 (by simp [e])
        have := congrArg List.length this
        simp at this
      have hx1 : x.toNat ≠ 48 := by
        intro e; apply hx0; apply UInt8.toNat_inj.1; rw [e]; rfl
      have hpos : 1 ≤ positional (x :: r) := by
        unfold positional
        have : 1 ≤ (x.toNat - 48) * 10 ^ r.length := Nat.mul_pos (by omega) (Nat.pow_pos (by omega))
        omega
      rw [showNat_big (by omega)]
      have e1 : n / 10 = positional (x :: r) := by omega
      have e2 : n % 10 = c.toNat - 48 := by omega
      rw [e1, e2, ← ec]
      congr 1
      apply ih (n := positional (x :: r)) (by simp) rfl
      · intro hh; simp at hh; exact absurd hh hx0
      · intro c hc; exact hd c (List.mem_append_left _ hc)
      · simpa using hl

theorem isNat_iff {s : Str} {n : Nat} : IsNat s n ↔ s = showNat n :=
  ⟨isNat_unique, fun h => h ▸ showNat_isNat n⟩

theorem isInt_iff {s : Str} {i : Int} : IsInt s i ↔ s = showInt i := by
  unfold IsInt
  rcases showInt_cases i with ⟨hi, e⟩ | ⟨hi, e⟩ <;> rw [e]
  · have e1 : (-i).toNat = i.natAbs := by omega
    rw [e1]
    constructor
    · rintro (⟨h, _⟩ | ⟨_, t, rfl, h⟩)
      · omega
      · rw [isNat_unique h]
    · intro h; exact Or.inr ⟨hi, _, h, showNat_isNat _⟩
  · have e1 : i.toNat = i.natAbs := by omega
    rw [e1]
    constructor
    · rintro (⟨_, h⟩ | ⟨h, _⟩)
      · exact isNat_unique h
      · omega
    · intro h; exact Or.inl ⟨hi, h ▸ showNat_isNat _⟩

theorem eq_spaces {p : Str} (h : ∀ c ∈ p, c = 32) : p = spaces p.length := by
  unfold spaces
  exact List.eq_replicate_iff.2 ⟨rfl, h⟩

theorem rightJustified_iff {w : Nat} {s r : Str} :
    rightJustified w s r ↔ s.length ≤ w ∧ r = spaces (w - s.length) ++ s := by
  constructor
  · rintro ⟨p, rfl, hp, hl⟩
    have hl' : p.length + s.length = w := by simpa using hl
    refine ⟨by omega, ?_⟩
    have : w - s.length = p.length := by omega
    rw [this, ← eq_spaces hp]
  · rintro ⟨h, rfl⟩
    exact ⟨_, rfl, fun c hc => mem_spaces hc, by simp; omega⟩

theorem leftJustified_iff {w : Nat} {s r : Str} :
    leftJustified w s r ↔ s.length ≤ w ∧ r = s ++ spaces (w - s.length) := by
  constructor
  · rintro ⟨p, rfl, hp, hl⟩
    have hl' : s.length + p.length = w := by simpa using hl
    refine ⟨by omega, ?_⟩
    have : w - s.length = p.length := by omega
    rw [this, ← eq_spaces hp]
  · rintro ⟨h, rfl⟩
    exact ⟨_, rfl, fun c hc => mem_spaces hc, by simp; omega⟩

end Astro
