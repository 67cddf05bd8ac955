import Verif.Lemmas.Stats

/-
Values of pixels, and the largest one.
-/

namespace Astro

open Spec Time FloatFmt

attribute [local irreducible] FloatFmt.nearest FloatFmt.value

theorem signBit_pow (f : FloatFmt) : f.signBit = 2 ^ (f.frac + f.expo) := rfl

theorem infinity_eq (f : FloatFmt) : (2 ^ f.expo - 1) * 2 ^ f.frac = f.infinity := rfl

/-- Bits with a sign, taken apart. -/
theorem number_signed (f : FloatFmt) (neg : Bool) {n : Nat} (h : n < f.signBit) :
    f.number (signed f neg n) = if n < f.infinity then .num (if neg then -f.value n else f.value n) else if n = f.infinity then .inf neg else .nan := by
  unfold FloatFmt.number signed
  rw [← signBit_pow]
  have hp : 0 < f.signBit := by omega
  cases neg with
  | false =>
    have e : ¬ f.signBit ≤ n := by omega
    simp [Nat.mod_eq_of_lt h, e]
  | true => simp [Nat.add_mod_left, Nat.mod_eq_of_lt h]

theorem stands_iff {f : FloatFmt} {b : Nat} (h : b < 2 * f.signBit) {x : ℚ} : Stands f b x ↔ f.number b = .num x := by
  obtain ⟨neg, n, hn, rfl⟩ := signed_cases f h
  rw [number_signed f neg hn]
  constructor
  · rintro ⟨neg', n', y, e, hm, rfl⟩
    obtain ⟨h1, rfl⟩ := magnitude_iff.1 hm
    obtain ⟨rfl, rfl⟩ := signed_inj hn (h1.trans (infinity_lt f)) e
    rw [if_pos h1]
  · intro e
    by_cases h1 : n < f.infinity
    · rw [if_pos h1] at e
      exact ⟨neg, n, f.value n, rfl, magnitude_iff.2 ⟨h1, rfl⟩, by simpa using e.symm⟩
    · rw [if_neg h1] at e
      split at e <;> simp at e

theorem infinite_iff {f : FloatFmt} {b : Nat} (h : b < 2 * f.signBit) {neg : Bool} : IsInfinite f neg b ↔ f.number b = .inf neg := by
  obtain ⟨neg', n, hn, rfl⟩ := signed_cases f h
  rw [number_signed f neg' hn]
  unfold IsInfinite
  rw [infinity_eq]
  constructor
  · intro e
    obtain ⟨rfl, rfl⟩ := signed_inj hn (infinity_lt f) e
    simp
  · intro e
    by_cases h1 : n < f.infinity
    · rw [if_pos h1] at e
      simp at e
    · rw [if_neg h1] at e
      by_cases h2 : n = f.infinity
      · rw [if_pos h2] at e
        simp only [Dbl.inf.injEq] at e
        rw [e, h2]
      · rw [if_neg h2] at e
        simp at e

theorem nan_iff {f : FloatFmt} {b : Nat} (h : b < 2 * f.signBit) : NotANumber f b ↔ f.number b = .nan := by
  obtain ⟨neg', n, hn, rfl⟩ := signed_cases f h
  rw [number_signed f neg' hn]
  unfold NotANumber
  rw [infinity_eq, ← signBit_pow]
  constructor
  · rintro ⟨neg, m, e, h1, h2⟩
    obtain ⟨rfl, rfl⟩ := signed_inj hn h1 e
    rw [if_neg (by omega), if_neg (by omega)]
  · intro e
    refine ⟨neg', n, rfl, hn, ?_⟩
    by_cases h1 : n < f.infinity
    · rw [if_pos h1] at e
      simp at e
    · rw [if_neg h1] at e
      by_cases h2 : n = f.infinity
      · rw [if_pos h2] at e
        simp at e
      · omega

theorem single_bits (p : BitVec (8 * Bitpix.F32.size)) : p.toNat < 2 * FloatFmt.single.signBit :=
  p.isLt.trans_eq (by decide)

theorem double_bits (p : BitVec (8 * Bitpix.F64.size)) : p.toNat < 2 * FloatFmt.double.signBit :=
  p.isLt.trans_eq (by decide)

theorem pixelValue_iff {b : Bitpix} {p : BitVec (8 * b.size)} {x : ℚ} : PixelValue b p x ↔ b.number p = .num x := by
  cases b with
  | F32 => exact stands_iff (single_bits p)
  | F64 => exact stands_iff (double_bits p)
  | _ => simp [PixelValue, pixelFormat, Bitpix.number, eq_comm]

theorem pixelInfinite_iff {b : Bitpix} {p : BitVec (8 * b.size)} {neg : Bool} : PixelInfinite b neg p ↔ b.number p = .inf neg := by
  cases b with
  | F32 => simpa [PixelInfinite, pixelFormat, Bitpix.number] using infinite_iff (single_bits p)
  | F64 => simpa [PixelInfinite, pixelFormat, Bitpix.number] using infinite_iff (double_bits p)
  | _ => simp [PixelInfinite, pixelFormat, Bitpix.number]

theorem pixelNaN_iff {b : Bitpix} {p : BitVec (8 * b.size)} : PixelNaN b p ↔ b.number p = .nan := by
  cases b with
  | F32 => simpa [PixelNaN, pixelFormat, Bitpix.number] using nan_iff (single_bits p)
  | F64 => simpa [PixelNaN, pixelFormat, Bitpix.number] using nan_iff (double_bits p)
  | _ => simp [PixelNaN, pixelFormat, Bitpix.number]

theorem pixelLess_iff {b : Bitpix} {p q : BitVec (8 * b.size)} : PixelLess b p q ↔ (b.number p).less (b.number q) = true := by
  unfold PixelLess
  simp only [pixelValue_iff, pixelInfinite_iff]
  cases h : b.number p <;> cases h' : b.number q <;> simp [Dbl.less]

theorem less_ok {a b : Dbl} (h : a.less b = true) : a ≠ .nan ∧ b ≠ .nan := by
  cases a <;> cases b <;> simp_all [Dbl.less]

theorem less_trans {a b c : Dbl} (h : a.less b = true) (h' : b.less c = true) : a.less c = true := by
  cases a <;> cases b <;> cases c <;> simp_all [Dbl.less]
  linarith

theorem less_split {a b c : Dbl} (h : a.less c = true) (hb : b ≠ .nan) : a.less b = true ∨ b.less c = true := by
  cases a <;> cases b <;> cases c <;> simp_all [Dbl.less]
  next x y z => exact lt_or_ge x y |>.imp_right fun h2 => by linarith

theorem single_isDouble {n : Nat} (h : n < FloatFmt.single.infinity) : IsDouble (FloatFmt.single.value n) := by
  have hf : FloatFmt.single.frac = 23 := rfl
  have hl : FloatFmt.single.lowest = -149 := by norm_num [lowest, single]
  have hi : FloatFmt.single.infinity = 255 * 2 ^ 23 := by norm_num [infinity, single]
  rw [hi] at h
  unfold FloatFmt.value FloatFmt.units
  rw [hf, hl]
  have hq : n / 2 ^ 23 < 255 := Nat.div_lt_of_lt_mul (by omega)
  split
  · next h0 =>
    have := isDouble_mul n (-149) (by rw [abs_of_nonneg (by positivity)]; norm_num; omega) (by norm_num) (by norm_num)
    exact_mod_cast this
  · next h0 =>
    generalize n / 2 ^ 23 = q at *
    have hm : n % 2 ^ 23 < 2 ^ 23 := Nat.mod_lt _ (by norm_num)
    generalize n % 2 ^ 23 = m at *
    have := isDouble_mul (2 ^ 23 + m : ℕ) ((q - 1 : ℕ) + -149) (by rw [abs_of_nonneg (by positivity)]; norm_num; omega) (by omega) (by omega)
    rw [zpow_split_nat rfl, ← mul_assoc] at this
    exact_mod_cast this

theorem number_isDouble {b : Bitpix} {p : BitVec (8 * b.size)} {x : ℚ} (h : b.number p = .num x) : IsDouble x := by
  have ints : ∀ {w : Nat} (p : BitVec w), w ≤ 32 → IsDouble (p.toInt : ℚ) := by
    intro w p hw
    apply isDouble_int
    have h1 := BitVec.toInt_lt (x := p)
    have h2 := BitVec.le_toInt (x := p)
    have h3 : (2 : ℤ) ^ (w - 1) ≤ 2 ^ 53 := pow_le_pow_right₀ (by norm_num) (by omega)
    rw [abs_le]
    constructor <;> linarith
  cases b with
  | F32 =>
    obtain ⟨neg, n, hn, e⟩ := signed_cases .single (single_bits p)
    rw [show Bitpix.F32.number p = FloatFmt.single.number p.toNat from rfl, e, number_signed _ _ hn] at h
    split at h
    · next h1 =>
      have := single_isDouble h1
      cases neg
      · simp at h; rwa [← h]
      · simp at h; rw [← h]; exact isDouble_neg this
    · split at h <;> simp at h
  | F64 =>
    obtain ⟨neg, n, hn, e⟩ := signed_cases .double (double_bits p)
    rw [show Bitpix.F64.number p = FloatFmt.double.number p.toNat from rfl, e, number_signed _ _ hn] at h
    split at h
    · next h1 =>
      have : IsDouble (FloatFmt.double.value n) := isDouble_iff.2 ⟨n, h1, abs_of_nonneg (value_nonneg _ _)⟩
      cases neg
      · simp at h; rwa [← h]
      · simp at h; rw [← h]; exact isDouble_neg this
    · split at h <;> simp at h
  | B8 =>
    have e : x = _ := (Dbl.num.inj h).symm
    rw [e]
    exact ints (w := 8) p (by norm_num)
  | B16 =>
    have e : x = _ := (Dbl.num.inj h).symm
    rw [e]
    exact ints (w := 16) p (by norm_num)
  | B32 =>
    have e : x = _ := (Dbl.num.inj h).symm
    rw [e]
    exact ints (w := 32) p (by norm_num)

/-- A relation to look for the first extreme element with. -/
structure Order (α : Type) where
  lt : α → α → Bool
  ok : α → Prop
  left : ∀ {a b}, lt a b = true → ok a ∧ ok b
  trans : ∀ {a b c}, lt a b = true → lt b c = true → lt a c = true
  split : ∀ {a b c}, lt a c = true → ok b → lt a b = true ∨ lt b c = true

/-- The first extreme element. -/
def Order.First {α : Type} (R : Order α) (l : List α) (m : α) : Prop :=
  ∃ pre post, l = pre ++ m :: post ∧ R.ok m ∧ (∀ p ∈ pre, ¬ R.ok p ∨ R.lt p m = true) ∧ ∀ p ∈ post, ¬ R.lt m p = true

theorem Order.first_unique {α : Type} (R : Order α) {l : List α} {m m' : α} (h : R.First l m) (h' : R.First l m') : m = m' := by
  obtain ⟨pre, post, rfl, hm, h1, h2⟩ := h
  obtain ⟨pre', post', e, hm', h1', h2'⟩ := h'
  rcases List.append_eq_append_iff.1 e with ⟨t, rfl, h⟩ | ⟨t, rfl, h⟩
  · cases t with
    | nil => simp at h; exact h.1
    | cons y t =>
      simp only [List.cons_append, List.cons.injEq] at h
      obtain ⟨rfl, rfl⟩ := h
      rcases h1' m (by simp) with h3 | h3
      · exact absurd hm h3
      · exact absurd h3 (h2 m' (by simp))
  · cases t with
    | nil => simp at h; exact h.1.symm
    | cons y t =>
      simp only [List.cons_append, List.cons.injEq] at h
      obtain ⟨rfl, rfl⟩ := h
      rcases h1 m' (by simp) with h3 | h3
      · exact absurd hm' h3
      · exact absurd h3 (h2' m (by simp))

theorem Order.fold_first {α : Type} (R : Order α) (x : α) (hx : R.ok x) (t : List α) :
    R.First (x :: t) (t.foldl (fun m y => if R.lt m y = true then y else m) x) := by
  induction t using List.reverseRecOn with
  | nil => exact ⟨[], [], rfl, hx, by simp, by simp⟩
  | append_singleton t y ih =>
    rw [List.foldl_append, List.foldl_cons, List.foldl_nil]
    generalize List.foldl _ x t = m at *
    obtain ⟨pre, post, e, hm, h1, h2⟩ := ih
    rw [← List.cons_append, e]
    by_cases h : R.lt m y = true
    · rw [if_pos h]
      refine ⟨pre ++ m :: post, [], rfl, (R.left h).2, ?_, by simp⟩
      intro p hp
      simp only [List.mem_append, List.mem_cons] at hp
      rcases hp with hp | rfl | hp
      · exact (h1 p hp).imp_right fun h3 => R.trans h3 h
      · exact .inr h
      · by_cases ho : R.ok p
        · exact .inr ((R.split h ho).resolve_left (h2 p hp))
        · exact .inl ho
    · rw [if_neg h]
      refine ⟨pre, post ++ [y], by simp, hm, h1, ?_⟩
      intro p hp
      simp only [List.mem_append, List.mem_singleton] at hp
      rcases hp with hp | rfl
      · exact h2 p hp
      · exact h

theorem Order.fold_bad {α : Type} (R : Order α) (x : α) (hx : ¬ R.ok x) (t : List α) :
    t.foldl (fun m y => if R.lt m y = true then y else m) x = x := by
  induction t with
  | nil => rfl
  | cons y t ih =>
    have h : ¬ R.lt x y = true := fun h => hx (R.left h).1
    rw [List.foldl_cons, if_neg h, ih]

/-- Pixels from small to large. -/
def up (b : Bitpix) : Order (BitVec (8 * b.size)) where
  lt p q := (b.number p).less (b.number q)
  ok p := ¬ b.number p = .nan
  left := less_ok
  trans := less_trans
  split := less_split

/-- Pixels from large to small. -/
def down (b : Bitpix) : Order (BitVec (8 * b.size)) where
  lt p q := (b.number q).less (b.number p)
  ok p := ¬ b.number p = .nan
  left h := (less_ok h).symm
  trans h h' := less_trans h' h
  split h hb := (less_split h hb).symm

end Astro
