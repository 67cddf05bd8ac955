import Mathlib.Tactic.Linarith
import Mathlib.Tactic.Ring
import Verif.Lemmas.Decimal
import Verif.Lemmas.Text
import Verif.Model.Print
import Verif.Spec.Print

/-
Helper lemmas about printed text.
-/

namespace Astro

open Astro.Time

/-- The first occurrence of a byte splits a text. -/
theorem comma_split {c : Byte} : ∀ {a b x y : Str}, c ∉ a → c ∉ b → a ++ c :: x = b ++ c :: y → a = b ∧ x = y
  | [], [], _, _, _, _, h => ⟨rfl, (List.cons.inj h).2⟩
  | [], d :: b, _, _, _, hb, h => absurd (List.cons.inj h).1 (fun e => hb (by rw [e]; simp))
  | d :: a, [], _, _, ha, _, h => absurd (List.cons.inj h).1 (fun e => ha (by rw [e]; simp))
  | d :: a, e :: b, x, y, ha, hb, h => by
    obtain ⟨h1, h2⟩ := List.cons.inj h
    obtain ⟨h3, h4⟩ := comma_split (fun hc => ha (List.mem_cons_of_mem _ hc)) (fun hc => hb (List.mem_cons_of_mem _ hc)) h2
    exact ⟨by rw [h1, h3], h4⟩

/-- The millionths that are printed. -/
def millionths (x : ℚ) : Nat := (roundEven (|x| * 1000000)).toNat

theorem millionths_near (x : ℚ) : abs ((millionths x : ℚ) / 10 ^ 6 - |x|) ≤ 1 / 2 / 10 ^ 6 := by
  have hn := roundEven_nonneg (x := |x| * 1000000) (by positivity)
  have h := roundEven_near (|x| * 1000000)
  have e : ((millionths x : ℕ) : ℚ) = (roundEven (|x| * 1000000) : ℚ) := by
    rw [millionths]
    exact_mod_cast Int.toNat_of_nonneg hn
  rw [e]
  rw [abs_le] at h ⊢
  constructor <;> linarith

theorem fixed6_spec (x : ℚ) : Spec.Fixed6 (fixed6 x) (x < 0) (millionths x) := by
  obtain ⟨h1, h2, h3⟩ := zeroPad_spec (w := 6) (n := millionths x % 10 ^ 6) (by norm_num) (Nat.mod_lt _ (by norm_num))
  refine ⟨_, _, _, rfl, ?_, showNat_isNat _, h2, h1, h3⟩
  by_cases h : x < 0
  · exact Or.inl ⟨h, if_pos h⟩
  · exact Or.inr ⟨h, if_neg h⟩

theorem not_mem_digits {c : Byte} {s : Str} (h : Spec.AllDigits s) (hc : c.toNat < 48 ∨ 57 < c.toNat) : c ∉ s := fun hm => by
  have := h.2 c hm
  omega

/-- A numeral means one number. -/
theorem fixed6_unique {s : Str} {p q : Prop} {m n : Nat} (h : Spec.Fixed6 s p m) (h' : Spec.Fixed6 s q n) : (p ↔ q) ∧ m = n := by
  obtain ⟨sg, a, f, e, hs, ha, hf, hl, hp⟩ := h
  obtain ⟨sg', a', f', e', hs', ha', hf', hl', hp'⟩ := h'
  have hd : ∀ (sg a f : Str) (p : Prop) (m : Nat), p ∧ sg = b!"-" ∨ ¬ p ∧ sg = [] → Spec.IsNat a m → (45 : Byte) ∈ (sg ++ a) → p := by
    rintro sg a f p m (⟨hp, rfl⟩ | ⟨hp, rfl⟩) ha hm
    · exact hp
    · exact absurd hm (not_mem_digits ha.1 (by decide))
  have hdot : ∀ (sg a : Str) (p : Prop) (m : Nat), p ∧ sg = b!"-" ∨ ¬ p ∧ sg = [] → Spec.IsNat a m → (46 : Byte) ∉ (sg ++ a) := by
    rintro sg a p m (⟨hp, rfl⟩ | ⟨hp, rfl⟩) ha hm
    · rcases List.mem_append.1 hm with hm | hm
      · revert hm
        decide
      · exact not_mem_digits ha.1 (by decide) hm
    · exact not_mem_digits ha.1 (by decide) hm
  rw [e] at e'
  have e2 : (sg ++ a) ++ 46 :: f = (sg' ++ a') ++ 46 :: f' := by simpa using e'
  obtain ⟨e3, rfl⟩ := comma_split (hdot sg a p _ hs ha) (hdot sg' a' q _ hs' ha') e2
  have hpq : p ↔ q := by
    constructor
    · intro hh
      refine hd sg' a' f q _ hs' ha' ?_
      rw [← e3]
      rcases hs with ⟨-, rfl⟩ | ⟨hn, -⟩
      · simp
      · exact absurd hh hn
    · intro hh
      refine hd sg a f p _ hs ha ?_
      rw [e3]
      rcases hs' with ⟨-, rfl⟩ | ⟨hn, -⟩
      · simp
      · exact absurd hh hn
  have esg : sg = sg' := by
    rcases hs with ⟨h1, rfl⟩ | ⟨h1, rfl⟩ <;> rcases hs' with ⟨h2, rfl⟩ | ⟨h2, rfl⟩
    · rfl
    · exact absurd (hpq.1 h1) h2
    · exact absurd (hpq.2 h2) h1
    · rfl
  rw [esg] at e3
  have ea := List.append_cancel_left e3
  refine ⟨hpq, ?_⟩
  have e4 : m / 10 ^ 6 = n / 10 ^ 6 := by rw [← ha.2.1, ← ha'.2.1, ea]
  have e5 : m % 10 ^ 6 = n % 10 ^ 6 := hp.symm.trans hp'
  rw [← Nat.div_add_mod m (10 ^ 6), ← Nat.div_add_mod n (10 ^ 6), e4, e5]

/-- The text of a decimal hour can be taken apart in one way only. -/
theorem hour_text_unique {H M S H' M' S' : Str} {h m h' m' : ℤ} (hH : Spec.IsInt H h) (hM : Spec.IsInt M m) (hH' : Spec.IsInt H' h') (hM' : Spec.IsInt M' m')
    (e : b!"Hours: " ++ H ++ b!"h " ++ M ++ b!"m " ++ S ++ b!"s " = b!"Hours: " ++ H' ++ b!"h " ++ M' ++ b!"m " ++ S' ++ b!"s ") :
    h = h' ∧ m = m' ∧ S = S' := by
  have hne : ∀ {s : Str} {i : ℤ}, Spec.IsInt s i → (104 : Byte) ∉ s ∧ (109 : Byte) ∉ s := by
    intro s i h
    rw [isInt_iff] at h
    rw [h]
    exact ⟨showInt_not_mem (by decide) (by decide) i, showInt_not_mem (by decide) (by decide) i⟩
  have hinj : ∀ {s : Str} {i j : ℤ}, Spec.IsInt s i → Spec.IsInt s j → i = j := by
    rintro s i j (⟨h1, h2⟩ | ⟨h1, t, rfl, h2⟩) (⟨h3, h4⟩ | ⟨h3, t', e, h4⟩)
    · have := h2.2.1.symm.trans h4.2.1
      omega
    · rw [e] at h2
      exact absurd (List.mem_cons_self) (not_mem_digits h2.1 (c := 45) (by decide))
    · exact absurd (List.mem_cons_self) (not_mem_digits h4.1 (c := 45) (by decide))
    · obtain rfl := (List.cons.inj e).2
      have := h2.2.1.symm.trans h4.2.1
      omega
  have e' : H ++ 104 :: ((32 :: M) ++ 109 :: (32 :: (S ++ b!"s "))) = H' ++ 104 :: ((32 :: M') ++ 109 :: (32 :: (S' ++ b!"s "))) := by
    simpa using e
  obtain ⟨e1, e2⟩ := comma_split (hne hH).1 (hne hH').1 e'
  obtain ⟨e3, e4⟩ := comma_split (by simp [(hne hM).2]) (by simp [(hne hM').2]) e2
  have e5 := (List.cons.inj e3).2
  refine ⟨hinj hH (e1 ▸ hH'), hinj hM (e5 ▸ hM'), List.append_cancel_right (List.cons.inj e4).2⟩

end Astro
