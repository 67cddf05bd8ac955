import Verif.Lemmas.FloatRound

/-
Helper lemmas: reading decimal numerals.
-/

namespace Astro

open Spec

theorem takeSign_eq (s : Str) : ∃ sg, Sign sg (takeSign s).1 ∧ s = sg ++ (takeSign s).2 := by
  cases s with
  | nil => exact ⟨[], Or.inl ⟨rfl, rfl⟩, rfl⟩
  | cons c r =>
    simp only [takeSign]
    by_cases h1 : c = 45
    · exact ⟨b!"-", Or.inr (Or.inr ⟨rfl, by rw [if_pos h1]⟩), by rw [if_pos h1, h1]; rfl⟩
    · by_cases h2 : c = 43
      · exact ⟨b!"+", Or.inr (Or.inl ⟨rfl, by rw [if_neg h1, if_pos h2]⟩), by rw [if_neg h1, if_pos h2, h2]; rfl⟩
      · exact ⟨[], Or.inl ⟨rfl, by rw [if_neg h1, if_neg h2]⟩, by rw [if_neg h1, if_neg h2]; rfl⟩

theorem takeSign_of {sg r : Str} {neg : Bool} (h : Sign sg neg) (hr : ∀ c, r.head? = some c → c ≠ 45 ∧ c ≠ 43) : takeSign (sg ++ r) = (neg, r) := by
  rcases h with ⟨rfl, rfl⟩ | ⟨rfl, rfl⟩ | ⟨rfl, rfl⟩
  · cases r with
    | nil => rfl
    | cons c r =>
      have := hr c rfl
      simp only [List.nil_append, takeSign]
      rw [if_neg this.1, if_neg this.2]
  · rfl
  · rfl

theorem digit_not_sign {s : Str} (h : ∀ c ∈ s, 48 ≤ c.toNat ∧ c.toNat ≤ 57) : ∀ c, s.head? = some c → c ≠ 45 ∧ c ≠ 43 := by
  intro c hc
  have hm := h c (List.mem_of_mem_head? hc)
  constructor <;> rintro rfl <;> revert hm <;> decide

theorem scanExponent_iff {s : Str} {e : ℤ} : scanExponent s = some e ↔ Exponent s e := by
  cases s with
  | nil =>
    simp only [scanExponent, Option.some.injEq]
    constructor
    · rintro rfl; exact Or.inl ⟨rfl, rfl⟩
    · rintro (⟨-, rfl⟩ | ⟨c, sg, d, neg, h, -⟩)
      · rfl
      · simp at h
  | cons c r =>
    simp only [scanExponent]
    constructor
    · intro h
      by_cases hc : c = 101 ∨ c = 69
      · rw [if_pos hc] at h
        obtain ⟨sg, h1, h2⟩ := takeSign_eq r
        cases hp : parseNat (takeSign r).2 with
        | none => rw [hp] at h; cases h
        | some n =>
          rw [hp] at h
          obtain ⟨h3, h4⟩ := parseNat_iff.1 hp
          refine Or.inr ⟨c, sg, _, _, ?_, hc, h1, h3, ?_⟩
          · rw [List.cons_append, ← h2]
          · rw [h4]; exact (Option.some.inj h).symm
      · rw [if_neg hc] at h; cases h
    · rintro (⟨h, -⟩ | ⟨c', sg, d, neg, h, hc, hs, hd, he⟩)
      · cases h
      · rw [List.cons_append] at h
        obtain ⟨rfl, rfl⟩ := List.cons.inj h
        rw [if_pos hc, takeSign_of hs (digit_not_sign hd.2)]
        have : parseNat d = some (positional d) := parseNat_iff.2 ⟨hd, rfl⟩
        simp only [this]
        rw [he]

theorem takeWhile_digits {a r : Str} (ha : ∀ c ∈ a, isDigit c = true) (hr : ∀ c, r.head? = some c → isDigit c = false) :
    (a ++ r).takeWhile isDigit = a ∧ (a ++ r).dropWhile isDigit = r := by
  induction a with
  | nil =>
    cases r with
    | nil => exact ⟨rfl, rfl⟩
    | cons c t => simp [hr c rfl]
  | cons c t ih =>
    obtain ⟨h1, h2⟩ := ih (fun c hc => ha c (List.mem_cons_of_mem _ hc))
    have hc := ha c (by simp)
    simp only [List.cons_append, List.takeWhile_cons, List.dropWhile_cons, hc, if_true]
    exact ⟨by rw [h1], h2⟩

theorem exponent_head {s : Str} {e : ℤ} (h : Exponent s e) : ∀ c, s.head? = some c → c = 101 ∨ c = 69 := by
  intro c hc
  rcases h with ⟨rfl, -⟩ | ⟨c', sg, d, neg, rfl, hc', -⟩
  · cases hc
  · simp at hc
    rw [← hc]; exact hc'

theorem scanUnsigned_iff {s : Str} {q : ℚ} : scanUnsigned s = some q ↔ Numeral s q := by
  constructor
  · intro h
    have hs : s = s.takeWhile isDigit ++ s.dropWhile isDigit := (List.takeWhile_append_dropWhile).symm
    have fin : ∀ (a p b x : Str), s = a ++ p ++ x → ((p = [] ∧ b = []) ∨ p = 46 :: b) →
        (match parseNat (a ++ b), scanExponent x with
          | some n, some e => some ((n : ℚ) * 10 ^ (e - b.length))
          | _, _ => none) = some q → Numeral s q := by
      intro a p b x e1 e2 e3
      cases hp : parseNat (a ++ b) with
      | none => rw [hp] at e3; cases e3
      | some n =>
        cases hx : scanExponent x with
        | none => rw [hp, hx] at e3; cases e3
        | some e =>
          rw [hp, hx] at e3
          obtain ⟨h3, h4⟩ := parseNat_iff.1 hp
          refine ⟨a, p, b, x, e, e1, h3, e2, scanExponent_iff.1 hx, ?_⟩
          rw [h4]; exact (Option.some.inj e3).symm
    unfold scanUnsigned at h
    generalize s.takeWhile isDigit = a at h hs
    generalize s.dropWhile isDigit = r at h hs
    cases r with
    | nil => exact fin a [] [] [] (by rw [hs]; simp) (Or.inl ⟨rfl, rfl⟩) h
    | cons c t =>
      by_cases hc : c = 46
      · simp only [hc, if_true] at h
        refine fin a (46 :: t.takeWhile isDigit) (t.takeWhile isDigit) (t.dropWhile isDigit) ?_ (Or.inr rfl) h
        rw [hs, hc, List.append_assoc, List.cons_append, List.takeWhile_append_dropWhile]
      · simp only [hc, if_false] at h
        exact fin a [] [] (c :: t) (by rw [hs]; simp) (Or.inl ⟨rfl, rfl⟩) h
  · rintro ⟨a, p, b, x, e, rfl, hd, hp, hx, rfl⟩
    have ha : ∀ c ∈ a, isDigit c = true := fun c hc => isDigit_iff.2 (hd.2 c (List.mem_append_left _ hc))
    have hb : ∀ c ∈ b, isDigit c = true := fun c hc => isDigit_iff.2 (hd.2 c (List.mem_append_right _ hc))
    have hxh : ∀ c, x.head? = some c → isDigit c = false := by
      intro c hc
      rcases exponent_head hx c hc with rfl | rfl <;> decide
    have hn : parseNat (a ++ b) = some (positional (a ++ b)) := parseNat_iff.2 ⟨hd, rfl⟩
    have he := scanExponent_iff.2 hx
    unfold scanUnsigned
    rcases hp with ⟨rfl, rfl⟩ | rfl
    · rw [List.append_nil a] at hn ⊢
      obtain ⟨h1, h2⟩ := takeWhile_digits ha hxh
      simp only [h1, h2]
      cases x with
      | nil => simp only [List.append_nil, hn, he, List.length_nil]
      | cons c t =>
        have hc : c ≠ 46 := by rcases exponent_head hx c rfl with rfl | rfl <;> decide
        simp only [hc, if_false, List.append_nil, hn, he, List.length_nil]
    · rw [List.append_assoc]
      obtain ⟨h1, h2⟩ := takeWhile_digits (r := 46 :: b ++ x) ha (by intro c hc; simp at hc; rw [← hc]; decide)
      obtain ⟨h3, h4⟩ := takeWhile_digits hb hxh
      rw [List.cons_append] at h1 h2 ⊢
      simp only [h1, h2, if_true, h3, h4, hn, he]

theorem sameLetters_iff {w : Str} (hw : ∀ c ∈ w, 97 ≤ c.toNat) {s : Str} : sameLetters w s = true ↔ Word w s := by
  have hch : ∀ c d : Byte, 97 ≤ d.toNat → ((c == d || c + 32 == d) = true ↔ c = d ∨ c.toNat + 32 = d.toNat) := by
    intro c d hd
    rw [Bool.or_eq_true, beq_iff_eq, beq_iff_eq]
    have : c + 32 = d ↔ c.toNat + 32 = d.toNat := by
      rw [← UInt8.toNat_inj, UInt8.toNat_add]
      have hc := c.toNat_lt
      have hd' := d.toNat_lt
      have e : (32 : UInt8).toNat = 32 := rfl
      rw [e]
      omega
    rw [this]
  unfold sameLetters Word
  induction w generalizing s with
  | nil => cases s <;> simp
  | cons d w ih =>
    cases s with
    | nil => simp
    | cons c s =>
      have ih' := ih (s := s) (fun c hc => hw c (List.mem_cons_of_mem _ hc))
      have hcd := hch c d (hw d (by simp))
      rw [Bool.and_eq_true] at ih'
      rw [List.forall₂_cons, Bool.and_eq_true]
      simp only [List.length_cons, List.zip_cons_cons, List.all_cons, Bool.and_eq_true]
      constructor
      · rintro ⟨h1, h2, h3⟩
        exact ⟨hcd.1 h2, ih'.1 ⟨by simpa using h1, h3⟩⟩
      · rintro ⟨h1, h2⟩
        have h3 := ih'.2 h2
        exact ⟨by simpa using h3.1, hcd.2 h1, h3.2⟩

theorem word_head {d : Byte} {w s : Str} (h : Word (d :: w) s) : ∃ c r, s = c :: r ∧ (c = d ∨ c.toNat + 32 = d.toNat) := by
  unfold Word at h
  rcases List.forall₂_cons_right_iff.1 h with ⟨c, r, hc, -, rfl⟩
  exact ⟨c, r, rfl, hc⟩

theorem scanSpecial_iff {f : FloatFmt} {s : Str} {n : Nat} : scanSpecial f s = some n ↔ Special f s n := by
  unfold scanSpecial Special
  have h1 := sameLetters_iff (w := b!"inf") (by decide) (s := s)
  have h2 := sameLetters_iff (w := b!"infinity") (by decide) (s := s)
  have h3 := sameLetters_iff (w := b!"nan") (by decide) (s := s.take 3)
  have hA : (sameLetters b!"inf" s || sameLetters b!"infinity" s) = true ↔ Word b!"inf" s ∨ Word b!"infinity" s := by
    rw [Bool.or_eq_true, h1, h2]
  have hx : (Word b!"inf" s ∨ Word b!"infinity" s) → ¬ ∃ w r, s = w ++ r ∧ Word b!"nan" w := by
    rintro hi ⟨w, r, rfl, hw⟩
    obtain ⟨c, t, rfl, hc⟩ := word_head hw
    have hi' : c = 105 ∨ c.toNat + 32 = 105 := by
      rcases hi with h | h <;> obtain ⟨c', t', he, hc'⟩ := word_head h
      all_goals
        obtain rfl : c = c' := (List.cons.inj he).1
        exact hc'
    have e1 : (110 : UInt8).toNat = 110 := rfl
    rcases hc with rfl | hc
    · revert hi'; decide
    · rcases hi' with rfl | hi'
      · revert hc; decide
      · omega
  have hr : (sameLetters b!"nan" (s.take 3) && (s.length == 3 || (5 ≤ s.length && s[3]? == some 40 && s.getLast? == some 41))) = true ↔
      ∃ w r, s = w ++ r ∧ Word b!"nan" w ∧ (r = [] ∨ ∃ t, r = b!"(" ++ t ++ b!")") := by
    rw [Bool.and_eq_true, h3]
    constructor
    · rintro ⟨hw, hl⟩
      refine ⟨s.take 3, s.drop 3, (List.take_append_drop 3 s).symm, hw, ?_⟩
      simp only [Bool.or_eq_true, beq_iff_eq, Bool.and_eq_true, decide_eq_true_eq] at hl
      rcases hl with hl | ⟨⟨h5, h40⟩, h41⟩
      · left
        exact List.drop_eq_nil_of_le (by omega)
      · right
        cases hd : s.drop 3 with
        | nil =>
          have := congrArg List.length hd
          simp at this
          omega
        | cons c t =>
          have hc : c = 40 := by
            have : s[3]? = some c := by
              have := congrArg (fun l => l[0]?) hd
              simpa using this
            rw [h40] at this
            exact (Option.some.inj this).symm
          have hne : t ≠ [] := by
            intro ht
            have := congrArg List.length hd
            rw [ht] at this
            simp at this
            omega
          have hlast : t.getLast hne = 41 := by
            have e : s = s.take 3 ++ c :: t := by rw [← hd, List.take_append_drop]
            rw [e, List.getLast?_append_of_ne_nil _ (by simp), List.getLast?_cons_of_ne_nil hne, List.getLast?_eq_getLast_of_ne_nil hne] at h41
            exact Option.some.inj h41
          refine ⟨t.dropLast, ?_⟩
          rw [hc]
          conv_lhs => rw [← List.dropLast_concat_getLast hne, hlast]
          rfl
    · rintro ⟨w, r, rfl, hw, hr⟩
      have hl : w.length = 3 := by simpa using List.Forall₂.length_eq hw
      have ht : (w ++ r).take 3 = w := List.take_left' hl
      rw [ht]
      refine ⟨hw, ?_⟩
      simp only [Bool.or_eq_true, beq_iff_eq, Bool.and_eq_true, decide_eq_true_eq]
      rcases hr with rfl | ⟨t, rfl⟩
      · left; simpa using hl
      · right
        refine ⟨⟨by simp; omega, ?_⟩, ?_⟩
        · rw [List.getElem?_append_right (by omega), hl]; rfl
        · rw [← List.append_assoc, List.getLast?_append_of_ne_nil _ (by simp)]; rfl
  by_cases hi : Word b!"inf" s ∨ Word b!"infinity" s
  · rw [if_pos (hA.2 hi)]
    constructor
    · intro h
      exact Or.inl ⟨hi, (Option.some.inj h).symm⟩
    · rintro (⟨-, rfl⟩ | ⟨w, r, e, hw, -⟩)
      · rfl
      · exact absurd ⟨w, r, e, hw⟩ (hx hi)
  · rw [if_neg (fun h => hi (hA.1 h))]
    by_cases h : ∃ w r, s = w ++ r ∧ Word b!"nan" w ∧ (r = [] ∨ ∃ t, r = b!"(" ++ t ++ b!")")
    · rw [if_pos (hr.2 h)]
      constructor
      · intro h'
        obtain ⟨w, r, e, hw, hr⟩ := h
        exact Or.inr ⟨w, r, e, hw, hr, (Option.some.inj h').symm⟩
      · rintro (⟨h', -⟩ | ⟨w, r, e, hw, hr, rfl⟩)
        · exact absurd h' hi
        · rfl
    · rw [if_neg (fun h' => h (hr.1 h'))]
      constructor
      · intro h'; cases h'
      · rintro (⟨h', -⟩ | ⟨w, r, e, hw, hr, rfl⟩)
        · exact absurd h' hi
        · exact absurd ⟨w, r, e, hw, hr⟩ h

theorem special_head {f : FloatFmt} {s : Str} {n : Nat} (h : Special f s n) : ∃ c r, s = c :: r ∧ 65 ≤ c.toNat := by
  rcases h with ⟨h | h, -⟩ | ⟨w, r, rfl, h, -⟩ <;> obtain ⟨c, t, rfl, hc⟩ := word_head h
  · exact ⟨c, t, rfl, by rcases hc with rfl | hc; decide; have e : (105 : UInt8).toNat = 105 := rfl; omega⟩
  · exact ⟨c, t, rfl, by rcases hc with rfl | hc; decide; have e : (105 : UInt8).toNat = 105 := rfl; omega⟩
  · exact ⟨c, t ++ r, rfl, by rcases hc with rfl | hc; decide; have e : (110 : UInt8).toNat = 110 := rfl; omega⟩

theorem numeral_head {s : Str} {q : ℚ} (h : Numeral s q) : ∃ c r, s = c :: r ∧ (c = 46 ∨ (48 ≤ c.toNat ∧ c.toNat ≤ 57)) := by
  obtain ⟨a, p, b, x, e, rfl, hd, hp, -, -⟩ := h
  cases a with
  | cons c a => exact ⟨c, _, rfl, Or.inr (hd.2 c (by simp))⟩
  | nil =>
    rcases hp with ⟨rfl, rfl⟩ | rfl
    · exact absurd rfl hd.1
    · exact ⟨46, _, rfl, Or.inl rfl⟩

theorem numeral_nonneg {s : Str} {q : ℚ} (h : Numeral s q) : 0 ≤ q := by
  obtain ⟨a, p, b, x, e, rfl, hd, hp, -, rfl⟩ := h
  exact mul_nonneg (by positivity) (zpow_nonneg (by norm_num) _)

theorem scanFloat_iff {f : FloatFmt} (hf : 1 ≤ f.frac) (hf' : 2 ≤ f.expo) {s : Str} {b : Nat} :
    scanFloat f s = some b ↔ ∃ sg r neg n, s = sg ++ r ∧ Sign sg neg ∧ b = signed f neg n ∧
      (Special f r n ∨ ∃ q, Numeral r q ∧ q < limit f ∧ Closest f q n) := by
  have core : ∀ r n, (match scanSpecial f r with
      | some m => some m
      | none => match scanUnsigned r with
        | some q => f.nearest q
        | none => none) = some n ↔ (Special f r n ∨ ∃ q, Numeral r q ∧ q < limit f ∧ Closest f q n) := by
    intro r n
    cases h : scanSpecial f r with
    | some m =>
      have hm := scanSpecial_iff.1 h
      simp only [Option.some.injEq]
      constructor
      · rintro rfl; exact Or.inl hm
      · rintro (h' | ⟨q, hq, -⟩)
        · have := scanSpecial_iff.2 h'
          rw [h] at this
          exact Option.some.inj this
        · obtain ⟨c, t, rfl, hc⟩ := special_head hm
          obtain ⟨c', t', e, hc'⟩ := numeral_head hq
          obtain rfl := (List.cons.inj e).1
          rcases hc' with rfl | hc'
          · exact absurd hc (by decide)
          · omega
    | none =>
      have hns : ¬ Special f r n := fun h' => by
        rw [scanSpecial_iff.2 h'] at h; cases h
      cases hu : scanUnsigned r with
      | none =>
        simp only
        constructor
        · intro h; cases h
        · rintro (h' | ⟨q, hq, -⟩)
          · exact absurd h' hns
          · rw [scanUnsigned_iff.2 hq] at hu; cases hu
      | some q =>
        simp only
        have hq := scanUnsigned_iff.1 hu
        rw [nearest_iff hf hf' (numeral_nonneg hq)]
        constructor
        · intro h'; exact Or.inr ⟨q, hq, h'⟩
        · rintro (h' | ⟨q', hq', h'⟩)
          · exact absurd h' hns
          · have := scanUnsigned_iff.2 hq'
            rw [hu] at this
            rw [Option.some.inj this]; exact h'
  have e : scanFloat f s = ((match scanSpecial f (takeSign s).2 with
      | some m => some m
      | none => match scanUnsigned (takeSign s).2 with
        | some q => f.nearest q
        | none => none).map fun m => if (takeSign s).1 then f.signBit + m else m) := rfl
  rw [e]
  constructor
  · intro h
    obtain ⟨n, hn, rfl⟩ := Option.map_eq_some_iff.1 h
    obtain ⟨sg, h1, h2⟩ := takeSign_eq s
    exact ⟨sg, _, _, n, h2, h1, rfl, (core _ n).1 hn⟩
  · rintro ⟨sg, r, neg, n, rfl, hs, rfl, h⟩
    have ht : takeSign (sg ++ r) = (neg, r) := by
      refine takeSign_of hs ?_
      intro c hc
      rcases h with h | ⟨q, hq, -⟩
      · obtain ⟨c', t, rfl, hc'⟩ := special_head h
        obtain rfl : c' = c := by simpa using hc
        constructor <;> rintro rfl <;> revert hc' <;> decide
      · obtain ⟨c', t, rfl, hc'⟩ := numeral_head hq
        obtain rfl : c' = c := by simpa using hc
        constructor <;> rintro rfl <;> revert hc' <;> decide
    rw [ht]
    exact Option.map_eq_some_iff.2 ⟨n, (core r n).2 h, rfl⟩

end Astro
