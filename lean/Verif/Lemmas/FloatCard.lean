import Verif.Lemmas.FloatTrip
import Verif.Props.Card

/-
Floating point numbers on cards.
-/

namespace Astro

open Spec

theorem bits_double (v : BitVec 64) : v.toNat < 2 * FloatFmt.double.signBit := v.isLt
theorem bits_single (v : BitVec 32) : v.toNat < 2 * FloatFmt.single.signBit := v.isLt

theorem reads_double {s : Str} {b : Nat} (h : Reads .double s b) : b < 2 ^ 64 := reads_lt (Or.inr rfl) h
theorem reads_single {s : Str} {b : Nat} (h : Reads .single s b) : b < 2 ^ 32 := reads_lt (Or.inl rfl) h

theorem cpp_double : Cpp .double := Or.inr rfl
theorem cpp_single : Cpp .single := Or.inl rfl

theorem parse64_iff {s : Str} {v : BitVec 64} : ieeeText.parse64 s = some v ↔ Reads .double s v.toNat := by
  rw [← scanFloat_reads cpp_double]
  show (scanFloat .double s).map (BitVec.ofNat 64) = some v ↔ _
  rw [Option.map_eq_some_iff]
  constructor
  · rintro ⟨b, hb, rfl⟩
    have := reads_double ((scanFloat_reads cpp_double).1 hb)
    rw [hb, BitVec.toNat_ofNat, Nat.mod_eq_of_lt this]
  · intro h
    exact ⟨_, h, by simp⟩

theorem parse32_iff {s : Str} {v : BitVec 32} : ieeeText.parse32 s = some v ↔ Reads .single s v.toNat := by
  rw [← scanFloat_reads cpp_single]
  show (scanFloat .single s).map (BitVec.ofNat 32) = some v ↔ _
  rw [Option.map_eq_some_iff]
  constructor
  · rintro ⟨b, hb, rfl⟩
    have := reads_single ((scanFloat_reads cpp_single).1 hb)
    rw [hb, BitVec.toNat_ofNat, Nat.mod_eq_of_lt this]
  · intro h
    exact ⟨_, h, by simp⟩

theorem float_limits {F : FloatText} (c : Card) (key comment : Str) {v : Val} {x : Str} (hs : Policy.serialize F v = Policy.pad20 x) (hl : x.length ≤ 20) :
    (Card.create F c key v comment).2 = .ok () ↔ key.length ≤ 8 ∧ comment.length ≤ 48 := by
  rw [pad20_ok hl] at hs
  have hlen : (spaces (20 - x.length) ++ x).length = 20 := by simp; omega
  rw [C02_create_accepts_iff]
  constructor
  · rintro ⟨t, h1, h2, h3⟩
    have e := serialize_iff.2 h1
    rw [hs] at e
    cases e
    rw [hlen] at h3
    rcases h3 with ⟨rfl, -⟩ | ⟨-, h3⟩
    · exact ⟨h2, by simp⟩
    · exact ⟨h2, by omega⟩
  · rintro ⟨h1, h2⟩
    refine ⟨_, serialize_iff.1 hs, h1, ?_⟩
    rw [hlen]
    by_cases h : comment = []
    · exact Or.inl ⟨h, by omega⟩
    · exact Or.inr ⟨h, by omega⟩

theorem whole_core {f : FloatFmt} {b : Nat} (hb : b < 2 * f.signBit) (v : BitVec 64) :
    lexSigned 64 (showFloat f b) = .ok v ↔ PrintsWhole f b v.toInt := by
  have ofInt : ∀ {i : ℤ}, i.natAbs < 2 ^ 63 → (BitVec.ofInt 64 i = v ↔ i = v.toInt) := by
    intro i hi
    constructor
    · rintro rfl
      rw [BitVec.toInt_ofInt]
      unfold Int.bmod
      norm_num at hi ⊢
      omega
    · rintro rfl
      exact BitVec.ofInt_toInt
  obtain ⟨neg, n, hn, rfl⟩ := signed_cases f hb
  rw [showFloat_signed f neg hn]
  -- what follows the sign
  generalize hX : (if n < f.infinity then showG (f.value n) else if n = f.infinity then b!"inf" else b!"nan") = X
  have hXdig : ∀ {k}, parseNat X = some k ↔ n < f.infinity ∧ k < 1000000 ∧ sixValue (f.value n) = k := by
    intro k
    rw [parseNat_iff, ← hX]
    by_cases h1 : n < f.infinity
    · rw [if_pos h1]
      constructor
      · rintro ⟨h2, h3⟩
        obtain ⟨j, hj, e⟩ := (showG_digits (value_nonneg f n)).1 h2
        have e' := numeral_unique (showG_numeral (value_nonneg f n)) (digits_numeral h2)
        rw [h3] at e'
        have : j = k := by rw [e] at e'; exact_mod_cast e'
        exact ⟨h1, by omega, e'⟩
      · rintro ⟨-, h2, h3⟩
        have hd := (showG_digits (value_nonneg f n)).2 ⟨k, h2, h3⟩
        refine ⟨hd, ?_⟩
        have e' := numeral_unique (showG_numeral (value_nonneg f n)) (digits_numeral hd)
        rw [h3] at e'
        exact_mod_cast e'.symm
    · rw [if_neg h1]
      have n1 : ¬ AllDigits b!"inf" := fun h => absurd (h.2 105 (by decide)) (by decide)
      have n2 : ¬ AllDigits b!"nan" := fun h => absurd (h.2 110 (by decide)) (by decide)
      constructor
      · rintro ⟨h2, -⟩
        split at h2
        · exact absurd h2 n1
        · exact absurd h2 n2
      · rintro ⟨h2, -⟩
        exact absurd h2 h1
  have hspec : PrintsWhole f (signed f neg n) v.toInt ↔ ∃ k, parseNat X = some k ∧ v.toInt = if neg then -(k : ℤ) else k := by
    constructor
    · rintro ⟨neg', n', x, k, e, hx, hk, hc, hv⟩
      have hx' := magnitude_iff.1 hx
      obtain ⟨rfl, rfl⟩ := signed_inj hn (hx'.1.trans (infinity_lt f)) e
      refine ⟨k, hXdig.2 ⟨hx'.1, hk, ?_⟩, hv⟩
      have := closestSix_sixValue (value_nonneg f n)
      rw [← hx'.2] at this ⊢
      exact closestSix_unique this hc
    · rintro ⟨k, hk, hv⟩
      obtain ⟨h1, h2, h3⟩ := hXdig.1 hk
      refine ⟨neg, n, f.value n, k, rfl, magnitude_iff.2 ⟨h1, rfl⟩, h2, ?_, hv⟩
      rw [← h3]
      exact closestSix_sixValue (value_nonneg f n)
  rw [hspec]
  have hXh : ∃ c u, X = c :: u ∧ c ≠ 45 ∧ c ≠ 43 := by
    rw [← hX]
    split
    · obtain ⟨c, u, e, hc⟩ := numeral_head (showG_numeral (value_nonneg f n))
      refine ⟨c, u, e, ?_, ?_⟩ <;> rintro rfl <;> rcases hc with hc | hc <;> revert hc <;> decide
    · split
      · exact ⟨_, _, rfl, by decide, by decide⟩
      · exact ⟨_, _, rfl, by decide, by decide⟩
  cases neg with
  | true =>
    simp only [if_true]
    show lexSigned 64 (45 :: X) = _ ↔ _
    simp only [lexSigned, if_true]
    cases h : parseNat X with
    | none => simp
    | some k =>
      have hk := (hXdig.1 h).2.1
      simp only
      rw [if_pos (by omega)]
      simp only [Except.ok.injEq, Option.some.injEq, exists_eq_left']
      rw [ofInt (by omega)]
      exact eq_comm
  | false =>
    simp only [Bool.false_eq_true, if_false, List.nil_append]
    obtain ⟨c, u, rfl, h1, h2⟩ := hXh
    simp only [lexSigned]
    rw [if_neg h1, if_neg h2]
    cases h : parseNat (c :: u) with
    | none => simp
    | some k =>
      have hk := (hXdig.1 h).2.1
      simp only
      rw [if_pos (by omega)]
      simp only [Except.ok.injEq, Option.some.injEq, exists_eq_left']
      rw [ofInt (by omega)]
      exact eq_comm

theorem trim_keeps {p : Str} (hp : Trimmed p) (hne : p ≠ []) (w : Str) : ∃ r, trim (p ++ w) = p ++ r := by
  obtain ⟨a, b, e, ha, hb, -⟩ := trim_split (p ++ w)
  generalize trim (p ++ w) = T at e
  have ha0 : a = [] := by
    cases a with
    | nil => rfl
    | cons z a =>
      exfalso
      cases p with
      | nil => exact hne rfl
      | cons y u =>
        simp only [List.cons_append, List.cons.injEq] at e
        have h1 := ha z (by simp)
        rw [← e.1, hp.1 y (by simp)] at h1
        cases h1
  rw [ha0, List.nil_append] at e
  rcases List.append_eq_append_iff.1 e with ⟨r, h1, -⟩ | ⟨r, h1, h2⟩
  · exact ⟨r, h1⟩
  · rcases List.eq_nil_or_concat r with rfl | ⟨r', z, rfl⟩
    · exact ⟨[], by rw [List.append_nil] at h1; rw [← h1, List.append_nil]⟩
    · exfalso
      have h4 := hb z (by rw [h2]; simp)
      rw [hp.2 z (by rw [h1]; simp)] at h4
      cases h4

/-- Printed numbers have no white space. -/
theorem print_nospace {x : Str} (hx : ∀ ch ∈ x, 43 ≤ ch.toNat ∧ ch ≠ 47) : ∀ ch ∈ x, isSpace ch = false := by
  intro ch hch
  have h43 := (hx ch hch).1
  unfold isSpace
  rw [Bool.or_eq_false_iff, Bool.and_eq_false_iff]
  refine ⟨?_, Or.inr ?_⟩
  · rw [beq_eq_false_iff_ne]
    rintro rfl
    revert h43; decide
  · rw [decide_eq_false_iff_not, UInt8.le_iff_toNat_le]
    have : (13 : UInt8).toNat = 13 := rfl
    omega

theorem print_trimmed {x : Str} (hx : ∀ ch ∈ x, 43 ≤ ch.toNat ∧ ch ≠ 47) : Trimmed x :=
  ⟨fun ch h => print_nospace hx ch (List.mem_of_mem_head? h), fun ch h => print_nospace hx ch (List.mem_of_getLast? h)⟩

/-- The text a floating point number on a card is read from. -/
theorem float_window {F : FloatText} {c : Card} {key comment : Str} {v : Val} {x : Str} (hc : Fresh c) (hs : Policy.serialize F v = Policy.pad20 x)
    (hx : ∀ ch ∈ x, 43 ≤ ch.toNat ∧ ch ≠ 47) (hne : x ≠ []) (hl : x.length ≤ 20) (hk : key.length ≤ 8) (hm : comment.length ≤ 48) {t : Ty}
    (ht : t ≠ .string) : ∃ y, (Card.value F (Card.create F c key v comment).1 t).2 = Policy.parseTo F t y ∧
      ((comment = [] ∨ slash ∉ key) ∧ y = x ∨ (comment ≠ [] ∧ slash ∈ key) ∧ ∃ r, y = x ++ 32 :: r) := by
  rw [pad20_ok hl] at hs
  have hlen : (spaces (20 - x.length) ++ x).length = 20 := by simp; omega
  have hf : Fits key (spaces (20 - x.length) ++ x) comment := by
    refine ⟨hk, ?_⟩
    rw [hlen]
    by_cases h : comment = []
    · exact Or.inl ⟨h, by omega⟩
    · exact Or.inr ⟨h, by omega⟩
  have hn47 : (47 : Byte) ∉ spaces (20 - x.length) ++ x := by
    intro h
    rcases List.mem_append.1 h with h | h
    · exact absurd (mem_spaces h) (by decide)
    · exact (hx 47 h).2 rfl
  have htr : Trimmed x := print_trimmed hx
  rw [create_fits c hs hf, value_created hc hf ht]
  refine ⟨_, rfl, ?_⟩
  by_cases h : comment = [] ∨ slash ∉ key
  · left
    refine ⟨h, ?_⟩
    rw [windowText_plain h hn47, trim_spaces_left, trim_of_trimmed htr]
  · right
    rw [not_or, not_not] at h
    refine ⟨h, ?_⟩
    rw [windowText_keyslash h.1 h.2, List.append_assoc, List.append_assoc, trim_spaces_left]
    have htp : Trimmed (x ++ b!" /") := by
      refine ⟨fun ch h => htr.1 ch ?_, fun ch h => ?_⟩
      · cases x with
        | nil => exact absurd rfl hne
        | cons y u => simpa using h
      · obtain rfl : 47 = ch := by simpa using h
        decide
    obtain ⟨r, e⟩ := trim_keeps htp (by simp) comment
    exact ⟨47 :: r, by rw [← List.append_assoc, e]; simp⟩

theorem survives_core {f : FloatFmt} (hf : Cpp f) (neg : Bool) {n : Nat} (hn : n < f.infinity) (hl : 1000001 < n) :
    Reprinted f (signed f neg n) (signed f neg n) ↔ ∃ w, SixDigits w ∧ w < limit f ∧ Closest f w n := by
  have hx : Magnitude f n (f.value n) := magnitude_iff.2 ⟨hn, rfl⟩
  obtain ⟨h1, h2, h3⟩ := hf.facts
  have hs := hn.trans (infinity_lt f)
  constructor
  · rintro ⟨neg', m, m', hm, e1, e2, h⟩
    obtain ⟨rfl, rfl⟩ := signed_inj hs hm e1
    rcases h with ⟨x, w, hx', hc, hlim, hw⟩ | ⟨rfl, -⟩ | ⟨h, -⟩
    · have e : m' = n := by
        have : m' < f.signBit := by
          obtain ⟨y, hy, -⟩ := hw
          exact (magnitude_iff.1 hy).1.trans (infinity_lt f)
        exact (signed_inj hs this e2).2.symm
      subst e
      obtain ⟨d, t, e, hd, -⟩ := hc
      exact ⟨w, ⟨d, t, by rcases hd with ⟨-, rfl⟩ | hd <;> omega, e⟩, hlim, hw⟩
    · exact absurd hn (lt_irrefl _)
    · exact absurd (hn.trans h) (lt_irrefl _)
  · rintro ⟨w, hw, hlim, hc⟩
    have h0 : 0 ≤ w := by
      obtain ⟨d, t, -, rfl⟩ := hw
      exact mul_nonneg (by positivity) (ten_zpow_pos _).le
    have e := sixValue_nearest h3 h0 hw ((nearest_iff h1 h2 h0).2 ⟨hlim, hc⟩) hl
    refine ⟨neg, n, n, hs, rfl, rfl, Or.inl ⟨_, w, hx, ?_, hlim, hc⟩⟩
    have := closestSix_sixValue (value_nonneg f n)
    rwa [e] at this

theorem normal_large {f : FloatFmt} (hf : Cpp f) {n : Nat} (h : 2 ^ f.frac ≤ n) : 8388608 ≤ n := by
  refine le_trans ?_ h
  rcases hf with rfl | rfl <;> decide

/-- No number begins with a blank. -/
theorem reads_blank {f : FloatFmt} {t : Str} {b : Nat} : ¬ Reads f (32 :: t) b := by
  rintro ⟨sg, r, neg, n, e, hs, -, hr⟩
  have hr' : ∃ y u, r = y :: u ∧ y ≠ 32 := by
    rcases hr with hr | ⟨q, hq, -⟩
    · obtain ⟨y, u, rfl, hy⟩ := special_head hr
      exact ⟨y, u, rfl, by rintro rfl; revert hy; decide⟩
    · obtain ⟨y, u, rfl, hy⟩ := numeral_head hq
      exact ⟨y, u, rfl, by rintro rfl; revert hy; decide⟩
  obtain ⟨y, u, rfl, hy⟩ := hr'
  rcases hs with ⟨rfl, -⟩ | ⟨rfl, -⟩ | ⟨rfl, -⟩ <;> simp only [List.nil_append, List.cons_append, List.cons.injEq] at e
  · exact hy e.1.symm
  · exact absurd e.1 (by decide)
  · exact absurd e.1 (by decide)

/-- The text a complex number on a card is read from has two blanks after its real part. -/
theorem complex_text {key comment a b : Str} {q : Nat} (p : Nat) (ha : ∀ ch ∈ a, 43 ≤ ch.toNat ∧ ch ≠ 47) (hb : ∀ ch ∈ b, 43 ≤ ch.toNat ∧ ch ≠ 47)
    (hane : a ≠ []) (hbne : b ≠ []) : ∃ r, windowText key ((spaces p ++ a) ++ (spaces (q + 2) ++ b)) comment = a ++ 32 :: 32 :: r := by
  have n47 : ∀ {x : Str}, (∀ ch ∈ x, 43 ≤ ch.toNat ∧ ch ≠ 47) → (47 : Byte) ∉ x := fun hx h => (hx 47 h).2 rfl
  by_cases h : comment = [] ∨ slash ∉ key
  · rw [complex_window (print_trimmed ha) (print_trimmed hb) hane hbne (n47 ha) (n47 hb) h]
    exact ⟨spaces q ++ b, by simp [spaces, List.replicate_succ]⟩
  · rw [not_or, not_not] at h
    rw [windowText_keyslash h.1 h.2, List.append_assoc, List.append_assoc, List.append_assoc, trim_spaces_left]
    have htp : Trimmed (a ++ (spaces (q + 2) ++ b)) := by
      refine ⟨fun ch h => (print_trimmed ha).1 ch ?_, fun ch h => (print_trimmed hb).2 ch ?_⟩
      · cases a with
        | nil => exact absurd rfl hane
        | cons y u => simpa using h
      · rcases List.eq_nil_or_concat b with rfl | ⟨b', z, rfl⟩
        · exact absurd rfl hbne
        · simpa using h
    obtain ⟨r, e⟩ := trim_keeps htp (by simp [hane]) (b!" /" ++ comment)
    exact ⟨spaces q ++ b ++ r, by
      rw [show a ++ (spaces (q + 2) ++ b ++ (b!" /" ++ comment)) = a ++ (spaces (q + 2) ++ b) ++ (b!" /" ++ comment) by simp, e]
      simp [spaces, List.replicate_succ]⟩

theorem parseComplex_blank {α : Type} {parse : Str → Res α} {a r : Str} (ha : ∀ ch ∈ a, 43 ≤ ch.toNat ∧ ch ≠ 47)
    (h1 : ∀ s e, parse s = .error e → e = .invalidCast) (h2 : ∀ s, parse (32 :: s) = .error .invalidCast) :
    Policy.parseComplex parse (a ++ 32 :: 32 :: r) = .error .invalidCast := by
  have n32 : (32 : Byte) ∉ a := fun h => absurd (ha 32 h).1 (by decide)
  rw [parseComplex_split n32]
  cases hp : parse a with
  | error e => rw [h1 a e hp]; rfl
  | ok x => simp only [bind, Except.bind, h2]

theorem recastOpt_error {α : Type} {o : Option α} {e : Err} (h : Policy.recastOpt o = .error e) : e = .invalidCast := by
  cases o with
  | none => cases h; rfl
  | some x => cases h

end Astro
