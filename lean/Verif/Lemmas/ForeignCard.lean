import Mathlib.Data.List.Induction
import Verif.Lemmas.Card
import Verif.Spec.ForeignCard

namespace Astro

open Spec Policy

/-- What is between the value indicator and the first slash, when a slash is there: the last byte is missing. -/
theorem extract_to_slash {k m c : Str} (hk : k.length = 8) (hs : slash ∉ k) (hm : slash ∉ m)
    (hl : (k ++ b!"= " ++ m ++ slash :: c).length = 80) :
    extractValue (k ++ b!"= " ++ m ++ slash :: c) = .ok ((32 :: m).dropLast) := by
  have hn : slash ∉ k ++ b!"= " ++ m := by
    simp only [List.mem_append, not_or]; exact ⟨⟨hs, by decide⟩, hm⟩
  have hf : findByte (k ++ b!"= " ++ m ++ slash :: c) 47 = (k ++ b!"= " ++ m).length := findByte_append hn
  have hlen : (k ++ b!"= " ++ m).length = 10 + m.length := by
    rw [List.length_append, List.length_append, hk]; show 8 + 2 + m.length = _; omega
  have hlm : m.length < 80 := by
    rw [List.length_append, hlen] at hl; simp at hl; omega
  unfold extractValue
  rw [hf, hlen, szSub_le (by omega) (by unfold sizeMod; omega), substr_ok (by omega)]
  refine congrArg Except.ok ?_
  have e : k ++ b!"= " ++ m ++ slash :: c = (k ++ [61]) ++ (32 :: m ++ slash :: c) := by simp
  rw [e, List.drop_left' (by simp [hk]), List.take_append_of_le_length (by simp), List.dropLast_eq_take]
  congr 1
  simp

theorem extract_no_slash {k m : Str} (hk : k.length = 8) (hs : slash ∉ k) (hm : slash ∉ m) (hl : (k ++ b!"= " ++ m).length = 80) :
    extractValue (k ++ b!"= " ++ m) = .ok (32 :: m) := by
  have hn : slash ∉ k ++ b!"= " ++ m := by
    simp only [List.mem_append, not_or]; exact ⟨⟨hs, by decide⟩, hm⟩
  rw [extract_window_all hl npos (findByte_none hn) (.inr rfl)]
  refine congrArg Except.ok ?_
  have e : k ++ b!"= " ++ m = (k ++ [61]) ++ (32 :: m) := by simp
  rw [e, List.drop_left' (by simp [hk])]

theorem extract_apart {raw text : Str} {gap : Nat} {comment : Option Str} (h : ValueCard raw text gap comment) (ht : slash ∉ text)
    (ha : Apart gap comment) : ∃ v, extractValue raw = .ok v ∧ trim v = trim text := by
  obtain ⟨k, lead, hk, hs, hl, rfl⟩ := h
  have hm : slash ∉ List.replicate lead 32 ++ text ++ List.replicate gap 32 := by
    simp only [List.mem_append, not_or]
    exact ⟨⟨by simp [slash], ht⟩, by simp [slash]⟩
  cases comment with
  | none =>
    have e : k ++ b!"= " ++ List.replicate lead 32 ++ text ++ List.replicate gap 32 ++ [] =
        k ++ b!"= " ++ (List.replicate lead 32 ++ text ++ List.replicate gap 32) := by simp
    simp only [] at hl ⊢
    rw [e] at hl ⊢
    refine ⟨_, extract_no_slash hk hs hm hl, ?_⟩
    rw [trim_cons_space]
    show trim (spaces lead ++ text ++ spaces gap) = _
    rw [trim_spaces_right, trim_spaces_left]
  | some c =>
    have hg : 0 < gap := by rcases ha with h | h; cases h; exact h
    obtain ⟨g, rfl⟩ : ∃ g, gap = g + 1 := ⟨gap - 1, by omega⟩
    have e : k ++ b!"= " ++ List.replicate lead 32 ++ text ++ List.replicate (g + 1) 32 ++ slash :: c =
        k ++ b!"= " ++ (List.replicate lead 32 ++ text ++ List.replicate (g + 1) 32) ++ slash :: c := by simp
    simp only [] at hl ⊢
    rw [e] at hl ⊢
    refine ⟨_, extract_to_slash hk hs hm hl, ?_⟩
    rw [List.replicate_succ', ← List.append_assoc, ← List.cons_append, List.dropLast_concat, trim_cons_space]
    show trim (spaces lead ++ text ++ spaces g) = _
    rw [trim_spaces_right, trim_spaces_left]

theorem extract_tight {raw text : Str} {c : Str} (h : ValueCard raw text 0 (some c)) (ht : slash ∉ text) (hne : text ≠ []) :
    ∃ v, extractValue raw = .ok v ∧ trim v = trim text.dropLast := by
  obtain ⟨k, lead, hk, hs, hl, rfl⟩ := h
  have hm : slash ∉ List.replicate lead 32 ++ text := by
    simp only [List.mem_append, not_or]; exact ⟨by simp [slash], ht⟩
  have e : k ++ b!"= " ++ List.replicate lead 32 ++ text ++ List.replicate 0 32 ++ slash :: c =
      k ++ b!"= " ++ (List.replicate lead 32 ++ text) ++ slash :: c := by simp
  simp only [] at hl ⊢
  rw [e] at hl ⊢
  refine ⟨_, extract_to_slash hk hs hm hl, ?_⟩
  rw [← List.cons_append, List.dropLast_append_of_ne_nil hne, List.cons_append, trim_cons_space]
  show trim (spaces lead ++ text.dropLast) = _
  rw [trim_spaces_left]

theorem value_fresh (F : FloatText) (raw : Str) (t : Ty) : (Card.value F ⟨raw, none⟩ t).2 = Card.valueImp F raw t := by
  unfold Card.value
  cases Card.valueImp F raw t <;> rfl

theorem valueImp_of {F : FloatText} {raw v x : Str} {t : Ty} (ht : t ≠ .string) (h : extractValue raw = .ok v) (hv : trim v = x) :
    Card.valueImp F raw t = parseTo F t x := by
  unfold Card.valueImp
  rw [h]
  subst hv
  cases t <;> first | rfl | exact absurd rfl ht

theorem valueImp_text {F : FloatText} {raw v : Str} (h : extractValue raw = .ok v) :
    Card.valueImp F raw .string = match trim v with
      | [] => .ok (.string [])
      | c :: r => if c = 39 then (if r.isEmpty then .error .ub else .ok (.string (trim r.dropLast))) else .ok (.string (trim v)) := by
  unfold Card.valueImp
  rw [h]
  simp only [bind, Except.bind, pure, Except.pure]
  split <;> simp_all

/-! ### integers -/

theorem integerText_props {text d : Str} {i : Int} (h : IntegerText text d i) : text ≠ [] ∧ Trimmed text ∧ slash ∉ text ∧ text.getLast? = d.getLast? := by
  obtain ⟨⟨hd0, hd⟩, h⟩ := h
  have hdig : ∀ c ∈ d, isDigit c = true := fun c hc => by
    have := hd c hc
    simp only [isDigit, Bool.and_eq_true, decide_eq_true_eq, UInt8.le_iff_toNat_le]
    exact this
  have hsl : slash ∉ d := fun hc => by have := hd _ hc; simp [slash] at this
  have hlast : ∀ c, d.getLast? = some c → isSpace c = false := fun c hc =>
    isDigit_not_space (hdig c (List.mem_of_getLast? hc))
  have hhead : ∀ c, d.head? = some c → isSpace c = false := fun c hc => isDigit_not_space (hdig c (List.mem_of_mem_head? hc))
  rcases h with ⟨rfl, _⟩ | ⟨rfl, _⟩ | ⟨rfl, _⟩
  · exact ⟨hd0, ⟨hhead, hlast⟩, hsl, rfl⟩
  all_goals
    obtain ⟨x, t, rfl⟩ := List.exists_cons_of_ne_nil hd0
    refine ⟨by simp, ⟨?_, ?_⟩, ?_, ?_⟩
    · intro c hc; simp at hc; subst hc; rfl
    · intro c hc; rw [List.getLast?_cons_cons] at hc; exact hlast c hc
    · intro hc; rcases List.mem_cons.1 hc with hc | hc
      · simp [slash] at hc
      · exact hsl hc
    · rw [List.getLast?_cons_cons]

theorem foreign_digit_head {d : Str} (h : AllDigits d) {x : Byte} {t : Str} (e : d = x :: t) : x ≠ 45 ∧ x ≠ 43 := by
  have := h.2 x (by rw [e]; simp)
  constructor <;> (rintro rfl; simp at this)

theorem lexSigned_text {w : Nat} (hw : 0 < w) {text d : Str} {i : Int} (h : IntegerText text d i) :
    lexSigned w text = if -(2 ^ (w - 1) : Int) ≤ i ∧ i < 2 ^ (w - 1) then .ok (BitVec.ofInt w i) else .error .badLexicalCast := by
  obtain ⟨hd, h⟩ := h
  have hp : parseNat d = some (positional d) := parseNat_iff.2 ⟨hd, rfl⟩
  have c2 : ((2 ^ (w - 1) : Nat) : Int) = 2 ^ (w - 1) := by push_cast; rfl
  rcases h with ⟨rfl, rfl⟩ | ⟨rfl, rfl⟩ | ⟨rfl, rfl⟩
  · cases e : text with
    | nil => exact absurd e hd.1
    | cons x t =>
      obtain ⟨h1, h2⟩ := foreign_digit_head hd e
      simp only [lexSigned, if_neg h1, if_neg h2]
      rw [← e, hp]
      by_cases hb : positional text < 2 ^ (w - 1)
      · simp only [if_pos hb]; rw [if_pos (by omega)]
      · simp only [if_neg hb]; rw [if_neg (by omega)]
  · simp only [lexSigned, if_neg (show (43 : Byte) ≠ 45 by decide), if_true, hp]
    by_cases hb : positional d < 2 ^ (w - 1)
    · simp only [if_pos hb]; rw [if_pos (by omega)]
    · simp only [if_neg hb]; rw [if_neg (by omega)]
  · simp only [lexSigned, if_true, hp]
    by_cases hb : positional d ≤ 2 ^ (w - 1)
    · simp only [if_pos hb]
      have : (0 : Int) < 2 ^ (w - 1) := Int.pow_pos (by decide)
      rw [if_pos (by omega)]
    · simp only [if_neg hb]; rw [if_neg (by omega)]

theorem lexUnsigned_text {w : Nat} {text d : Str} {i : Int} (h : IntegerText text d i) (h0 : 0 ≤ i) :
    lexUnsigned w text = if i < 2 ^ w then .ok (BitVec.ofInt w i) else .error .badLexicalCast := by
  obtain ⟨hd, h⟩ := h
  have hp : parseNat d = some (positional d) := parseNat_iff.2 ⟨hd, rfl⟩
  have c2 : ((2 ^ w : Nat) : Int) = 2 ^ w := by push_cast; rfl
  rcases h with ⟨rfl, rfl⟩ | ⟨rfl, rfl⟩ | ⟨rfl, rfl⟩
  · cases e : text with
    | nil => exact absurd e hd.1
    | cons x t =>
      obtain ⟨h1, h2⟩ := foreign_digit_head hd e
      simp only [lexUnsigned, if_neg (show ¬ (x = 45 ∨ x = 43) from fun h => h.elim h1 h2), if_neg h1]
      rw [← e, hp]
      by_cases hb : positional text < 2 ^ w
      · simp only [if_pos hb]; rw [if_pos (by omega), BitVec.ofInt_natCast]
      · simp only [if_neg hb]; rw [if_neg (by omega)]
  · simp only [lexUnsigned, or_true, if_true, hp, if_neg (show (43 : Byte) ≠ 45 by decide)]
    by_cases hb : positional d < 2 ^ w
    · simp only [if_pos hb]; rw [if_pos (by omega), BitVec.ofInt_natCast]
    · simp only [if_neg hb]; rw [if_neg (by omega)]
  · have hz : positional d = 0 := by omega
    simp only [lexUnsigned, true_or, if_true, hp, hz]
    have h1 : 0 < 2 ^ w := Nat.two_pow_pos w
    have h2 : (-((0 : Nat) : Int)) < 2 ^ w := by have : (0 : Int) < 2 ^ w := Int.pow_pos (by decide)
                                                 simpa using this
    rw [if_pos h1, if_pos h2]; simp

theorem integerText_dropLast {text d : Str} {i : Int} (h : IntegerText text d i) (h2 : 2 ≤ d.length) :
    IntegerText text.dropLast d.dropLast (i.tdiv 10) := by
  obtain ⟨hd, h⟩ := h
  obtain ⟨t, c, rfl⟩ : ∃ t c, d = t ++ [c] := ⟨_, _, (List.dropLast_concat_getLast hd.1).symm⟩
  have ht : t ≠ [] := by rintro rfl; simp at h2
  have hc := hd.2 c (by simp)
  have hp : positional (t ++ [c]) = positional t * 10 + (c.toNat - 48) := by
    rw [positional_append]; simp [positional]
  have hq : ((positional (t ++ [c]) : Nat) : Int).tdiv 10 = positional t := by
    rw [hp, Int.tdiv_eq_ediv_of_nonneg (Int.natCast_nonneg _)]; push_cast; omega
  refine ⟨by rw [List.dropLast_concat]; exact ⟨ht, fun c hc => hd.2 c (by simp [hc])⟩, ?_⟩
  rcases h with ⟨rfl, rfl⟩ | ⟨rfl, rfl⟩ | ⟨rfl, rfl⟩
  · left; exact ⟨rfl, by rw [hq, List.dropLast_concat]⟩
  · right; left; refine ⟨?_, by rw [hq, List.dropLast_concat]⟩
    rw [List.dropLast_concat, ← List.cons_append, List.dropLast_concat]
  · right; right; refine ⟨?_, by rw [Int.neg_tdiv, hq, List.dropLast_concat]⟩
    rw [List.dropLast_concat, ← List.cons_append, List.dropLast_concat]

theorem parse_integer {F : FloatText} {text d : Str} {i : Int} (h : IntegerText text d i) {v : Val} (hv : numberOf v = some i) :
    parseTo F v.ty text = .ok v := by
  cases v <;> simp only [numberOf, Option.some.injEq, reduceCtorEq] at hv
  case int v =>
    have hb := toInt_bounds32 v
    simp only [Val.ty, parseTo, lexSigned_text (w := 32) (by omega) h]
    rw [if_pos (by omega), ← hv, BitVec.ofInt_toInt]; rfl
  case longlong v =>
    have hb := toInt_bounds64 v
    simp only [Val.ty, parseTo, lexSigned_text (w := 64) (by omega) h]
    rw [if_pos (by omega), ← hv, BitVec.ofInt_toInt]; rfl
  case uint v =>
    have hb := v.isLt
    simp only [Val.ty, parseTo, lexUnsigned_text (w := 32) h (by omega)]
    rw [if_pos (by omega), ← hv, BitVec.ofInt_natCast, BitVec.ofNat_toNat, BitVec.setWidth_eq]; rfl
  case sizeT v =>
    have hb := v.isLt
    simp only [Val.ty, parseTo, lexUnsigned_text (w := 64) h (by omega)]
    rw [if_pos (by omega), ← hv, BitVec.ofInt_natCast, BitVec.ofNat_toNat, BitVec.setWidth_eq]; rfl

theorem parse_unfit {F : FloatText} {text d : Str} {i : Int} (h : IntegerText text d i) {t : Ty} (ht : t = .int ∨ t = .longlong ∨ 0 ≤ i)
    (hi : IsIntegerTy t) (hn : ∀ v : Val, v.ty = t → numberOf v ≠ some i) : parseTo F t text = .error .invalidCast := by
  cases t <;> simp only [IsIntegerTy] at hi
  case int =>
    simp only [parseTo, lexSigned_text (w := 32) (by omega) h]
    split
    · rename_i hb
      exact absurd (by simp only [numberOf]; rw [BitVec.toInt_ofInt_eq_self (by omega) (by omega) (by omega)]) (hn (.int (BitVec.ofInt 32 i)) rfl)
    · rfl
  case longlong =>
    simp only [parseTo, lexSigned_text (w := 64) (by omega) h]
    split
    · rename_i hb
      exact absurd (by simp only [numberOf]; rw [BitVec.toInt_ofInt_eq_self (by omega) (by omega) (by omega)]) (hn (.longlong (BitVec.ofInt 64 i)) rfl)
    · rfl
  case uint =>
    have h0 : 0 ≤ i := by rcases ht with h | h | h <;> first | cases h | exact h
    simp only [parseTo, lexUnsigned_text (w := 32) h h0]
    split
    · rename_i hb
      refine absurd ?_ (hn (.uint (BitVec.ofInt 32 i)) rfl)
      simp only [numberOf, BitVec.toNat_ofInt]
      exact congrArg some (by omega)
    · rfl
  case sizeT =>
    have h0 : 0 ≤ i := by rcases ht with h | h | h <;> first | cases h | exact h
    simp only [parseTo, lexUnsigned_text (w := 64) h h0]
    split
    · rename_i hb
      refine absurd ?_ (hn (.sizeT (BitVec.ofInt 64 i)) rfl)
      simp only [numberOf, BitVec.toNat_ofInt]
      exact congrArg some (by omega)
    · rfl

theorem parse_sign {F : FloatText} {t : Ty} (hi : IsIntegerTy t) {s : Str} (hs : s = [] ∨ s = [43] ∨ s = [45]) :
    parseTo F t s = .error .invalidCast := by
  cases t <;> simp only [IsIntegerTy] at hi <;> rcases hs with rfl | rfl | rfl <;> rfl

/-! ### strings -/

theorem doubled_append (a b : Str) : doubled (a ++ b) = doubled a ++ doubled b := by
  induction a with
  | nil => rfl
  | cons c a ih => simp only [List.cons_append, doubled]; split <;> simp [ih]

theorem mem_doubled {c : Byte} {x : Str} : c ∈ doubled x ↔ c ∈ x := by
  induction x with
  | nil => simp [doubled]
  | cons d x ih =>
    simp only [doubled]
    split
    · rename_i h; subst h; simp [ih]
    · simp [ih]

theorem doubled_of_not_mem {x : Str} (h : (39 : Byte) ∉ x) : doubled x = x := by
  induction x with
  | nil => rfl
  | cons d x ih =>
    simp only [List.mem_cons, not_or] at h
    rw [doubled, if_neg (fun e => h.1 e.symm), ih h.2]

theorem count_doubled (x : Str) : (doubled x).count 39 = 2 * x.count 39 := by
  induction x with
  | nil => rfl
  | cons d x ih =>
    simp only [doubled]
    split
    · rename_i h; subst h; simp [ih]; omega
    · rename_i h; rw [List.count_cons_of_ne h, List.count_cons_of_ne h, ih]

theorem doubled_ne_nil {x : Str} (h : x ≠ []) : doubled x ≠ [] := by
  cases x with
  | nil => exact absurd rfl h
  | cons c x => simp only [doubled]; split <;> simp

theorem printable_space {x : Str} (h : PlainText x) {c : Byte} (hc : c ∈ x) (hs : isSpace c = true) : c = 32 := by
  have := h c hc
  simp only [isSpace, Bool.or_eq_true, beq_iff_eq, Bool.and_eq_true, decide_eq_true_eq, UInt8.le_iff_toNat_le] at hs
  rcases hs with hs | ⟨_, h13⟩
  · exact hs
  · have : c.toNat ≤ 13 := h13
    omega

theorem withoutTrailing_last {x y : Str} (hp : PlainText x) (h : WithoutTrailing x y) : ∀ c, y.getLast? = some c → isSpace c = false := by
  obtain ⟨n, rfl, hl⟩ := h
  intro c hc
  cases hs : isSpace c with
  | false => rfl
  | true =>
    have := printable_space hp (List.mem_append_left _ (List.mem_of_getLast? hc)) hs
    subst this
    exact absurd hc hl

/-- Trimming text that begins with a quote. -/
theorem trim_quote {p w : Str} (hp : PlainText p) (h : WithoutTrailing p w) : trim (39 :: p) = 39 :: w := by
  have hl := withoutTrailing_last hp h
  obtain ⟨n, rfl, _⟩ := h
  have : (39 :: (w ++ List.replicate n 32) : Str) = [] ++ (39 :: w) ++ spaces n := by simp [spaces]
  rw [this]
  refine trim_unique (by simp) (spaces_allSpace n) ⟨?_, ?_⟩
  · intro c hc; simp at hc; subst hc; rfl
  · intro c hc
    cases w with
    | nil => simp at hc; subst hc; rfl
    | cons a t => rw [List.getLast?_cons_cons] at hc; exact hl c hc

theorem withoutTrailing_exists (x : Str) : ∃ y, WithoutTrailing x y := by
  induction x using List.reverseRecOn with
  | nil => exact ⟨[], 0, rfl, by simp⟩
  | append_singleton x c ih =>
    by_cases hc : c = 32
    · obtain ⟨y, n, h1, h2⟩ := ih
      exact ⟨y, n + 1, by rw [hc, h1, List.replicate_succ', List.append_assoc], h2⟩
    · exact ⟨x ++ [c], 0, by simp, by simp [hc]⟩

/-- A string value whose text is cut off behind the opening quote. -/
theorem valueImp_cut {F : FloatText} {raw v p w : Str} (h : extractValue raw = .ok v) (hv : trim v = trim (39 :: p)) (hp : PlainText p)
    (hw : WithoutTrailing p w) :
    Card.valueImp F raw .string = if w = [] then .error .ub else .ok (.string (trim w.dropLast)) := by
  rw [valueImp_text h, hv, trim_quote hp hw]
  cases w <;> simp

end Astro
