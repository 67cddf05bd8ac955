import Verif.Model.Basic

/-
Helper lemmas about strings: trimming, sub-strings, searching, decimal numbers.
-/

namespace Astro

@[simp] theorem spaces_length (n : Nat) : (spaces n).length = n := by simp [spaces]
@[simp] theorem spaces_zero : spaces 0 = [] := rfl

theorem mem_spaces {c : Byte} {n : Nat} (h : c ∈ spaces n) : c = 32 :=
  (List.mem_replicate.1 h).2

theorem spaces_allSpace (n : Nat) : ∀ c ∈ spaces n, isSpace c = true := by
  intro c hc; rw [mem_spaces hc]; decide

theorem spaces_add (a b : Nat) : spaces a ++ spaces b = spaces (a + b) := by
  simp [spaces]

/-! ### dropWhile -/

theorem dropWhile_all {p : Byte → Bool} {a : Str} (h : ∀ c ∈ a, p c = true) (b : Str) :
    (a ++ b).dropWhile p = b.dropWhile p := by
  induction a with
  | nil => rfl
  | cons x t ih =>
    have hx : p x = true := h x (by simp)
    simp only [List.cons_append, List.dropWhile_cons, hx, if_true]
    exact ih (fun c hc => h c (by simp [hc]))

theorem dropWhile_self_all {p : Byte → Bool} {a : Str} (h : ∀ c ∈ a, p c = true) :
    a.dropWhile p = [] := by
  have := dropWhile_all h []
  simpa using this

theorem dropWhile_split (p : Byte → Bool) (s : Str) :
    ∃ a, s = a ++ s.dropWhile p ∧ (∀ c ∈ a, p c = true) ∧
      (∀ c, (s.dropWhile p).head? = some c → p c = false) := by
  induction s with
  | nil => exact ⟨[], by simp⟩
  | cons x t ih =>
    obtain ⟨a, h1, h2, h3⟩ := ih
    by_cases hx : p x = true
    · refine ⟨x :: a, ?_, ?_, ?_⟩
      · simp only [List.dropWhile_cons, hx, if_true, List.cons_append]; rw [← h1]
      · intro c hc; cases List.mem_cons.1 hc with
        | inl h => rw [h]; exact hx
        | inr h => exact h2 c h
      · simpa only [List.dropWhile_cons, hx, if_true] using h3
    · refine ⟨[], ?_, by simp, ?_⟩
      · simp [hx]
      · intro c hc
        simp only [List.dropWhile_cons, hx] at hc
        simp at hc
        rw [← hc]; simpa using hx

theorem dropWhile_head {p : Byte → Bool} {s : Str} (h : ∀ c, s.head? = some c → p c = false) :
    s.dropWhile p = s := by
  cases s with
  | nil => rfl
  | cons x t =>
    have := h x rfl
    simp [this]

/-- No white space at either end. -/
def Trimmed (s : Str) : Prop :=
  (∀ c, s.head? = some c → isSpace c = false) ∧ (∀ c, s.getLast? = some c → isSpace c = false)

theorem trimL_of_head {s : Str} (h : ∀ c, s.head? = some c → isSpace c = false) : trimL s = s :=
  dropWhile_head h

theorem trimR_of_last {s : Str} (h : ∀ c, s.getLast? = some c → isSpace c = false) : trimR s = s := by
  unfold trimR
  rw [dropWhile_head (s := s.reverse)]
  · simp
  · intro c hc; apply h; simpa using hc

theorem trim_of_trimmed {s : Str} (h : Trimmed s) : trim s = s := by
  unfold trim; rw [trimL_of_head h.1, trimR_of_last h.2]

theorem trimL_append_left {a : Str} (h : ∀ c ∈ a, isSpace c = true) (b : Str) :
    trimL (a ++ b) = trimL b := dropWhile_all h b

theorem trimR_append_right {b : Str} (h : ∀ c ∈ b, isSpace c = true) (a : Str) :
    trimR (a ++ b) = trimR a := by
  unfold trimR
  rw [List.reverse_append, dropWhile_all]
  intro c hc; exact h c (by simpa using hc)

theorem trimL_all {a : Str} (h : ∀ c ∈ a, isSpace c = true) : trimL a = [] := dropWhile_self_all h

theorem trimR_nil : trimR [] = [] := rfl

theorem trim_all {a : Str} (h : ∀ c ∈ a, isSpace c = true) : trim a = [] := by
  unfold trim; rw [trimL_all h]; rfl

/-- Decomposition of `trim`. -/
theorem trim_split (s : Str) : ∃ a b, s = a ++ trim s ++ b ∧ (∀ c ∈ a, isSpace c = true) ∧
    (∀ c ∈ b, isSpace c = true) ∧ Trimmed (trim s) := by
  obtain ⟨a, h1, h2, h3⟩ := dropWhile_split isSpace s
  obtain ⟨b, g1, g2, g3⟩ := dropWhile_split isSpace (trimL s).reverse
  have e : trimL s = trim s ++ b.reverse := by
    have := congrArg List.reverse g1
    simpa [trim, trimR] using this
  refine ⟨a, b.reverse, ?_, h2, ?_, ?_, ?_⟩
  · rw [List.append_assoc, ← e]; exact h1
  · intro c hc; exact g2 c (by simpa using hc)
  · intro c hc
    apply h3
    change (trimL s).head? = some c
    rw [e]
    cases ht : trim s with
    | nil => rw [ht] at hc; simp at hc
    | cons x t => rw [ht] at hc; simpa using hc
  · intro c hc
    apply g3
    have : ((trimL s).reverse.dropWhile isSpace) = (trim s).reverse := by simp [trim, trimR]
    rw [this]; simpa using hc

theorem trim_unique {a t b : Str} (ha : ∀ c ∈ a, isSpace c = true) (hb : ∀ c ∈ b, isSpace c = true)
    (ht : Trimmed t) : trim (a ++ t ++ b) = t := by
  unfold trim
  rw [List.append_assoc, trimL_append_left ha]
  cases t with
  | nil => rw [List.nil_append, trimL_all hb]; rfl
  | cons x r =>
    have hx : isSpace x = false := ht.1 x rfl
    have : trimL ((x :: r) ++ b) = (x :: r) ++ b := by
      apply trimL_of_head; intro c hc; simp at hc; rw [← hc]; exact hx
    rw [this, trimR_append_right hb]
    exact trimR_of_last ht.2

theorem trim_append {a b : Str} (ha : ∀ c ∈ a, isSpace c = true) (hb : ∀ c ∈ b, isSpace c = true)
    (s : Str) : trim (a ++ s ++ b) = trim s := by
  obtain ⟨a', b', h, h1, h2, h3⟩ := trim_split s
  have : a ++ s ++ b = (a ++ a') ++ trim s ++ (b' ++ b) := by
    rw [h]; rw [trim_unique h1 h2 h3]; simp
  rw [this]
  apply trim_unique _ _ h3
  · intro c hc; rcases List.mem_append.1 hc with h | h
    · exact ha c h
    · exact h1 c h
  · intro c hc; rcases List.mem_append.1 hc with h | h
    · exact h2 c h
    · exact hb c h

theorem trim_idem (s : Str) : trim (trim s) = trim s := by
  obtain ⟨_, _, _, _, _, h⟩ := trim_split s
  exact trim_of_trimmed h

theorem trim_trimmed (s : Str) : Trimmed (trim s) := by
  obtain ⟨_, _, _, _, _, h⟩ := trim_split s
  exact h

theorem trim_spaces_left (n : Nat) (s : Str) : trim (spaces n ++ s) = trim s := by
  have := trim_append (spaces_allSpace n) (b := []) (by simp) s
  simpa using this

theorem trim_spaces_right (s : Str) (n : Nat) : trim (s ++ spaces n) = trim s := by
  have := trim_append (a := []) (by simp) (spaces_allSpace n) s
  simpa using this

theorem trim_cons_space (s : Str) : trim (32 :: s) = trim s := trim_spaces_left 1 s

theorem mem_of_mem_trim {s : Str} {c : Byte} (h : c ∈ trim s) : c ∈ s := by
  obtain ⟨a, b, e, _, _, _⟩ := trim_split s
  rw [e]; simp [h]

/-- Bytes that are not white space are neither lost nor added by trimming. -/
theorem count_trim {c : Byte} (hc : isSpace c = false) (s : Str) : (trim s).count c = s.count c := by
  obtain ⟨a, b, e, h1, h2, _⟩ := trim_split s
  have ha : a.count c = 0 := List.count_eq_zero.2 (fun h => by have := h1 c h; simp [hc] at this)
  have hb : b.count c = 0 := List.count_eq_zero.2 (fun h => by have := h2 c h; simp [hc] at this)
  conv => rhs; rw [e]
  simp [List.count_append, ha, hb]

theorem trim_length_le (s : Str) : (trim s).length ≤ s.length := by
  obtain ⟨a, b, e, _, _, _⟩ := trim_split s
  conv => rhs; rw [e]
  simp; omega

/-! ### substr, find -/

theorem substr_ok {s : Str} {pos n : Nat} (h : pos ≤ s.length) :
    substr s pos n = .ok ((s.drop pos).take n) := by
  unfold substr; rw [if_neg (by omega)]

theorem substr_error {s : Str} {pos n : Nat} (h : s.length < pos) :
    substr s pos n = .error .outOfRange := by
  unfold substr; rw [if_pos h]

theorem findByte_append {a b : Str} {c : Byte} (h : c ∉ a) : findByte (a ++ c :: b) c = a.length := by
  unfold findByte
  have : (a ++ c :: b).findIdx? (· == c) = some a.length := by
    rw [List.findIdx?_eq_some_iff_getElem]
    refine ⟨by simp, by simp, ?_⟩
    intro j hj
    rw [List.getElem_append_left hj]
    intro e
    apply h
    have : a[j] = c := by simpa using e
    rw [← this]; exact List.getElem_mem _
  rw [this]

theorem findByte_none {s : Str} {c : Byte} (h : c ∉ s) : findByte s c = npos := by
  unfold findByte
  have : s.findIdx? (· == c) = none := by
    rw [List.findIdx?_eq_none_iff]
    intro x hx
    simp only [beq_eq_false_iff_ne]
    intro e; exact h (e ▸ hx)
  rw [this]

/-- First occurrence splits the string. -/
theorem split_first {s : Str} {c : Byte} (h : c ∈ s) : ∃ a b, s = a ++ c :: b ∧ c ∉ a := by
  induction s with
  | nil => simp at h
  | cons x t ih =>
    by_cases hx : x = c
    · exact ⟨[], t, by simp [hx], by simp⟩
    · have : c ∈ t := by
        rcases List.mem_cons.1 h with h | h
        · exact absurd h.symm hx
        · exact h
      obtain ⟨a, b, e, hn⟩ := ih this
      refine ⟨x :: a, b, by simp [e], ?_⟩
      intro hc; rcases List.mem_cons.1 hc with h | h
      · exact hx h.symm
      · exact hn h

theorem szSub_le {a b : Nat} (h : b ≤ a) (ha : a < sizeMod) : szSub a b = a - b := by
  unfold szSub sizeMod at *; omega

theorem szSub_wrap {a b : Nat} (h : a < b) (hb : b ≤ sizeMod) : szSub a b = sizeMod - (b - a) := by
  unfold szSub sizeMod at *; omega

theorem padCount_ok {t l : Nat} (h : l ≤ t) : padCount t l = .ok (t - l) := if_pos h

theorem padCount_error {t l : Nat} (h : t < l) : padCount t l = .error .lengthError := if_neg (by omega)

/-! ### decimal numbers -/

theorem showNatAux_stable : ∀ (f g n : Nat), n < f → n < g → showNatAux f n = showNatAux g n := by
  intro f
  induction f with
  | zero => intro g n h _; omega
  | succ f ih =>
    intro g n hf hg
    cases g with
    | zero => omega
    | succ g =>
      unfold showNatAux
      by_cases h : n < 10
      · simp [h]
      · simp only [h, if_false]
        rw [ih g (n / 10) (by omega) (by omega)]

theorem showNat_small {n : Nat} (h : n < 10) : showNat n = [digitByte n] := by
  unfold showNat showNatAux; simp [h]

theorem showNat_big {n : Nat} (h : ¬ n < 10) :
    showNat n = showNat (n / 10) ++ [digitByte (n % 10)] := by
  unfold showNat
  conv => lhs; unfold showNatAux
  simp only [h, if_false]
  rw [showNatAux_stable n (n / 10 + 1) (n / 10) (by omega) (by omega)]

theorem digitByte_toNat {d : Nat} (h : d < 10) : (digitByte d).toNat = 48 + d := by
  unfold digitByte; simp; omega

theorem digitByte_isDigit {d : Nat} (h : d < 10) : isDigit (digitByte d) = true := by
  have := digitByte_toNat h
  simp only [isDigit, UInt8.le_iff_toNat_le, Bool.and_eq_true, decide_eq_true_eq, this]
  have e1 : (48 : UInt8).toNat = 48 := rfl
  have e2 : (57 : UInt8).toNat = 57 := rfl
  omega

theorem showNat_digits (n : Nat) : ∀ c ∈ showNat n, isDigit c = true := by
  induction n using Nat.strongRecOn with
  | ind n ih =>
    by_cases h : n < 10
    · rw [showNat_small h]; intro c hc; simp at hc; rw [hc]; exact digitByte_isDigit h
    · rw [showNat_big h]; intro c hc
      rcases List.mem_append.1 hc with h' | h'
      · exact ih (n / 10) (by omega) c h'
      · simp at h'; rw [h']; exact digitByte_isDigit (by omega)

theorem showNat_ne_nil (n : Nat) : showNat n ≠ [] := by
  by_cases h : n < 10
  · rw [showNat_small h]; simp
  · rw [showNat_big h]; simp

/-- `n` has at most `k` digits exactly when `n < 10^k`. -/
theorem showNat_length_le (k : Nat) : ∀ n, 0 < k → ((showNat n).length ≤ k ↔ n < 10 ^ k) := by
  induction k with
  | zero => intro n h; omega
  | succ k ih =>
    intro n _
    by_cases h : n < 10
    · rw [showNat_small h]
      have : 10 ^ 1 ≤ 10 ^ (k + 1) := Nat.pow_le_pow_right (by omega) (by omega)
      simp; omega
    · rw [showNat_big h]
      cases k with
      | zero =>
        have := List.length_pos_iff.2 (showNat_ne_nil (n / 10))
        simp only [List.length_append, List.length_cons, List.length_nil, Nat.zero_add, Nat.pow_one]
        omega
      | succ k =>
        have := ih (n / 10) (by omega)
        simp only [List.length_append, List.length_cons, List.length_nil]
        have e : 10 ^ (k + 1 + 1) = 10 * 10 ^ (k + 1) := by rw [Nat.pow_succ]; omega
        rw [e]; omega

theorem parseDigits_append (s : Str) (c : Byte) (a : Nat) :
    (s ++ [c]).foldlM (fun a c => if isDigit c then some (a * 10 + (c.toNat - 48)) else none) a
    = (s.foldlM (fun a c => if isDigit c then some (a * 10 + (c.toNat - 48)) else none) a).bind
        (fun a => if isDigit c then some (a * 10 + (c.toNat - 48)) else none) := by
  rw [List.foldlM_append]
  simp [Option.bind_eq_bind]

theorem parseNat_eq {s : Str} (h : s ≠ []) :
    parseNat s = s.foldlM (fun a c => if isDigit c then some (a * 10 + (c.toNat - 48)) else none) 0 := by
  unfold parseNat; cases s with
  | nil => exact absurd rfl h
  | cons => rfl

theorem parseNat_showNat (n : Nat) : parseNat (showNat n) = some n := by
  rw [parseNat_eq (showNat_ne_nil n)]
  induction n using Nat.strongRecOn with
  | ind n ih =>
    by_cases h : n < 10
    · rw [showNat_small h]
      simp [digitByte_isDigit h, digitByte_toNat h]
    · rw [showNat_big h, parseDigits_append, ih (n / 10) (by omega)]
      have h2 : n % 10 < 10 := by omega
      simp [digitByte_isDigit h2, digitByte_toNat h2]; omega

theorem parseDigits_none {s : Str} {c : Byte} (hc : c ∈ s) (hd : isDigit c = false) :
    ∀ a, s.foldlM (fun a c => if isDigit c then some (a * 10 + (c.toNat - 48)) else none) a = none := by
  induction s with
  | nil => simp at hc
  | cons x t ih =>
    intro a
    rcases List.mem_cons.1 hc with h | h
    · simp [List.foldlM, ← h, hd]
    · by_cases hx : isDigit x = true
      · simp only [List.foldlM, hx, if_true, Option.bind_eq_bind, Option.bind_some]
        exact ih h _
      · simp [List.foldlM, hx]

/-- A string containing a non-digit is not a number. -/
theorem parseNat_none {s : Str} {c : Byte} (hc : c ∈ s) (hd : isDigit c = false) : parseNat s = none := by
  rw [parseNat_eq (List.ne_nil_of_mem hc)]
  exact parseDigits_none hc hd 0

theorem parseDigits_some {s : Str} (h : ∀ c ∈ s, isDigit c = true) :
    ∀ a, ∃ n, s.foldlM (fun a c => if isDigit c then some (a * 10 + (c.toNat - 48)) else none) a = some n := by
  induction s with
  | nil => intro a; exact ⟨a, rfl⟩
  | cons x t ih =>
    intro a
    have hx := h x (by simp)
    simp only [List.foldlM, hx, if_true, Option.bind_eq_bind, Option.bind_some]
    exact ih (fun c hc => h c (by simp [hc])) _

/-- `parseNat` accepts exactly the non-empty digit strings. -/
theorem parseNat_isSome {s : Str} : (parseNat s).isSome = true ↔ s ≠ [] ∧ ∀ c ∈ s, isDigit c = true := by
  constructor
  · intro h
    refine ⟨?_, ?_⟩
    · intro e; rw [e] at h; simp [parseNat] at h
    · intro c hc
      cases hd : isDigit c with
      | true => rfl
      | false => rw [parseNat_none hc hd] at h; simp at h
  · rintro ⟨h1, h2⟩
    rw [parseNat_eq h1]
    obtain ⟨n, hn⟩ := parseDigits_some h2 0
    rw [hn]; rfl

theorem isDigit_not_space {c : Byte} (h : isDigit c = true) : isSpace c = false := by
  simp only [isDigit, isSpace, UInt8.le_iff_toNat_le, Bool.and_eq_true, decide_eq_true_eq] at *
  have e1 : (48 : UInt8).toNat = 48 := rfl
  have e2 : (57 : UInt8).toNat = 57 := rfl
  have e3 : (13 : UInt8).toNat = 13 := rfl
  have e5 : (32 : UInt8).toNat = 32 := rfl
  simp only [Bool.or_eq_false_iff, Bool.and_eq_false_iff, decide_eq_false_iff_not, beq_eq_false_iff_ne]
  refine ⟨?_, Or.inr (by omega)⟩
  intro e; rw [e] at h; omega

theorem isDigit_ne {c d : Byte} (h : isDigit c = true) (hd : isDigit d = false) : c ≠ d := by
  intro e; rw [e, hd] at h; cases h

theorem showNat_not_mem {c : Byte} (hd : isDigit c = false) (n : Nat) : c ∉ showNat n := by
  intro h; have := showNat_digits n c h; rw [hd] at this; cases this

theorem showNat_trimmed (n : Nat) : Trimmed (showNat n) := by
  refine ⟨?_, ?_⟩
  · intro c hc; exact isDigit_not_space (showNat_digits n c (List.mem_of_mem_head? (by simpa using hc)))
  · intro c hc; exact isDigit_not_space (showNat_digits n c (List.mem_of_getLast? hc))

theorem showInt_cases (i : Int) :
    (i < 0 ∧ showInt i = 45 :: showNat i.natAbs) ∨ (0 ≤ i ∧ showInt i = showNat i.natAbs) := by
  unfold showInt
  by_cases h : i < 0
  · left; exact ⟨h, by rw [if_pos h]⟩
  · right; exact ⟨by omega, by rw [if_neg h]⟩

theorem showInt_not_mem {c : Byte} (hd : isDigit c = false) (h45 : c ≠ 45) (i : Int) : c ∉ showInt i := by
  rcases showInt_cases i with ⟨_, e⟩ | ⟨_, e⟩ <;> rw [e]
  · intro h; rcases List.mem_cons.1 h with h | h
    · exact h45 h
    · exact showNat_not_mem hd _ h
  · exact showNat_not_mem hd _

theorem showInt_ne_nil (i : Int) : showInt i ≠ [] := by
  rcases showInt_cases i with ⟨_, e⟩ | ⟨_, e⟩ <;> rw [e]
  · simp
  · exact showNat_ne_nil _

theorem showInt_trimmed (i : Int) : Trimmed (showInt i) := by
  rcases showInt_cases i with ⟨_, e⟩ | ⟨_, e⟩ <;> rw [e]
  · refine ⟨?_, ?_⟩
    · intro c hc; simp at hc; rw [← hc]; decide
    · intro c hc
      apply (showNat_trimmed i.natAbs).2
      rw [List.getLast?_cons] at hc
      cases hl : (showNat i.natAbs).getLast? with
      | none => exact absurd (List.getLast?_eq_none_iff.1 hl) (showNat_ne_nil _)
      | some y => rw [hl] at hc; simpa using hc
  · exact showNat_trimmed _

theorem showNat_head_ne {c : Byte} (hd : isDigit c = false) (n : Nat) (x : Byte) (t : Str)
    (h : showNat n = x :: t) : x ≠ c :=
  isDigit_ne (showNat_digits n x (by rw [h]; simp)) hd

theorem lexUnsigned_showNat (w n : Nat) (h : n < 2 ^ w) :
    lexUnsigned w (showNat n) = .ok (BitVec.ofNat w n) := by
  have hp := parseNat_showNat n
  cases e : showNat n with
  | nil => exact absurd e (showNat_ne_nil n)
  | cons x t =>
    have h1 := showNat_head_ne (c := 45) (by decide) n x t e
    have h2 := showNat_head_ne (c := 43) (by decide) n x t e
    rw [e] at hp
    unfold lexUnsigned
    simp [h1, h2, hp, h]

theorem lexSigned_showInt (w : Nat) (hw : 0 < w) (v : BitVec w) : lexSigned w (showInt v.toInt) = .ok v := by
  have e2 : 2 ^ w = 2 * 2 ^ (w - 1) := by
    cases w with
    | zero => omega
    | succ k => rw [Nat.pow_succ]; simp; omega
  have hlt : 2 * v.toInt < 2 ^ w := by have := BitVec.toInt_lt (x := v); have := BitVec.two_mul_toInt_lt (x := v); exact_mod_cast this
  have hge : -(2 ^ w : Int) ≤ 2 * v.toInt := by have := BitVec.le_two_mul_toInt (x := v); exact_mod_cast this
  have e3 : (2 ^ w : Int) = 2 * ((2 ^ (w - 1) : Nat) : Int) := by
    have := congrArg (fun n : Nat => (n : Int)) e2
    push_cast at this ⊢
    exact this
  rcases showInt_cases v.toInt with ⟨hn, e⟩ | ⟨hn, e⟩ <;> rw [e]
  · unfold lexSigned
    have hb : v.toInt.natAbs ≤ 2 ^ (w - 1) := by omega
    simp only [if_true, parseNat_showNat]
    rw [if_pos hb]
    congr 1
    have : -((v.toInt.natAbs : Nat) : Int) = v.toInt := by omega
    rw [this, BitVec.ofInt_toInt]
  · have hp := parseNat_showNat v.toInt.natAbs
    cases e : showNat v.toInt.natAbs with
    | nil => exact absurd e (showNat_ne_nil _)
    | cons x t =>
      have h1 := showNat_head_ne (c := 45) (by decide) _ x t e
      have h2 := showNat_head_ne (c := 43) (by decide) _ x t e
      rw [e] at hp
      unfold lexSigned
      have hb : v.toInt.natAbs < 2 ^ (w - 1) := by omega
      simp only [h1, h2, if_false, hp]
      rw [if_pos hb]
      congr 1
      have : ((v.toInt.natAbs : Nat) : Int) = v.toInt := by omega
      rw [this, BitVec.ofInt_toInt]

end Astro
