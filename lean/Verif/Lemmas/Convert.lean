import Verif.Model.Convert
import Verif.Spec.Bytes
import Verif.Lemmas.Text

/-
Helper lemmas about bytes and numbers.
-/

namespace Astro.Bin

open Spec

theorem pow_bits (w : Nat) : 2 ^ (8 * w) = 256 ^ w := by
  rw [Nat.pow_mul]

theorem leValue_lt (s : Str) : leValue s < 256 ^ s.length := by
  unfold leValue
  induction s with
  | nil => simp
  | cons b t ih =>
    simp only [List.foldr_cons, List.length_cons, Nat.pow_succ]
    have := b.toNat_lt
    omega

theorem leValue_append (s t : Str) : leValue (s ++ t) = leValue s + 256 ^ s.length * leValue t := by
  unfold leValue
  induction s with
  | nil => simp
  | cons b s ih =>
    simp only [List.cons_append, List.foldr_cons, List.length_cons, Nat.pow_succ]
    rw [ih, Nat.mul_add, Nat.mul_comm (256 ^ s.length) 256, Nat.mul_assoc]
    omega

theorem bigEndian_eq (s : Str) : bigEndian s = leValue s.reverse := by
  induction s with
  | nil => rfl
  | cons b t ih =>
    rw [List.reverse_cons, leValue_append, ← ih]
    simp only [bigEndian, List.length_reverse, leValue, List.foldr_cons, List.foldr_nil, Nat.mul_zero, Nat.add_zero]
    rw [Nat.mul_comm]; omega

theorem bigEndian_lt (s : Str) : bigEndian s < 256 ^ s.length := by
  rw [bigEndian_eq]; simpa using leValue_lt s.reverse

theorem storeNative_length (w : Nat) (v : BitVec (8 * w)) : (storeNative w v).length = w := by
  simp [storeNative]

/-- The low `w` bytes of `n`. -/
def natBytes : Nat → Nat → Str
  | 0, _ => []
  | w + 1, n => UInt8.ofNat (n % 256) :: natBytes w (n / 256)

theorem natBytes_eq (w n : Nat) : (List.range w).map (fun i => UInt8.ofNat (n / 256 ^ i % 256)) = natBytes w n := by
  induction w generalizing n with
  | zero => rfl
  | succ w ih =>
    rw [List.range_succ_eq_map]
    simp only [List.map_cons, List.map_map, natBytes, Nat.pow_zero, Nat.div_one, List.cons.injEq, true_and]
    rw [← ih]
    apply List.map_congr_left
    intro i _
    simp only [Function.comp, Nat.pow_succ]
    rw [Nat.mul_comm, Nat.div_div_eq_div_mul]

theorem leValue_natBytes (w n : Nat) (h : n < 256 ^ w) : leValue (natBytes w n) = n := by
  induction w generalizing n with
  | zero => simp [natBytes, leValue] at *; omega
  | succ w ih =>
    have : n / 256 < 256 ^ w := by rw [Nat.pow_succ] at h; omega
    have := ih _ this
    simp only [natBytes, leValue, List.foldr_cons] at *
    rw [this]
    simp
    omega

theorem leValue_store (w : Nat) (v : BitVec (8 * w)) : leValue (storeNative w v) = v.toNat := by
  unfold storeNative
  rw [natBytes_eq, leValue_natBytes _ _ (by rw [← pow_bits]; exact v.isLt)]

theorem leValue_inj {s t : Str} (hl : s.length = t.length) (h : leValue s = leValue t) : s = t := by
  induction s generalizing t with
  | nil => cases t with
    | nil => rfl
    | cons => simp at hl
  | cons b s ih =>
    cases t with
    | nil => simp at hl
    | cons c t =>
      simp only [leValue, List.foldr_cons] at h
      have h1 := b.toNat_lt
      have h2 := c.toNat_lt
      have e1 : b.toNat = c.toNat := by omega
      have e2 : leValue s = leValue t := by unfold leValue; omega
      rw [UInt8.toNat_inj.1 e1, ih (by simpa using hl) e2]

theorem loadNative_toNat {w : Nat} {s : Str} (h : s.length = w) : (loadNative w s).toNat = leValue s := by
  unfold loadNative
  rw [BitVec.toNat_ofNat, Nat.mod_eq_of_lt]
  rw [pow_bits, ← h]; exact leValue_lt s

theorem store_load {w : Nat} {s : Str} (h : s.length = w) : storeNative w (loadNative w s) = s := by
  apply leValue_inj
  · rw [storeNative_length, h]
  · rw [leValue_store, loadNative_toNat h]

theorem load_store (w : Nat) (v : BitVec (8 * w)) : loadNative w (storeNative w v) = v := by
  apply BitVec.eq_of_toNat_eq
  rw [loadNative_toNat (storeNative_length w v), leValue_store]

theorem swap_swap (w : Nat) (v : BitVec (8 * w)) : swap w (swap w v) = v := by
  unfold swap
  rw [store_load (by simp [storeNative_length]), List.reverse_reverse, load_store]

theorem decode_isBE {w : Nat} {b : Str} (h : b.length = w) : IsBE w (swap w (loadNative w b)) b := by
  refine ⟨h, ?_⟩
  unfold swap
  rw [store_load h, loadNative_toNat (by simpa using h), bigEndian_eq]

theorem serialize_isBE (w : Nat) (v : BitVec (8 * w)) : IsBE w v (serialize w v) := by
  unfold serialize
  refine ⟨storeNative_length _ _, ?_⟩
  rw [bigEndian_eq]
  unfold swap
  rw [store_load (by simp [storeNative_length]), List.reverse_reverse, leValue_store]

theorem isBE_unique {w : Nat} {v : BitVec (8 * w)} {s t : Str} (hs : IsBE w v s) (ht : IsBE w v t) : s = t := by
  have h : s.reverse = t.reverse := by
    apply leValue_inj
    · simp [hs.1, ht.1]
    · rw [← bigEndian_eq, ← bigEndian_eq, hs.2, ht.2]
  simpa using congrArg List.reverse h

theorem isBE_fun {w : Nat} {v v' : BitVec (8 * w)} {s : Str} (hs : IsBE w v s) (ht : IsBE w v' s) : v = v' :=
  BitVec.eq_of_toNat_eq (by rw [← hs.2, ← ht.2])

theorem isBE_iff_serialize {w : Nat} {v : BitVec (8 * w)} {s : Str} : IsBE w v s ↔ s = serialize w v :=
  ⟨fun h => isBE_unique h (serialize_isBE w v), fun h => h ▸ serialize_isBE w v⟩

theorem isBE_iff_decode {w : Nat} {v : BitVec (8 * w)} {b : Str} (h : b.length = w) :
    IsBE w v b ↔ swap w (loadNative w b) = v :=
  ⟨fun h' => isBE_fun (decode_isBE h) h', fun h' => h' ▸ decode_isBE h⟩

theorem serialize_length (w : Nat) (v : BitVec (8 * w)) : (serialize w v).length = w := (serialize_isBE w v).1

theorem decode_serialize (w : Nat) (v : BitVec (8 * w)) : swap w (loadNative w (serialize w v)) = v :=
  (isBE_iff_decode (serialize_length w v)).1 (serialize_isBE w v)

theorem cstr_length (s : Str) : (cstr s).length = s.length + 1 := by simp [cstr]

theorem peek_ok {w off : Nat} {s : Str} (h : off + w ≤ s.length + 1) :
    peek w s off = .ok (((s ++ [0]).drop off).take w) := by
  unfold peek; rw [if_pos (by rw [cstr_length]; exact h)]; rfl

theorem peek_error {w off : Nat} {s : Str} (h : s.length + 1 < off + w) : peek w s off = .error .ub := by
  unfold peek; rw [if_neg (by rw [cstr_length]; omega)]

theorem peek_length {w off : Nat} {s : Str} (h : off + w ≤ s.length + 1) :
    (((s ++ [0]).drop off).take w).length = w := by
  simp; omega

/-- Inside the string the terminator is not seen. -/
theorem peek_inside {w off : Nat} {s : Str} (h : off + w ≤ s.length) :
    peek w s off = .ok ((s.drop off).take w) := by
  rw [peek_ok (by omega), List.drop_append_of_le_length (by omega), List.take_append_of_le_length (by simp; omega)]

theorem peek_append {w : Nat} {a b c : Str} (hb : b.length = w) : peek w (a ++ b ++ c) a.length = .ok b := by
  rw [peek_inside (by simp; omega), List.append_assoc, List.drop_left, List.take_left' hb]

theorem serializeAll_append {α : Type} (f : α → Str) (l : List α) : ∀ a, l.foldl (fun a x => a ++ f x) a = a ++ serializeAll f l := by
  unfold serializeAll
  induction l with
  | nil => simp
  | cons x l ih =>
    intro a
    simp only [List.foldl_cons, List.nil_append]
    rw [ih, ih (f x), List.append_assoc]

theorem serializeAll_cons {α : Type} (f : α → Str) (x : α) (l : List α) : serializeAll f (x :: l) = f x ++ serializeAll f l := by
  have := serializeAll_append f l (f x)
  unfold serializeAll at *
  exact this

theorem serializeAll_nil {α : Type} (f : α → Str) : serializeAll f [] = [] := rfl

theorem serializeAll_length {α : Type} {f : α → Str} {w : Nat} (hf : ∀ x, (f x).length = w) (l : List α) :
    (serializeAll f l).length = l.length * w := by
  induction l with
  | nil => simp [serializeAll_nil]
  | cons x l ih => rw [serializeAll_cons, List.length_append, ih, hf, List.length_cons, Nat.succ_mul]; omega

/-! ### the loops -/

theorem numericLoop_ok {w : Nat} {s : Str} : ∀ (n i : Nat), (i + n) * w ≤ s.length + 1 →
    ∃ l, numericLoop w s i n = .ok l ∧ l.length = n ∧
      ∀ k (hk : k < l.length), IsBE w l[k] (((s ++ [0]).drop ((i + k) * w)).take w) := by
  intro n
  induction n with
  | zero => intro i _; exact ⟨[], rfl, rfl, fun k hk => absurd hk (by simp)⟩
  | succ n ih =>
    intro i h
    obtain ⟨l, h1, h2, h3⟩ := ih (i + 1) (by rw [show i + 1 + n = i + (n + 1) by omega]; exact h)
    have hi : i * w + w ≤ s.length + 1 := by
      have : (i + 1) * w ≤ (i + (n + 1)) * w := Nat.mul_le_mul_right _ (by omega)
      rw [Nat.succ_mul] at this; omega
    refine ⟨swap w (loadNative w (((s ++ [0]).drop (i * w)).take w)) :: l, ?_, by simp [h2], ?_⟩
    · simp only [numericLoop, peek_ok hi, h1]; rfl
    · intro k hk
      cases k with
      | zero => simp only [List.getElem_cons_zero, Nat.add_zero]; exact decode_isBE (peek_length hi)
      | succ k =>
        simp only [List.getElem_cons_succ]
        rw [show i + (k + 1) = i + 1 + k by omega]
        exact h3 k (by simpa using hk)

theorem numericLoop_ub {w : Nat} {s : Str} : ∀ (n i : Nat), i * w ≤ s.length + 1 → s.length + 1 < (i + n) * w →
    numericLoop w s i n = .error .ub := by
  intro n
  induction n with
  | zero => intro i h1 h2; simp at h2; omega
  | succ n ih =>
    intro i h1 h2
    by_cases hi : i * w + w ≤ s.length + 1
    · have := ih (i + 1) (by rw [Nat.succ_mul]; exact hi) (by rw [show i + 1 + n = i + (n + 1) by omega]; exact h2)
      simp only [numericLoop, peek_ok hi, this]; rfl
    · simp only [numericLoop]
      rw [peek_error (by omega)]; rfl

theorem numericLoop_serialize {w : Nat} (l : List (BitVec (8 * w))) : ∀ (p : List (BitVec (8 * w))) (c : Str),
    numericLoop w (serializeAll (serialize w) p ++ serializeAll (serialize w) l ++ c) p.length l.length = .ok l := by
  induction l with
  | nil => intro p c; rfl
  | cons x l ih =>
    intro p c
    simp only [List.length_cons, numericLoop]
    have hp : p.length * w = (serializeAll (serialize w) p).length := (serializeAll_length (serialize_length w) p).symm
    have hpk : peek w (serializeAll (serialize w) p ++ serializeAll (serialize w) (x :: l) ++ c) (p.length * w) = .ok (serialize w x) := by
      rw [hp, serializeAll_cons, ← List.append_assoc, List.append_assoc _ _ c]
      exact peek_append (serialize_length w x)
    rw [hpk]
    have := ih (p ++ [x]) c
    have e : serializeAll (serialize w) (p ++ [x]) ++ serializeAll (serialize w) l =
        serializeAll (serialize w) p ++ serializeAll (serialize w) (x :: l) := by
      have : serializeAll (serialize w) (p ++ [x]) = serializeAll (serialize w) p ++ serialize w x := by
        unfold serializeAll; simp
      rw [this, serializeAll_cons, List.append_assoc]
    rw [e, List.length_append] at this
    simp only [List.length_cons, List.length_nil, Nat.zero_add] at this
    simp only [bind, Except.bind, this, decode_serialize, pure, Except.pure]

theorem elementToComplex_ok {w : Nat} {s : Str} (h : w * 2 ≤ s.length) : ∃ c, elementToComplex w s = .ok c ∧
    IsBE w c.1 (s.take w) ∧ IsBE w c.2 ((s.drop w).take w) := by
  unfold elementToComplex
  rw [peek_inside (by omega), peek_inside (by omega)]
  refine ⟨_, rfl, ?_, ?_⟩
  · exact decode_isBE (by simp; omega)
  · exact decode_isBE (by simp; omega)

theorem serializePair_length (w : Nat) (p : BitVec (8 * w) × BitVec (8 * w)) : (serializePair w p).length = w * 2 := by
  unfold serializePair; rw [List.length_append, serialize_length, serialize_length]; omega

theorem elementToComplex_serialize (w : Nat) (p : BitVec (8 * w) × BitVec (8 * w)) (t : Str) :
    elementToComplex w (serializePair w p ++ t) = .ok p := by
  obtain ⟨c, h1, h2, h3⟩ := elementToComplex_ok (w := w) (s := serializePair w p ++ t)
    (by rw [List.length_append, serializePair_length]; omega)
  rw [h1]
  unfold serializePair at h2 h3
  rw [List.append_assoc, List.take_left' (serialize_length w p.1)] at h2
  rw [List.append_assoc, List.drop_left' (serialize_length w p.1), List.take_left' (serialize_length w p.2)] at h3
  rw [show c = p from Prod.ext (isBE_fun h2 (serialize_isBE w _)) (isBE_fun h3 (serialize_isBE w _))]

theorem complexLoop_ok {w : Nat} {s : Str} : ∀ (n i : Nat), (i + n) * (w * 2) ≤ s.length + 1 →
    ∃ l, complexLoop w s (i * (w * 2)) n = .ok l ∧ l.length = n ∧
      ∀ k (hk : k < l.length), IsBE w l[k].1 (((s ++ [0]).drop ((2 * (i + k)) * w)).take w) ∧
        IsBE w l[k].2 (((s ++ [0]).drop ((2 * (i + k) + 1) * w)).take w) := by
  intro n
  induction n with
  | zero => intro i _; exact ⟨[], rfl, rfl, fun k hk => absurd hk (by simp)⟩
  | succ n ih =>
    intro i h
    obtain ⟨l, h1, h2, h3⟩ := ih (i + 1) (by rw [show i + 1 + n = i + (n + 1) by omega]; exact h)
    have hi : i * (w * 2) + w * 2 ≤ s.length + 1 := by
      have : (i + 1) * (w * 2) ≤ (i + (n + 1)) * (w * 2) := Nat.mul_le_mul_right _ (by omega)
      rw [Nat.succ_mul] at this; omega
    obtain ⟨c, hc1, hc2, hc3⟩ := elementToComplex_ok (w := w) (s := ((s ++ [0]).drop (i * (w * 2))).take (w * 2))
      (by rw [peek_length hi]; omega)
    refine ⟨c :: l, ?_, by simp [h2], ?_⟩
    · rw [Nat.succ_mul i] at h1
      simp only [complexLoop, peek_ok hi, h1, hc1, bind, Except.bind]; rfl
    · intro k hk
      cases k with
      | zero =>
        simp only [List.getElem_cons_zero, Nat.add_zero]
        rw [List.take_take, Nat.min_eq_left (by omega)] at hc2
        rw [List.drop_take, List.take_take, Nat.min_eq_left (by omega), List.drop_drop] at hc3
        refine ⟨?_, ?_⟩
        · rw [show 2 * i * w = i * (w * 2) by rw [Nat.mul_comm 2 i, Nat.mul_assoc, Nat.mul_comm 2 w]]; exact hc2
        · rw [show (2 * i + 1) * w = i * (w * 2) + w by
            rw [Nat.add_mul, Nat.mul_comm 2 i, Nat.mul_assoc, Nat.mul_comm 2 w, Nat.one_mul]]; exact hc3
      | succ k =>
        simp only [List.getElem_cons_succ]
        rw [show i + (k + 1) = i + 1 + k by omega]
        exact h3 k (by simpa using hk)

theorem complexLoop_ub {w : Nat} {s : Str} : ∀ (n i : Nat), i * (w * 2) ≤ s.length + 1 → s.length + 1 < (i + n) * (w * 2) →
    complexLoop w s (i * (w * 2)) n = .error .ub := by
  intro n
  induction n with
  | zero => intro i h1 h2; simp at h2; omega
  | succ n ih =>
    intro i h1 h2
    by_cases hi : i * (w * 2) + w * 2 ≤ s.length + 1
    · have := ih (i + 1) (by rw [Nat.succ_mul]; exact hi) (by rw [show i + 1 + n = i + (n + 1) by omega]; exact h2)
      rw [Nat.succ_mul i] at this
      obtain ⟨c, hc1, hc2, hc3⟩ := elementToComplex_ok (w := w) (s := ((s ++ [0]).drop (i * (w * 2))).take (w * 2))
        (by rw [peek_length hi]; omega)
      simp only [complexLoop, peek_ok hi, this, hc1, bind, Except.bind]
    · simp only [complexLoop]
      rw [peek_error (by omega)]; rfl

theorem complexLoop_serialize {w : Nat} (l : List (BitVec (8 * w) × BitVec (8 * w))) : ∀ (a c : Str),
    complexLoop w (a ++ serializeAll (serializePair w) l ++ c) a.length l.length = .ok l := by
  induction l with
  | nil => intro p c; rfl
  | cons x l ih =>
    intro a c
    simp only [List.length_cons, complexLoop]
    rw [serializeAll_cons]
    have e : a ++ (serializePair w x ++ serializeAll (serializePair w) l) ++ c =
        a ++ serializePair w x ++ (serializeAll (serializePair w) l ++ c) := by simp
    rw [e, peek_append (serializePair_length w x)]
    have h1 := ih (a ++ serializePair w x) c
    rw [List.append_assoc _ _ c, List.length_append, serializePair_length] at h1
    have h2 := elementToComplex_serialize w x []
    rw [List.append_nil] at h2
    simp only [bind, Except.bind, h2, h1, pure, Except.pure]

/-! ### trimming of quotes and blanks -/

theorem trimQuotes_split (s : Str) : ∃ a b, s = a ++ trimQuotes s ++ b ∧ (∀ c ∈ a, quoteOrBlank c = true) ∧
    (∀ c ∈ b, quoteOrBlank c = true) ∧ (∀ c, (trimQuotes s).head? = some c → quoteOrBlank c = false) ∧
    (∀ c, (trimQuotes s).getLast? = some c → quoteOrBlank c = false) := by
  obtain ⟨a, h1, h2, h3⟩ := dropWhile_split quoteOrBlank s
  obtain ⟨b, g1, g2, g3⟩ := dropWhile_split quoteOrBlank (s.dropWhile quoteOrBlank).reverse
  have e : s.dropWhile quoteOrBlank = trimQuotes s ++ b.reverse := by
    have := congrArg List.reverse g1
    simpa [trimQuotes] using this
  refine ⟨a, b.reverse, ?_, h2, ?_, ?_, ?_⟩
  · rw [List.append_assoc, ← e]; exact h1
  · intro c hc; exact g2 c (by simpa using hc)
  · intro c hc
    apply h3
    rw [e]
    cases ht : trimQuotes s with
    | nil => rw [ht] at hc; simp at hc
    | cons x t => rw [ht] at hc; simpa using hc
  · intro c hc
    apply g3
    have : ((s.dropWhile quoteOrBlank).reverse.dropWhile quoteOrBlank) = (trimQuotes s).reverse := by simp [trimQuotes]
    rw [this]; simpa using hc

theorem trimQuotes_unique {a t b : Str} (ha : ∀ c ∈ a, quoteOrBlank c = true) (hb : ∀ c ∈ b, quoteOrBlank c = true)
    (h1 : ∀ c, t.head? = some c → quoteOrBlank c = false) (h2 : ∀ c, t.getLast? = some c → quoteOrBlank c = false) :
    trimQuotes (a ++ t ++ b) = t := by
  unfold trimQuotes
  rw [List.append_assoc, dropWhile_all ha]
  cases t with
  | nil => rw [List.nil_append, dropWhile_self_all hb]; rfl
  | cons x r =>
    have hx : quoteOrBlank x = false := h1 x rfl
    have : ((x :: r) ++ b).dropWhile quoteOrBlank = (x :: r) ++ b := by
      apply dropWhile_head; intro c hc; simp at hc; rw [← hc]; exact hx
    rw [this, List.reverse_append, dropWhile_all (by intro c hc; exact hb c (by simpa using hc)), dropWhile_head]
    · simp
    · intro c hc; apply h2; rw [List.head?_reverse] at hc; exact hc

theorem quoteOrBlank_iff {c : Byte} : quoteOrBlank c = true ↔ c = 39 ∨ c = 32 := by
  unfold quoteOrBlank; simp

theorem quoteOrBlank_false {c : Byte} : quoteOrBlank c = false ↔ ¬ (c = 39 ∨ c = 32) := by
  rw [← quoteOrBlank_iff]; simp

end Astro.Bin
