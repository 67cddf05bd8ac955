import Verif.Lemmas.Convert

/-
Properties C15 - C19: binary conversion.
-/

namespace Astro

open Spec Bin

/-! ## C15 -/

/-- **C15** Encoding gives the big-endian form of the value, of exactly the field's width, and nothing else has that form. -/
theorem C15_serialize_big_endian (w : Nat) (v : BitVec (8 * w)) (s : Str) :
    s = serialize w v ↔ s.length = w ∧ bigEndian s = v.toNat :=
  isBE_iff_serialize.symm

/-- **C15** Decoding reads the first `w` bytes as a big-endian number (a field that is one byte short is completed by the terminating
zero byte); anything shorter is undefined behaviour. -/
theorem C15_decode (w : Nat) (s : Str) :
    (s.length + 1 < w → elementToNumeric w s = .error .ub) ∧
    (w ≤ s.length + 1 → ∃ v, elementToNumeric w s = .ok v ∧ bigEndian ((s ++ [0]).take w) = v.toNat) ∧
    (w ≤ s.length → ∃ v, elementToNumeric w s = .ok v ∧ bigEndian (s.take w) = v.toNat) := by
  refine ⟨?_, ?_, ?_⟩
  · intro h; unfold elementToNumeric; rw [peek_error (by omega)]; rfl
  · intro h
    unfold elementToNumeric; rw [peek_ok (by omega)]
    exact ⟨_, rfl, (decode_isBE (peek_length (w := w) (off := 0) (s := s) (by omega))).2⟩
  · intro h
    unfold elementToNumeric; rw [peek_inside (by omega)]
    exact ⟨_, rfl, (decode_isBE (by simp; omega)).2⟩

/-- **C15** Decode after encode is the identity on values. -/
theorem C15_decode_encode (w : Nat) (v : BitVec (8 * w)) : elementToNumeric w (serialize w v) = .ok v := by
  unfold elementToNumeric
  rw [peek_inside (by rw [serialize_length]; omega)]
  simp only [List.drop_zero]
  rw [List.take_of_length_le (by rw [serialize_length]; omega)]
  simp only [bind, Except.bind, pure, Except.pure, decode_serialize]

/-- **C15** Encode after decode is the identity on byte strings of the right width. -/
theorem C15_encode_decode (w : Nat) (s : Str) (h : s.length = w) : (elementToNumeric w s).map (serialize w) = .ok s := by
  unfold elementToNumeric
  rw [peek_inside (by omega)]
  simp only [List.drop_zero, List.take_of_length_le (Nat.le_of_eq h), bind, Except.bind, pure, Except.pure, Except.map]
  rw [(isBE_iff_serialize.1 (decode_isBE h)).symm]

/-- **C15** Characters and unsigned bytes: exactly one byte, kept as it is; any other length is rejected. -/
theorem C15_byte (s : Str) :
    (∀ c, elementToByte s = .ok c ↔ s = [c]) ∧ (s.length ≠ 1 → elementToByte s = .error .badLexicalCast) ∧
    (∀ c : BitVec 8, elementToByte (serialize 1 c) = .ok (UInt8.ofBitVec c)) := by
  refine ⟨?_, ?_, ?_⟩
  · intro c
    match s with
    | [] => simp [elementToByte]
    | [d] => simp [elementToByte]
    | _ :: _ :: _ => simp [elementToByte]
  · intro h
    match s, h with
    | [], _ => rfl
    | [d], h => simp at h
    | _ :: _ :: _, _ => rfl
  · intro c
    have h := serialize_isBE 1 c
    have hl := h.1
    match hs : serialize 1 c, hl with
    | [d], _ =>
      rw [hs] at h
      have := h.2
      simp [bigEndian] at this
      simp only [elementToByte]
      refine congrArg _ (UInt8.toNat_inj.1 ?_)
      rw [this]; rfl

example : serialize 2 (0x1234#16) = [0x12, 0x34] := by decide
example : elementToNumeric 4 [0xff, 0xff, 0xff, 0xfe, 7] = .ok (0xfffffffe#32) := by decide
example : elementToNumeric 2 [0x12] = .ok (0x1200#16) := by decide
example : elementToNumeric 4 [1, 2] = .error .ub := by decide

/-! ## C16 -/

/-- **C16** Decoding `n` elements: exactly `n` values, number `k` is the big-endian number at offset `k*w`, when the buffer (with its
terminating zero) is long enough; undefined behaviour otherwise. -/
theorem C16_vector_decode (w : Nat) (s : Str) (n : Nat) :
    (n * w ≤ s.length + 1 → ∃ l, elementsToNumeric w s n = .ok l ∧ l.length = n ∧
      ∀ k (hk : k < l.length), bigEndian (((s ++ [0]).drop (k * w)).take w) = l[k].toNat) ∧
    (s.length + 1 < n * w → elementsToNumeric w s n = .error .ub) := by
  constructor
  · intro h
    obtain ⟨l, h1, h2, h3⟩ := numericLoop_ok (w := w) (s := s) n 0 (by simpa using h)
    exact ⟨l, h1, h2, fun k hk => by simpa using (h3 k hk).2⟩
  · intro h
    exact numericLoop_ub n 0 (by simp) (by simpa using h)

/-- **C16** Decoding the encoding of a list returns the list, whatever follows it in the buffer. -/
theorem C16_vector_round_trip (w : Nat) (l : List (BitVec (8 * w))) (rest : Str) :
    elementsToNumeric w (serializeAll (serialize w) l ++ rest) l.length = .ok l := by
  have := numericLoop_serialize l [] rest
  simpa [serializeAll_nil, elementsToNumeric] using this

/-- **C16** Encoding the decoded elements gives back the first `n*w` bytes. -/
theorem C16_vector_encode_decode (w : Nat) (s : Str) (n : Nat) (h : n * w ≤ s.length) :
    (elementsToNumeric w s n).map (serializeAll (serialize w)) = .ok (s.take (n * w)) := by
  suffices H : ∀ n i, (i + n) * w ≤ s.length →
      (numericLoop w s i n).map (serializeAll (serialize w)) = .ok ((s.drop (i * w)).take (n * w)) by
    have := H n 0 (by simpa using h)
    simpa [elementsToNumeric] using this
  intro n
  induction n with
  | zero => intro i _; simp [numericLoop, Except.map, serializeAll_nil]
  | succ n ih =>
    intro i hi
    have e1 := ih (i + 1) (by rw [show i + 1 + n = i + (n + 1) by omega]; exact hi)
    have hi' : i * w + w ≤ s.length := by
      have : (i + 1) * w ≤ (i + (n + 1)) * w := Nat.mul_le_mul_right _ (by omega)
      rw [Nat.succ_mul] at this; omega
    simp only [numericLoop]
    rw [peek_inside hi']
    cases hl : numericLoop w s (i + 1) n with
    | error e => rw [hl] at e1; cases e1
    | ok l =>
      rw [hl] at e1
      simp only [Except.map, Except.ok.injEq] at e1
      simp only [bind, Except.bind, pure, Except.pure, Except.map, Except.ok.injEq]
      rw [serializeAll_cons, e1]
      have hlen : ((s.drop (i * w)).take w).length = w := by simp; omega
      rw [← isBE_iff_serialize.1 (decode_isBE hlen)]
      rw [show (n + 1) * w = w + n * w by rw [Nat.succ_mul]; omega, List.take_add, List.drop_drop]
      rw [show (i + 1) * w = i * w + w by rw [Nat.succ_mul]]

/-- **C16** Complex numbers: one value. -/
theorem C16_complex_round_trip (w : Nat) (p : BitVec (8 * w) × BitVec (8 * w)) (rest : Str) :
    elementToComplex w (serializePair w p ++ rest) = .ok p := elementToComplex_serialize w p rest

/-- **C16** Complex vectors: decode of encode. -/
theorem C16_complex_vector_round_trip (w : Nat) (l : List (BitVec (8 * w) × BitVec (8 * w))) (rest : Str) :
    elementsToComplex w (serializeAll (serializePair w) l ++ rest) l.length = .ok l := by
  have := complexLoop_serialize l [] rest
  simpa [elementsToComplex] using this

/-- **C16** Complex vectors: real part of number `k` is word `2k`, imaginary part word `2k+1`; a buffer that is too short is undefined. -/
theorem C16_complex_vector_decode (w : Nat) (s : Str) (n : Nat) :
    (n * (w * 2) ≤ s.length + 1 → ∃ l, elementsToComplex w s n = .ok l ∧ l.length = n ∧
      ∀ k (hk : k < l.length), bigEndian (((s ++ [0]).drop (2 * k * w)).take w) = l[k].1.toNat ∧
        bigEndian (((s ++ [0]).drop ((2 * k + 1) * w)).take w) = l[k].2.toNat) ∧
    (s.length + 1 < n * (w * 2) → elementsToComplex w s n = .error .ub) := by
  constructor
  · intro h
    obtain ⟨l, h1, h2, h3⟩ := complexLoop_ok (w := w) (s := s) n 0 (by simpa using h)
    refine ⟨l, by simpa [elementsToComplex] using h1, h2, fun k hk => ?_⟩
    have := h3 k hk
    rw [Nat.zero_add] at this
    exact ⟨this.1.2, this.2.2⟩
  · intro h
    have := complexLoop_ub (w := w) (s := s) n 0 (by simp) (by simpa using h)
    simpa [elementsToComplex] using this

/-- **C16** Byte vectors: the first `n` bytes. -/
theorem C16_bytes (s : Str) (n : Nat) :
    (n ≤ s.length → elementsToByte s n = .ok (s.take n)) ∧ (s.length < n → elementsToByte s n = .error .ub) := by
  unfold elementsToByte
  exact ⟨fun h => if_pos h, fun h => if_neg (by omega)⟩

example : elementsToNumeric 2 [0, 1, 0, 2, 0, 3, 9] 3 = .ok [1#16, 2#16, 3#16] := by decide
example : elementsToComplex 4 [0, 0, 0, 1, 0, 0, 0, 2, 0, 0, 0, 3, 0, 0, 0, 4] 2 = .ok [(1#32, 2#32), (3#32, 4#32)] := by decide

/-! ## C17 -/

/-- The words of a list of pairs. -/
def pairWords (l : List (BitVec 32 × BitVec 32)) : List (BitVec 32) := l.flatMap fun p => [p.1, p.2]

theorem pairWords_length (l : List (BitVec 32 × BitVec 32)) : (pairWords l).length = 2 * l.length := by
  unfold pairWords
  induction l with
  | nil => rfl
  | cons p l ih => simp only [List.flatMap_cons, List.length_append, ih, List.length_cons, List.length_nil]; omega

theorem serializeAll_pairWords (l : List (BitVec 32 × BitVec 32)) :
    serializeAll (serializePair 4) l = serializeAll (serialize 4) (pairWords l) := by
  induction l with
  | nil => rfl
  | cons p l ih =>
    rw [serializeAll_cons, ih]
    show _ = serializeAll (serialize 4) ([p.1, p.2] ++ pairWords l)
    rw [List.cons_append, List.cons_append, List.nil_append, serializeAll_cons, serializeAll_cons]
    simp [serializePair]

theorem peek_word (ws : List (BitVec 32)) (k : Nat) (hk : k < ws.length) :
    peek 4 (serializeAll (serialize 4) ws) (k * 4) = .ok (serialize 4 ws[k]) := by
  have e : ws = ws.take k ++ ws[k] :: ws.drop (k + 1) := by simp
  have es : serializeAll (serialize 4) ws =
      serializeAll (serialize 4) (ws.take k) ++ serialize 4 ws[k] ++ serializeAll (serialize 4) (ws.drop (k + 1)) := by
    have happ : ∀ a b : List (BitVec (8 * 4)), serializeAll (serialize 4) (a ++ b) =
        serializeAll (serialize 4) a ++ serializeAll (serialize 4) b := by
      intro a b
      induction a with
      | nil => rfl
      | cons x a ih => rw [List.cons_append, serializeAll_cons, serializeAll_cons, ih, List.append_assoc]
    conv => lhs; rw [e]
    rw [happ, serializeAll_cons, List.append_assoc]
  have hl : (serializeAll (serialize 4) (ws.take k)).length = k * 4 := by
    rw [serializeAll_length (serialize_length 4), List.length_take, Nat.min_eq_left (by omega)]
  rw [es, ← hl]
  exact peek_append (serialize_length 4 _)

theorem pairLoop_words (ws : List (BitVec 32)) : ∀ n i, (hn : i + n < ws.length ∨ n = 0) →
    ∃ l, pairLoop (serializeAll (serialize 4) ws) i n = .ok l ∧ l.length = n ∧
      ∀ k, k < n → l[k]? = (ws[i + k]?).bind fun x => (ws[i + k + 1]?).map fun y => (x, y) := by
  intro n
  induction n with
  | zero => intro i _; exact ⟨[], rfl, rfl, fun k hk => absurd hk (by omega)⟩
  | succ n ih =>
    intro i h
    have h' : i + (n + 1) < ws.length := by omega
    obtain ⟨l, h1, h2, h3⟩ := ih (i + 1) (Or.inl (by omega))
    refine ⟨(ws[i], ws[i + 1]) :: l, ?_, by simp [h2], ?_⟩
    · simp only [pairLoop]
      rw [peek_word ws i (by omega), peek_word ws (i + 1) (by omega), h1]
      simp only [bind, Except.bind, pure, Except.pure]
      rw [decode_serialize 4, decode_serialize 4]
    · intro k hk
      cases k with
      | zero =>
        simp only [Nat.add_zero]
        rw [List.getElem?_eq_getElem (l := ws) (i := i) (by omega), List.getElem?_eq_getElem (l := ws) (i := i + 1) (by omega)]; rfl
      | succ k =>
        rw [List.getElem?_cons_succ, h3 k (by omega), show i + (k + 1) = i + 1 + k by omega]

/-- **C17** What decoding a list of pairs really gives: pair `k` consists of words `k` and `k+1`. -/
theorem C17_pairs_overlap (l : List (BitVec 32 × BitVec 32)) :
    ∃ r, toPairs (serializeAll (serializePair 4) l) l.length = .ok r ∧ r.length = l.length ∧
      ∀ k, k < l.length → r[k]? = ((pairWords l)[k]?).bind fun x => ((pairWords l)[k + 1]?).map fun y => (x, y) := by
  rw [serializeAll_pairWords]
  have hl := pairWords_length l
  obtain ⟨r, h1, h2, h3⟩ := pairLoop_words (pairWords l) l.length 0 (by omega)
  exact ⟨r, h1, h2, fun k hk => by simpa using h3 k hk⟩

theorem pairWords_get (l : List (BitVec 32 × BitVec 32)) (k : Nat) :
    (pairWords l)[2 * k]? = l[k]?.map Prod.fst ∧ (pairWords l)[2 * k + 1]? = l[k]?.map Prod.snd := by
  induction l generalizing k with
  | nil => simp [pairWords]
  | cons p l ih =>
    have e : pairWords (p :: l) = p.1 :: p.2 :: pairWords l := rfl
    rw [e]
    cases k with
    | zero => simp
    | succ k =>
      rw [show 2 * (k + 1) = 2 * k + 1 + 1 by omega]
      simpa using ih k

/-- **C17** A list of pairs survives the round trip exactly when all its words but the first are equal. -/
theorem C17_pairs_round_trip_iff (l : List (BitVec 32 × BitVec 32)) :
    toPairs (serializeAll (serializePair 4) l) l.length = .ok l ↔
      l = [] ∨ ∃ x y n, l = (x, y) :: List.replicate n (y, y) := by
  obtain ⟨r, h1, h2, h3⟩ := C17_pairs_overlap l
  rw [h1]
  simp only [Except.ok.injEq]
  constructor
  · intro e
    subst e
    cases r with
    | nil => exact Or.inl rfl
    | cons p t =>
      right
      -- every word from the second on is p.2
      have hw : ∀ k, 1 ≤ k → k < (pairWords (p :: t)).length → (pairWords (p :: t))[k]? = some p.2 := by
        intro k
        induction k using Nat.strongRecOn with
        | ind k ih =>
          intro hk hl
          rw [pairWords_length] at hl
          by_cases h1 : k = 1
          · subst h1; rfl
          · have hkl : k / 2 < (p :: t).length := by omega
            have hpl := pairWords_length (p :: t)
            obtain ⟨g1, g2⟩ := pairWords_get (p :: t) (k / 2)
            have h3k := h3 (k / 2) hkl
            have a1 : (pairWords (p :: t))[k / 2]? = some p.2 := ih _ (by omega) (by omega) (by omega)
            rw [a1] at h3k
            by_cases hpar : k % 2 = 0
            · rw [show 2 * (k / 2) = k by omega] at g1
              rw [g1, h3k]
              have hn : k / 2 + 1 < (pairWords (p :: t)).length := by omega
              rw [List.getElem?_eq_getElem hn]; rfl
            · rw [show 2 * (k / 2) + 1 = k by omega] at g2
              have a2 : (pairWords (p :: t))[k / 2 + 1]? = some p.2 := ih _ (by omega) (by omega) (by omega)
              rw [a2] at h3k
              rw [g2, h3k]; rfl
      refine ⟨p.1, p.2, t.length, ?_⟩
      refine List.cons.injEq _ _ _ _ |>.mpr ⟨rfl, ?_⟩
      apply List.eq_replicate_iff.2 ⟨rfl, ?_⟩
      intro q hq
      obtain ⟨k, hk, rfl⟩ := List.getElem_of_mem hq
      obtain ⟨g1, g2⟩ := pairWords_get (p :: t) (k + 1)
      have hpl := pairWords_length (p :: t)
      rw [hw _ (by omega) (by simp at *; omega)] at g1 g2
      simp [List.getElem?_eq_getElem hk] at g1 g2
      exact Prod.ext g1.symm g2.symm
  · rintro (rfl | ⟨x, y, n, rfl⟩)
    · exact List.eq_nil_of_length_eq_zero h2
    · apply List.ext_getElem?
      intro k
      by_cases hk : k < ((x, y) :: List.replicate n (y, y)).length
      · rw [h3 k hk]
        have hw : pairWords ((x, y) :: List.replicate n (y, y)) = x :: List.replicate (2 * n + 1) y := by
          have : ∀ n, pairWords (List.replicate n (y, y)) = List.replicate (2 * n) y := by
            intro n
            induction n with
            | zero => rfl
            | succ n ih =>
              rw [List.replicate_succ, show 2 * (n + 1) = 2 * n + 1 + 1 by omega, List.replicate_succ, List.replicate_succ, ← ih]; rfl
          show x :: y :: pairWords _ = _
          rw [this, List.replicate_succ]
        rw [hw]
        simp at hk
        cases k with
        | zero => simp
        | succ k =>
          simp only [List.getElem?_cons_succ]
          rw [List.getElem?_replicate, List.getElem?_replicate, List.getElem?_replicate, if_pos (by omega), if_pos (by omega),
            if_pos (by omega)]
          rfl
      · rw [List.getElem?_eq_none (by omega), List.getElem?_eq_none (by omega)]

/-- **C17** A single pair is decoded correctly. -/
theorem C17_single_pair (p : BitVec 32 × BitVec 32) (rest : Str) : toPair (serializePair 4 p ++ rest) = .ok p := by
  have := elementToComplex_serialize 4 p rest
  simpa [toPair, elementToComplex] using this

example : toPairs (serializeAll (serializePair 4) [(1#32, 2#32), (3#32, 4#32)]) 2 = .ok [(1#32, 2#32), (2#32, 3#32)] := by decide

/-! ## C18 -/

/-- **C18** A boolean field is true exactly when it starts with `T`; an empty field is false. -/
theorem C18_bool_decode (s : Str) (n : Nat) : ∃ b, toBool s n = .ok b ∧ (b = true ↔ ∃ t, s = b!"T" ++ t) := by
  refine ⟨_, rfl, ?_⟩
  cases s with
  | nil => simp [cstr]
  | cons c t => simp [cstr]

/-- **C18** Round trips, and independence of the requested element count. -/
theorem C18_bool_round_trip (b : Bool) (l : List Bool) (n : Nat) :
    toBool (serializeBool b) n = .ok b ∧ toBools (serializeBools l) n = .ok l := by
  constructor
  · cases b <;> rfl
  · unfold toBools serializeBools
    rw [List.map_map]
    refine congrArg Except.ok ?_
    induction l with
    | nil => rfl
    | cons b l ih => rw [List.map_cons, ih]; cases b <;> rfl

/-- **C18** One entry per byte, whatever count was asked for. -/
theorem C18_bools_decode (s : Str) (n : Nat) : ∃ l, toBools s n = .ok l ∧ l.length = s.length ∧
    ∀ k (hk : k < l.length) (hs : k < s.length), l[k] = true ↔ s[k] = 84 := by
  refine ⟨_, rfl, by simp, ?_⟩
  intro k hk hs
  simp

example : toBools b!"TFxT" 2 = .ok [true, false, false, true] := by decide

/-! ## C19 -/

theorem isUnquoted_iff {s t : Str} : IsUnquoted s t ↔ trimQuotes s = t := by
  constructor
  · rintro ⟨a, b, rfl, h1, h2, h3, h4⟩
    exact trimQuotes_unique (fun c hc => quoteOrBlank_iff.2 (h1 c hc)) (fun c hc => quoteOrBlank_iff.2 (h2 c hc))
      (fun c hc => quoteOrBlank_false.2 (h3 c hc)) (fun c hc => quoteOrBlank_false.2 (h4 c hc))
  · rintro rfl
    obtain ⟨a, b, h, h1, h2, h3, h4⟩ := trimQuotes_split s
    exact ⟨a, b, h, fun c hc => quoteOrBlank_iff.1 (h1 c hc), fun c hc => quoteOrBlank_iff.1 (h2 c hc),
      fun c hc => quoteOrBlank_false.1 (h3 c hc), fun c hc => quoteOrBlank_false.1 (h4 c hc)⟩

theorem allDigits_head {c : Byte} {t : Str} (h : AllDigits (c :: t)) : c ≠ 45 ∧ c ≠ 43 := by
  have := h.2 c (by simp)
  constructor <;> rintro rfl <;> simp at this

/-- `lexical_cast<size_t>` against its specification. -/
theorem lexUnsigned_iff {s : Str} {n : Nat} :
    (lexUnsigned 64 s).map BitVec.toNat = .ok n ↔ UnsignedText s n := by
  unfold UnsignedText
  cases s with
  | nil => simp [lexUnsigned, Except.map, AllDigits]
  | cons c r =>
    by_cases h45 : c = 45
    · subst h45
      have hnd : ¬ AllDigits (45 :: r) := fun h => (allDigits_head h).1 rfl
      simp only [lexUnsigned, true_or, if_true, hnd, false_and, false_or, List.cons.injEq, true_and]
      have h43 : ¬ ∃ t, ((45 : Byte) = 43 ∧ r = t) ∧ AllDigits t ∧ positional t < 2 ^ 64 ∧ n = positional t := by
        rintro ⟨t, ⟨h, _⟩, _⟩; exact absurd h (by decide)
      simp only [h43, false_or]
      cases hp : parseNat r with
      | none =>
        simp only [Except.map]
        constructor
        · intro h; cases h
        · rintro ⟨t, rfl, h, _⟩
          rw [parseNat_iff.2 ⟨h, rfl⟩] at hp; cases hp
      | some m =>
        obtain ⟨hd, hm⟩ := parseNat_iff.1 hp
        simp only
        by_cases hlt : m < 2 ^ 64
        · simp only [hlt, if_true, Except.map, Except.ok.injEq]
          rw [BitVec.toNat_neg, BitVec.toNat_ofNat, Nat.mod_eq_of_lt hlt]
          constructor
          · rintro rfl; exact ⟨r, rfl, hd, by omega, by rw [hm]⟩
          · rintro ⟨t, rfl, _, _, h⟩; rw [h, hm]
        · simp only [hlt, if_false, Except.map]
          constructor
          · intro h; cases h
          · rintro ⟨t, rfl, _, h, _⟩; omega
    · have e45 : ¬ ∃ t, c :: r = 45 :: t ∧ AllDigits t ∧ positional t < 2 ^ 64 ∧ n = (2 ^ 64 - positional t) % 2 ^ 64 := by
        rintro ⟨t, h, _⟩; simp at h; exact h45 h.1
      simp only [e45, or_false]
      by_cases h43 : c = 43
      · subst h43
        have hnd : ¬ AllDigits (43 :: r) := fun h => (allDigits_head h).2 rfl
        simp only [lexUnsigned, or_true, if_true, hnd, false_and, false_or, List.cons.injEq, true_and]
        cases hp : parseNat r with
        | none =>
          simp only [Except.map]
          constructor
          · intro h; cases h
          · rintro ⟨t, rfl, h, _⟩
            rw [parseNat_iff.2 ⟨h, rfl⟩] at hp; cases hp
        | some m =>
          obtain ⟨hd, hm⟩ := parseNat_iff.1 hp
          simp only
          by_cases hlt : m < 2 ^ 64
          · simp only [hlt, if_true, Except.map, Except.ok.injEq]
            rw [if_neg (by decide), BitVec.toNat_ofNat, Nat.mod_eq_of_lt hlt]
            constructor
            · rintro rfl; exact ⟨r, rfl, hd, by omega, by rw [hm]⟩
            · rintro ⟨t, rfl, _, _, h⟩; rw [h, hm]
          · simp only [hlt, if_false, Except.map]
            constructor
            · intro h; cases h
            · rintro ⟨t, rfl, _, h, _⟩; omega
      · have e43 : ¬ ∃ t, c :: r = 43 :: t ∧ AllDigits t ∧ positional t < 2 ^ 64 ∧ n = positional t := by
          rintro ⟨t, h, _⟩; simp at h; exact h43 h.1
        simp only [e43, or_false, lexUnsigned, h45, h43, or_self, if_false]
        cases hp : parseNat (c :: r) with
        | none =>
          simp only [Except.map]
          constructor
          · intro h; cases h
          · rintro ⟨h, _⟩
            rw [parseNat_iff.2 ⟨h, rfl⟩] at hp; cases hp
        | some m =>
          obtain ⟨hd, hm⟩ := parseNat_iff.1 hp
          simp only
          by_cases hlt : m < 2 ^ 64
          · simp only [hlt, if_true, Except.map, Except.ok.injEq]
            rw [BitVec.toNat_ofNat, Nat.mod_eq_of_lt hlt]
            constructor
            · rintro rfl; exact ⟨hd, by omega, by rw [hm]⟩
            · rintro ⟨_, _, h⟩; rw [h, hm]
          · simp only [hlt, if_false, Except.map]
            constructor
            · intro h; cases h
            · rintro ⟨_, h, _⟩; omega

theorem lexUnsigned_error {w : Nat} {s : Str} {e : Err} (h : lexUnsigned w s = .error e) : e = .badLexicalCast := by
  unfold lexUnsigned at h
  split at h
  · cases h; rfl
  · split at h
    · split at h
      · cases h
      · cases h; rfl
    · cases h; rfl

/-- **C19** The element count of a format, exactly. -/
theorem C19_element_count (format : Str) (n : Nat) :
    elementCount format = .ok n ↔ ∃ form, IsUnquoted format form ∧
      ((form.length ≤ 1 ∧ n = 1) ∨ ∃ count letter, form = count ++ [letter] ∧ UnsignedText count n) := by
  simp only [isUnquoted_iff]
  unfold elementCount
  simp only
  constructor
  · intro h
    refine ⟨_, rfl, ?_⟩
    by_cases hl : 1 < (trimQuotes format).length
    · rw [if_pos hl] at h
      right
      refine ⟨_, (trimQuotes format)[(trimQuotes format).length - 1], ?_, lexUnsigned_iff.1 h⟩
      rw [← List.dropLast_eq_take, ← List.getLast_eq_getElem (by intro e; rw [e] at hl; simp at hl)]
      exact (List.dropLast_concat_getLast _).symm
    · rw [if_neg hl] at h
      left; exact ⟨by omega, by cases h; rfl⟩
  · rintro ⟨_, rfl, h | ⟨count, letter, h1, h2⟩⟩
    · rw [if_neg (by omega), h.2]
    · have hc : count ≠ [] := by
        rintro rfl
        simp [UnsignedText, AllDigits] at h2
      have : 0 < count.length := List.length_pos_iff.2 hc
      rw [h1, if_pos (by simp; omega)]
      rw [show (count ++ [letter]).take ((count ++ [letter]).length - 1) = count by simp]
      exact lexUnsigned_iff.2 h2

/-- **C19** Every other format is rejected by `bad_lexical_cast`. -/
theorem C19_element_count_reject (format : Str) (e : Err) (h : elementCount format = .error e) : e = .badLexicalCast := by
  unfold elementCount at h
  simp only at h
  split at h
  · cases hl : lexUnsigned 64 ((trimQuotes format).take ((trimQuotes format).length - 1)) with
    | error e' => rw [hl] at h; simp [Except.map] at h; rw [← h]; exact lexUnsigned_error hl
    | ok v => rw [hl] at h; cases h
  · cases h

example : elementCount b!"'12J '" = .ok 12 := by decide
example : elementCount b!"E" = .ok 1 := by decide
example : elementCount b!"1PE(10)" = .error .badLexicalCast := by decide
example : elementCount b!"-1J" = .ok 18446744073709551615 := by decide

end Astro
