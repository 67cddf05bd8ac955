import Verif.Lemmas.Exceptions
import Verif.Props.Fits

/-
C137: which exceptions the calls of the FITS part can raise, for all inputs, and which handlers stop them.
-/

namespace Astro

open Spec

/-! ### handlers -/

theorem isA_std (c : ExClass) : IsA c .stdException := by
  have h0 := IsA.refl .stdException
  have h1 : IsA .fitsException .stdException := .step rfl h0
  have h2 : IsA .invalidCard .stdException := .step rfl h1
  have h3 : IsA .logicError .stdException := .step rfl h0
  have h4 : IsA .badCast .stdException := .step rfl h0
  cases c <;> first | exact h0 | exact h1 | exact h2 | exact h3 | exact h4 | exact .step rfl h0 | exact .step rfl h1 | exact .step rfl h2 | exact .step rfl h3 | exact .step rfl h4

theorem not_isA_std {d : ExClass} (hd : d ≠ .stdException) : ¬ IsA .stdException d := by
  intro h; cases h with
  | refl => exact hd rfl
  | step h _ => cases h

theorem not_isA_step {c b d : ExClass} (hcd : c ≠ d) (hb : c.base = some b) (hn : ¬ IsA b d) : ¬ IsA c d := by
  intro h; cases h with
  | refl => exact hcd rfl
  | step h h' => rw [hb] at h; cases h; exact hn h'

/-- **C137** `catch (fits_exception&)` stops exactly the exceptions the library throws itself. -/
theorem C137_fits_handler (e : Err) :
    CaughtBy .fitsException e ↔ e ∈ ({.invalidCard, .invalidCast, .fitsException, .columnNotFound, .invalidTableFormat} : Set Err) := by
  have f : IsA .fitsException .fitsException := .refl _
  have n0 : ¬ IsA .stdException .fitsException := not_isA_std (by simp)
  have n1 : ¬ IsA .logicError .fitsException := not_isA_step (by simp) rfl n0
  have n2 : ¬ IsA .outOfRange .fitsException := not_isA_step (by simp) rfl n1
  have n3 : ¬ IsA .lengthError .fitsException := not_isA_step (by simp) rfl n1
  have n4 : ¬ IsA .badCast .fitsException := not_isA_step (by simp) rfl n0
  have n5 : ¬ IsA .badLexicalCast .fitsException := not_isA_step (by simp) rfl n4
  have n6 : ¬ IsA .badGet .fitsException := not_isA_step (by simp) rfl n0
  constructor
  · rintro ⟨c, hc, hi⟩
    cases e <;> cases hc <;> simp <;> first | exact n2 hi | exact n3 hi | exact n5 hi | exact n6 hi
  · intro h
    simp only [Set.mem_insert_iff, Set.mem_singleton_iff] at h
    rcases h with rfl | rfl | rfl | rfl | rfl
    · exact ⟨_, rfl, .step rfl f⟩
    · exact ⟨_, rfl, .step rfl f⟩
    · exact ⟨_, rfl, f⟩
    · exact ⟨_, rfl, .step rfl f⟩
    · exact ⟨_, rfl, .step rfl f⟩

/-- **C137** Which handlers stop which of the classes, the ones that are never thrown included. -/
theorem C137_classes (c d : ExClass) : IsA c d ↔ d ∈ handlers c := by
  have up (c d : ExClass) : IsA c d ↔ d = c ∨ ∃ b, c.base = some b ∧ IsA b d := by
    constructor
    · rintro (_ | ⟨h, i⟩)
      · exact .inl rfl
      · exact .inr ⟨_, h, i⟩
    · rintro (rfl | ⟨b, h, i⟩)
      · exact .refl _
      · exact .step h i
  have s0 : IsA .stdException d ↔ d = .stdException := by rw [up]; simp [ExClass.base]
  have s1 : IsA .fitsException d ↔ d = .fitsException ∨ d = .stdException := by rw [up]; simp [ExClass.base, s0]
  have s2 : IsA .logicError d ↔ d = .logicError ∨ d = .stdException := by rw [up]; simp [ExClass.base, s0]
  have s3 : IsA .badCast d ↔ d = .badCast ∨ d = .stdException := by rw [up]; simp [ExClass.base, s0]
  have s4 : IsA .invalidCard d ↔ d = .invalidCard ∨ d = .fitsException ∨ d = .stdException := by rw [up]; simp [ExClass.base, s1]
  cases c <;> (try simp only [s0, s1, s2, s3, s4]) <;> (try rw [up]) <;> simp [ExClass.base, handlers, s0, s1, s2, s3, s4]

/-- **C137** `catch (std::exception&)` stops everything that is thrown; nothing stops undefined behaviour. -/
theorem C137_std_handler (e : Err) : (CaughtBy .stdException e ↔ e ≠ .ub) ∧ (e = .ub → ∀ d, ¬ CaughtBy d e) := by
  refine ⟨⟨?_, fun h => ?_⟩, ?_⟩
  · rintro ⟨c, hc, _⟩ rfl; cases hc
  · cases e <;> first | exact absurd rfl h | exact ⟨_, rfl, isA_std _⟩
  · rintro rfl d ⟨c, hc, _⟩; cases hc

/-! ### cards -/

/-- **C137** `card(text)`. -/
theorem C137_raw_card : Throws (fun _ => True) Card.ofRaw = {.invalidCard, .outOfRange} := by
  ext e
  constructor
  · rintro ⟨s, _, h⟩; exact (ofRaw_only s).of h
  · rintro (rfl | rfl)
    · exact ⟨b!"Hello, world", trivial, by decide⟩
    · exact ⟨b!"END", trivial, by decide⟩

/-- **C137** `create_card(keyword, value, comment)` for a given value: it depends on the value whether the call throws invalid_card or, always,
std::length_error. -/
theorem C137_create (F : FloatText) (v : Val) :
    (HasText F v → Throws (fun _ => True) (fun x : Card × Str × Str => (Card.create F x.1 x.2.1 v x.2.2).2) = {.invalidCard}) ∧
    (¬ HasText F v → (∀ c key comment, (Card.create F c key v comment).2 = .error .lengthError)) := by
  constructor
  · rintro ⟨t, ht⟩
    have hs := serialize_iff.2 ht
    ext e
    constructor
    · rintro ⟨x, _, h⟩
      unfold Card.create at h
      rw [hs] at h
      exact (createImpl_only _ _ _ _).of h
    · rintro rfl
      refine ⟨(Card.empty, List.replicate 9 65, []), trivial, ?_⟩
      unfold Card.create
      rw [hs]
      simp only
      rw [createImpl_not_fits _ (by intro hf; exact absurd hf.1 (by decide))]
  · intro hn c key comment
    unfold Card.create
    cases hs : Policy.serialize F v with
    | ok s => exact absurd ⟨s, serialize_iff.1 hs⟩ hn
    | error e => rw [(serialize_only F v).of hs]

/-- **C137** `create_card(keyword, "text", comment)` with a C string: length_error for more than twenty characters. -/
theorem C137_create_cstr (v : Str) :
    (v.length ≤ 20 → Throws (fun _ => True) (fun x : Card × Str × Str => (Card.createCStr x.1 x.2.1 v x.2.2).2) = {.invalidCard}) ∧
    (20 < v.length → ∀ c key comment, (Card.createCStr c key v comment).2 = .error .lengthError) := by
  constructor
  · intro hv
    have hs : Policy.serializeCStr v = .ok (spaces (20 - v.length) ++ v) := pad20_ok hv
    ext e
    constructor
    · rintro ⟨x, _, h⟩
      unfold Card.createCStr at h
      rw [hs] at h
      exact (createImpl_only _ _ _ _).of h
    · rintro rfl
      refine ⟨(Card.empty, List.replicate 9 65, []), trivial, ?_⟩
      unfold Card.createCStr
      rw [hs]
      simp only
      rw [createImpl_not_fits _ (by intro hf; exact absurd hf.1 (by decide))]
  · intro hv c key comment
    unfold Card.createCStr Policy.serializeCStr Policy.pad20 padCount
    rw [if_neg (by omega)]
    rfl

/-- **C137** `create_commentary_card(keyword, text)`. -/
theorem C137_commentary :
    Throws (fun _ => True) (fun x : Card × Str × Str => (Card.createCommentary x.1 x.2.1 x.2.2).2) = {.invalidCard, .lengthError} := by
  ext e
  constructor
  · rintro ⟨x, _, h⟩; exact (createCommentary_only _ _ _).of h
  · rintro (rfl | rfl)
    · exact ⟨(Card.empty, List.replicate 9 65, []), trivial, by decide⟩
    · exact ⟨(Card.empty, b!"HISTORY", List.replicate 80 65), trivial, by decide⟩

/-- **C137** `set_value(v)` never throws if the value has a text, although it may then do nothing; otherwise it always throws. -/
theorem C137_set_value (F : FloatText) (v : Val) (c : Card) :
    (HasText F v → (Card.setValue F c v).2 = .ok ()) ∧ (¬ HasText F v → (Card.setValue F c v).2 = .error .lengthError) := by
  rcases setValue_result F c v with ⟨s, h1, h2⟩ | ⟨e, h1, h2⟩
  · exact ⟨fun _ => h2, fun hn => absurd ⟨s, serialize_iff.1 h1⟩ hn⟩
  · refine ⟨fun ⟨t, ht⟩ => ?_, fun _ => by rw [h2, (serialize_only F v).of h1]⟩
    rw [serialize_iff.2 ht] at h1; cases h1

/-- **C137** `keyword()` never throws. -/
theorem C137_keyword (c : Card) : (∃ k, c.keyword = .ok k) ∧ ∃ k, c.keywordWhole = .ok k := by
  obtain ⟨k, w, h1, h2⟩ := keyword_exists c
  exact ⟨⟨k, h1⟩, ⟨w, h2⟩⟩

/-- **C137** `value_with_comment()`: out_of_range for a card of less than ten characters. -/
theorem C137_value_with_comment (F : FloatText) : Throws (MadeCard F) Card.valueWithComment = {.outOfRange} := by
  ext e
  constructor
  · rintro ⟨c, _, h⟩
    exact (Only.bind (S := (· = .outOfRange)) (substr_only _ _ _) fun _ => .pure' _).of h
  · rintro rfl
    exact ⟨Card.empty, .empty, rfl⟩

/-- **C137** `value<T>()` for a type without floating point numbers: three exceptions. -/
theorem C137_value (F : FloatText) (t : Ty) (hs : t ≠ .string) (ht : NoFloat t) :
    Throws (MadeCard F) (fun c => (Card.value F c t).2) = {.outOfRange, .badGet, .invalidCast} := by
  ext e
  constructor
  · rintro ⟨c, _, h⟩
    rcases (value_only F c t).of h with rfl | ⟨rfl, _⟩ | h
    · simp
    · simp
    · unfold TextError at h; rw [if_neg hs] at h; simp [h]
  · rintro (rfl | rfl | rfl)
    · exact ⟨Card.empty, .empty, by cases t <;> rfl⟩
    · by_cases hb : t = .bool
      · subst hb
        exact ⟨_, .setValue (.string []) .empty, by rfl⟩
      · refine ⟨_, .setValue (.bool true) .empty, ?_⟩
        cases t <;> first | exact absurd rfl hb | rfl
    · have h0 : Card.ofRaw b!"A       = ?" = .ok ⟨b!"A       = ?", none⟩ := by decide
      refine ⟨_, .raw h0, ?_⟩
      cases t <;> first | exact absurd rfl hs | exact False.elim ht | rfl

/-- **C137** `value<std::string>()`: no invalid_cast, but undefined behaviour. -/
theorem C137_value_string (F : FloatText) :
    Throws (MadeCard F) (fun c => (Card.value F c .string).2) = {.outOfRange, .badGet, .ub} := by
  ext e
  constructor
  · rintro ⟨c, _, h⟩
    rcases (value_only F c .string).of h with rfl | ⟨rfl, _⟩ | h
    · simp
    · simp
    · unfold TextError at h; rw [if_pos rfl] at h; simp [h]
  · rintro (rfl | rfl | rfl)
    · exact ⟨Card.empty, .empty, rfl⟩
    · exact ⟨_, .setValue (.bool true) .empty, rfl⟩
    · have h0 : Card.ofRaw b!"A       = '" = .ok ⟨b!"A       = '", none⟩ := by decide
      exact ⟨_, .raw h0, rfl⟩

/-- **C137** `value<float>()`, `value<double>()` and their complex numbers: nothing else than these three (whether invalid_cast occurs depends on
what the library accepts as a number). -/
theorem C137_value_float (F : FloatText) (t : Ty) (ht : ¬ NoFloat t) :
    Throws (MadeCard F) (fun c => (Card.value F c t).2) ⊆ {.outOfRange, .badGet, .invalidCast} := by
  rintro e ⟨c, _, h⟩
  have hs : t ≠ .string := by rintro rfl; exact ht (by simp [NoFloat])
  rcases (value_only F c t).of h with rfl | ⟨rfl, _⟩ | h
  · simp
  · simp
  · unfold TextError at h; rw [if_neg hs] at h; simp [h]

/-! ### headers -/

/-- Two units of a header with a card whose value is a single quote. -/
def exQuote : List Str :=
  [exCard b!"BITPIX  =                    8", exCard b!"NAXIS   =                    0", exCard b!"Q       = '", exCard b!"END"]

/-- The header of these cards. -/
theorem exQuote_loaded (F : FloatText) : ∃ h s', Header.readHeader F 4 Header.empty (Stream.openRead exQuote.flatten) = some (.ok (h, s')) ∧
    h.keyIndex b!"X" = none ∧ (∀ t, t ≠ .int → (h.valueOf F b!"BITPIX" t).2 = .error .badGet) ∧
    (h.valueOf F b!"NAXIS" .int).2 = .error .badGet ∧ (h.valueOf F b!"Q" .string).2 = .error .ub ∧
    (∀ t, t ≠ .string → NoFloat t → (h.valueOf F b!"Q" t).2 = .error .invalidCast) := by
  refine ⟨_, _, rfl, rfl, ?_, rfl, rfl, ?_⟩
  · intro t ht
    cases t <;> first | exact absurd rfl ht | rfl
  · intro t h1 h2
    cases t <;> first | exact absurd rfl h1 | exact False.elim h2 | rfl

/-- **C137** `value_of<T>(keyword)` of a header read from a file, for a type without floating point numbers.  Out_of_range means that the
keyword is missing; key_not_defined_exception is never thrown. -/
theorem C137_value_of (F : FloatText) (t : Ty) (hs : t ≠ .string) (ht : NoFloat t) :
    Throws (fun x : Header × Str => LoadedHeader F x.1) (fun x => (x.1.valueOf F x.2 t).2) = {.outOfRange, .badGet, .invalidCast} := by
  ext e
  constructor
  · rintro ⟨⟨h, k⟩, hl, he⟩
    rcases (valueOf_only F (loaded_sound hl) k t).of he with ⟨rfl, _⟩ | rfl | h
    · simp
    · simp
    · unfold TextError at h; rw [if_neg hs] at h; simp [h]
  · obtain ⟨h, s', h0, hx, hb, hn, _, hq⟩ := exQuote_loaded F
    rintro (rfl | rfl | rfl)
    · exact ⟨(h, b!"X"), .load h0, by unfold Header.valueOf; simp only [hx]⟩
    · by_cases hi : t = .int
      · subst hi; exact ⟨(h, b!"NAXIS"), .load h0, hn⟩
      · exact ⟨(h, b!"BITPIX"), .load h0, hb t hi⟩
    · exact ⟨(h, b!"Q"), .load h0, hq t hs ht⟩

/-- **C137** The same for strings: undefined behaviour instead of invalid_cast. -/
theorem C137_value_of_string (F : FloatText) :
    Throws (fun x : Header × Str => LoadedHeader F x.1) (fun x => (x.1.valueOf F x.2 .string).2) = {.outOfRange, .badGet, .ub} := by
  ext e
  constructor
  · rintro ⟨⟨h, k⟩, hl, he⟩
    rcases (valueOf_only F (loaded_sound hl) k .string).of he with ⟨rfl, _⟩ | rfl | h
    · simp
    · simp
    · unfold TextError at h; rw [if_pos rfl] at h; simp [h]
  · obtain ⟨h, s', h0, hx, hb, _, hu, _⟩ := exQuote_loaded F
    rintro (rfl | rfl | rfl)
    · exact ⟨(h, b!"X"), .load h0, by unfold Header.valueOf; simp only [hx]⟩
    · exact ⟨(h, b!"BITPIX"), .load h0, hb .string (by simp)⟩
    · exact ⟨(h, b!"Q"), .load h0, hu⟩

/-- **C137** A missing keyword is the only reason for out_of_range. -/
theorem C137_value_of_missing (F : FloatText) (h : Header) (hl : LoadedHeader F h) (k : Str) (t : Ty) :
    (h.valueOf F k t).2 = .error .outOfRange ↔ h.keyIndex k = none := by
  constructor
  · intro he
    rcases (valueOf_only F (loaded_sound hl) k t).of he with ⟨_, h⟩ | h | h
    · exact h
    · cases h
    · unfold TextError at h; split at h <;> cases h
  · intro hk; unfold Header.valueOf; rw [hk]

/-- **C137** `naxis(n)` throws nothing: a number outside the axes is undefined behaviour. -/
theorem C137_naxis (F : FloatText) : Throws (fun x : Header × Nat => LoadedHeader F x.1) (fun x => x.1.naxisAt x.2) = {.ub} := by
  ext e
  constructor
  · rintro ⟨x, _, he⟩; exact (naxisAt_only _ _).of he
  · rintro rfl
    obtain ⟨h, s', h0, _⟩ := exQuote_loaded F
    exact ⟨(h, 0), .load h0, rfl⟩

/-! ### columns -/

/-- A column named `x`. -/
def exX : Column := ⟨1, b!"x", 1, b!"A1", [], none, none, [], [], [], 1⟩

/-- **C137** `get_column<T>(name)`. -/
theorem C137_get_column (Φ : Family) (t t' : Φ.Tag) (ht : t' ≠ t) :
    Throws (fun x : Obj Φ × Str => UsedTable Φ x.1) (fun x => (x.1.getColumn x.2 t).2) = {.columnNotFound, .badGet} := by
  ext e
  constructor
  · rintro ⟨x, _, he⟩; exact (getColumn_only _ _ _).of he
  · rintro (rfl | rfl)
    · exact ⟨(Obj.fresh [] [], []), .fresh _ _, rfl⟩
    · refine ⟨(((Obj.fresh [exX] []).getColumn b!"x" t').1, b!"x"), .column _ _ (.fresh _ _), ?_⟩
      have : (((Obj.fresh [exX] []).getColumn b!"x" t').1 : Obj Φ).views b!"x" = some ⟨t', ⟨1, 1, fun _ => none⟩⟩ := rfl
      generalize ((Obj.fresh [exX] []).getColumn b!"x" t').1 = o at this
      simp only [Obj.getColumn, this, dif_neg ht]

/-- The three ways a column access fails before any decoding are all possible. -/
theorem access_fails (Φ : Family) (t t' : Φ.Tag) (ht : t' ≠ t) {α : Type} (op : Obj Φ × Str × Nat → Res α)
    (hop : ∀ o name row, (∀ e, (o.getColumn name t).2 = .error e → op (o, name, row) = .error e) ∧
      (∀ v, (o.getColumn name t).2 = .ok v → v.cache row = none → o.data = [] → op (o, name, row) = .error .ub)) (e : Err)
    (he : e = .columnNotFound ∨ e = .badGet ∨ e = .ub) : e ∈ Throws (fun x : Obj Φ × Str × Nat => UsedTable Φ x.1) op := by
  rcases he with rfl | rfl | rfl
  · exact ⟨(Obj.fresh [] [], [], 0), .fresh _ _, (hop _ _ _).1 _ rfl⟩
  · have h : Err.badGet ∈ Throws (fun x : Obj Φ × Str => UsedTable Φ x.1) (fun x => (x.1.getColumn x.2 t).2) := by
      rw [C137_get_column Φ t t' ht]; simp
    obtain ⟨⟨o, name⟩, hu, h⟩ := h
    exact ⟨(o, name, 0), hu, (hop _ _ _).1 _ h⟩
  · exact ⟨(Obj.fresh [exX] [], b!"x", 0), .fresh _ _, (hop _ _ _).2 ⟨1, 1, fun _ => none⟩ rfl rfl rfl⟩

theorem read_fails {Φ : Family} (t : Φ.Tag) (o : Obj Φ) (name : Str) (row : Nat) :
    (∀ e, (o.getColumn name t).2 = .error e → (o.read name t row).2 = .error e) ∧
    (∀ v, (o.getColumn name t).2 = .ok v → v.cache row = none → o.data = [] → (o.read name t row).2 = .error .ub) := by
  have hd : (o.getColumn name t).1.data = o.data := by
    unfold Obj.getColumn
    split
    · split <;> rfl
    · split <;> rfl
  unfold Obj.read
  constructor
  · intro e he
    rcases hg : o.getColumn name t with ⟨o', r⟩
    rw [hg] at he; simp only at he; subst he; rfl
  · intro v hv hc h0
    rcases hg : o.getColumn name t with ⟨o', r⟩
    rw [hg] at hv hd; simp only at hv hd; subst hv
    simp only
    unfold View.read
    rw [hc, hd, h0]
    rfl

/-- **C137** Reading an element of a column of an ASCII table: for integers invalid_cast comes on top of these, for strings nothing. -/
theorem C137_ascii_read (F : FloatText) (G : StreamText) :
    Throws (fun x : Obj (asciiFamily F G) × Str × Nat => UsedTable _ x.1) (fun x => (x.1.read x.2.1 .string x.2.2).2) =
      {.columnNotFound, .badGet, .ub} ∧
    Throws (fun x : Obj (asciiFamily F G) × Str × Nat => UsedTable _ x.1) (fun x => (x.1.read x.2.1 .longlong x.2.2).2) =
      {.columnNotFound, .badGet, .ub, .invalidCast} ∧
    ∀ t : AsciiTag, Throws (fun x : Obj (asciiFamily F G) × Str × Nat => UsedTable _ x.1) (fun x => (x.1.read x.2.1 t x.2.2).2) ⊆
      {.columnNotFound, .badGet, .ub, .invalidCast} := by
  have hd : ∀ (t : AsciiTag) s n, Only (fun e => t ≠ .string ∧ e = .invalidCast) (asciiDeser F t s n) := by
    intro t s n
    cases t <;> simp only [asciiDeser]
    · exact .ok _
    all_goals
      split
      · exact .ok _
      · exact .error ⟨by simp, rfl⟩
  have hsub : ∀ (t : AsciiTag) e, e ∈ Throws (fun x : Obj (asciiFamily F G) × Str × Nat => UsedTable _ x.1) (fun x => (x.1.read x.2.1 t x.2.2).2) →
      e = .columnNotFound ∨ e = .badGet ∨ e = .ub ∨ (t ≠ .string ∧ e = .invalidCast) := by
    rintro t e ⟨x, _, he⟩
    exact (read_only (Φ := asciiFamily F G) x.1 x.2.1 t x.2.2 (hd t)).of he
  refine ⟨?_, ?_, ?_⟩
  · ext e
    constructor
    · intro he
      rcases hsub _ e he with h | h | h | ⟨h, _⟩
      · simp [h]
      · simp [h]
      · simp [h]
      · exact absurd rfl h
    · intro he
      exact access_fails (asciiFamily F G) AsciiTag.string AsciiTag.longlong (fun h => AsciiTag.noConfusion h) _ (fun o name row => read_fails _ o name row) e he
  · ext e
    constructor
    · intro he
      rcases hsub _ e he with h | h | h | ⟨_, h⟩ <;> simp [h]
    · rintro (he | he | he | rfl)
      · exact access_fails (asciiFamily F G) AsciiTag.longlong AsciiTag.string (fun h => AsciiTag.noConfusion h) _ (fun o name row => read_fails _ o name row) e (.inl he)
      · exact access_fails (asciiFamily F G) AsciiTag.longlong AsciiTag.string (fun h => AsciiTag.noConfusion h) _ (fun o name row => read_fails _ o name row) e (.inr (.inl he))
      · exact access_fails (asciiFamily F G) AsciiTag.longlong AsciiTag.string (fun h => AsciiTag.noConfusion h) _ (fun o name row => read_fails _ o name row) e (.inr (.inr he))
      · exact ⟨(Obj.fresh [exX] [[b!"?"]], b!"x", 0), .fresh _ _, rfl⟩
  · intro t e he
    rcases hsub t e he with h | h | h | ⟨_, h⟩ <;> simp [h]

/-- **C137** Reading an element of a column of a binary table: only a single byte or character can be refused (bad_lexical_cast); a cell that is too
short for any other type is undefined behaviour. -/
theorem C137_binary_read (t : BinTag) :
    Throws (fun x : Obj binFamily × Str × Nat => UsedTable _ x.1) (fun x => (x.1.read x.2.1 t x.2.2).2) =
      if t.vector = false ∧ (t.scalar = .byte ∨ t.scalar = .char) then {.columnNotFound, .badGet, .ub, .badLexicalCast}
      else {.columnNotFound, .badGet, .ub} := by
  have hb : ∀ s, Only (· = .badLexicalCast) (Bin.elementToByte s) := by
    intro s; unfold Bin.elementToByte
    split
    · exact .ok _
    · exact .error rfl
  have hbs : ∀ s n, Only (· = .ub) (Bin.elementsToByte s n) := by
    intro s n; unfold Bin.elementsToByte
    split
    · exact .ok _
    · exact .error rfl
  have hd : ∀ s n, Only (fun e => e = .ub ∨ (e = .badLexicalCast ∧ t.vector = false ∧ (t.scalar = .byte ∨ t.scalar = .char))) (binFamily.deser t s n) := by
    intro s n
    obtain ⟨a, v⟩ := t
    cases v
    · cases a
      · exact .ok _
      · exact (elementToNumeric_only 2 s).mono fun _ h => .inl h
      · exact (elementToNumeric_only 4 s).mono fun _ h => .inl h
      · exact (elementToNumeric_only 4 s).mono fun _ h => .inl h
      · exact (elementToNumeric_only 8 s).mono fun _ h => .inl h
      · exact (toPair_only s).mono fun _ h => .inl h
      · exact (elementToComplex_only 4 s).mono fun _ h => .inl h
      · exact (elementToComplex_only 8 s).mono fun _ h => .inl h
      · exact (hb s).mono fun _ h => .inr ⟨h, rfl, .inl rfl⟩
      · exact (hb s).mono fun _ h => .inr ⟨h, rfl, .inr rfl⟩
    · cases a
      · exact .ok _
      · exact (numericLoop_only 2 s n 0).mono fun _ h => .inl h
      · exact (numericLoop_only 4 s n 0).mono fun _ h => .inl h
      · exact (numericLoop_only 4 s n 0).mono fun _ h => .inl h
      · exact (numericLoop_only 8 s n 0).mono fun _ h => .inl h
      · exact (pairLoop_only s n 0).mono fun _ h => .inl h
      · exact (complexLoop_only 4 s n 0).mono fun _ h => .inl h
      · exact (complexLoop_only 8 s n 0).mono fun _ h => .inl h
      · exact (hbs s n).mono fun _ h => .inl h
      · exact (hbs s n).mono fun _ h => .inl h
  have hsub : ∀ e, e ∈ Throws (fun x : Obj binFamily × Str × Nat => UsedTable _ x.1) (fun x => (x.1.read x.2.1 t x.2.2).2) →
      e = .columnNotFound ∨ e = .badGet ∨ e = .ub ∨ (e = .badLexicalCast ∧ t.vector = false ∧ (t.scalar = .byte ∨ t.scalar = .char)) := by
    rintro e ⟨x, _, he⟩
    rcases (read_only (Φ := binFamily) x.1 x.2.1 t x.2.2 hd).of he with h | h | h | h | h
    · exact .inl h
    · exact .inr (.inl h)
    · exact .inr (.inr (.inl h))
    · exact .inr (.inr (.inl h))
    · exact .inr (.inr (.inr h))
  have hothers : ∀ e, e = .columnNotFound ∨ e = .badGet ∨ e = .ub →
      e ∈ Throws (fun x : Obj binFamily × Str × Nat => UsedTable _ x.1) (fun x => (x.1.read x.2.1 t x.2.2).2) := by
    intro e he
    refine access_fails binFamily t (⟨t.scalar, !t.vector⟩ : BinTag) ?_ _ (fun o name row => read_fails _ o name row) e he
    intro h
    have := congrArg BinTag.vector h
    simp at this
  ext e
  split
  · next hc =>
    constructor
    · intro he
      rcases hsub e he with h | h | h | ⟨h, _⟩ <;> simp [h]
    · rintro (he | he | he | rfl)
      · exact hothers e (.inl he)
      · exact hothers e (.inr (.inl he))
      · exact hothers e (.inr (.inr he))
      · obtain ⟨a, v⟩ := t
        obtain ⟨h1, h2⟩ := hc
        simp only at h1 h2
        subst h1
        rcases h2 with rfl | rfl
        · exact ⟨(Obj.fresh [exX] [[b!"??"]], b!"x", 0), .fresh _ _, rfl⟩
        · exact ⟨(Obj.fresh [exX] [[b!"??"]], b!"x", 0), .fresh _ _, rfl⟩
  · next hc =>
    constructor
    · intro he
      rcases hsub e he with h | h | h | ⟨_, h⟩
      · simp [h]
      · simp [h]
      · simp [h]
      · exact absurd h hc
    · intro he; exact hothers e he

/-- **C137** update_value: nothing else than these three, whatever the type and the value. -/
theorem C137_update (Φ : Family) (t t' : Φ.Tag) (ht : t' ≠ t) (x : Φ.El t) :
    Throws (fun x : Obj Φ × Str × Nat => UsedTable Φ x.1) (fun i => (i.1.update i.2.1 t i.2.2 x).2) = {.columnNotFound, .badGet, .ub} := by
  ext e
  constructor
  · rintro ⟨i, _, he⟩; exact (update_only _ _ _ _ _).of he
  · intro he
    refine access_fails Φ t t' ht _ (fun o name row => ?_) e he
    have hd : (o.getColumn name t).1.data = o.data := by
      unfold Obj.getColumn
      split
      · split <;> rfl
      · split <;> rfl
    simp only [Obj.update]
    constructor
    · intro e he
      rcases hg : o.getColumn name t with ⟨o', r⟩
      rw [hg] at he; simp only at he; subst he; rfl
    · intro v hv hc h0
      rcases hg : o.getColumn name t with ⟨o', r⟩
      rw [hg] at hv hd; simp only at hv hd; subst hv
      simp only [View.update, setCell, cellAt, hd, h0]
      rfl

/-! ### files -/

section files

open Reader

/-- The header of a binary table with one column, announcing no data. -/
def exForm (form : Str) : List Str :=
  [exCard b!"XTENSION= 'BINTABLE'", exCard b!"BITPIX  =                    8", exCard b!"NAXIS   =                    0",
   exCard b!"PCOUNT  =                    0", exCard b!"GCOUNT  =                    1", exCard b!"EXTNAME = 'x       '",
   exCard b!"TFIELDS =                    1", exCard (b!"TFORM1  = '" ++ form ++ b!"'"), exCard b!"END"]

/-- For every exception but column_not_found_exception a file. -/
def exRefused : Err → Str
  | .invalidCard => b!"Hello, world\n"
  | .fitsException => [exCard b!"BITPIX  =                    7", exCard b!"END"].flatten
  | .invalidCast => [exCard b!"BITPIX  =                    x", exCard b!"END"].flatten
  | .badGet => [exCard b!"BITPIX  =                    8", exCard b!"END"].flatten
  | .lengthError => [exCard b!"BITPIX  =                    8", exCard b!"NAXIS   = 18446744073709551615", exCard b!"END"].flatten
  | .outOfRange => [exCard b!"BITPIX  =                    8", exCard b!"NAXIS   =                    0", exCard b!"END"].flatten
  | .ub => [exCard b!"XTENSION= '", exCard b!"BITPIX  =                    8", exCard b!"NAXIS   =                    0", exCard b!"END"].flatten
  | .badLexicalCast => (exForm b!"xJ").flatten
  | .invalidTableFormat => (exForm b!"1Z").flatten
  | .columnNotFound => []

set_option maxRecDepth 100000 in
theorem entire_refused (F : FloatText) (e : Err) (he : e ≠ .columnNotFound) : readEntire F 10 2 (openFile (exRefused e)) = some (.error e) := by
  cases e <;> first | exact absurd rfl he | rfl

set_option maxRecDepth 100000 in
theorem headers_refused (F : FloatText) (e : Err) (he : e ≠ .columnNotFound) : readHeaders F 10 2 (openFile (exRefused e)) = some (.error e) := by
  cases e <;> first | exact absurd rfl he | rfl

/-- **C137** Opening a file, for every file: read_entire_hdus can raise every exception of the model but column_not_found_exception. -/
theorem C137_open_entire (F : FloatText) : RaisedBy readEntire F = {e | e ≠ .columnNotFound} := by
  ext e
  constructor
  · rintro ⟨content, N, h⟩
    exact readEntire_noColumn F N N _ e (h N N (Nat.le_refl _) (Nat.le_refl _))
  · intro he
    refine ⟨exRefused e, 10, fun cards turns h1 h2 => ?_⟩
    have := readEntire_mono 2 (entire_refused F e he) (cards - 10) (turns - 2)
    rwa [show 10 + (cards - 10) = cards by omega, show 2 + (turns - 2) = turns by omega] at this

/-- **C137** The same for read_only_headers. -/
theorem C137_open_headers (F : FloatText) : RaisedBy readHeaders F = {e | e ≠ .columnNotFound} := by
  ext e
  constructor
  · rintro ⟨content, N, h⟩
    exact readHeaders_noColumn F N N _ e (h N N (Nat.le_refl _) (Nat.le_refl _))
  · intro he
    refine ⟨exRefused e, 10, fun cards turns h1 h2 => ?_⟩
    have := readHeaders_mono 2 (headers_refused F e he) (cards - 10) (turns - 2)
    rwa [show 10 + (cards - 10) = cards by omega, show 2 + (turns - 2) = turns by omega] at this

/-- **C137** So there are files with which four exceptions get past `catch (fits_exception&)`, and these four only. -/
theorem C137_escapes (F : FloatText) :
    {e | e ∈ RaisedBy readEntire F ∧ e ≠ .ub ∧ ¬ CaughtBy .fitsException e} = {.outOfRange, .lengthError, .badGet, .badLexicalCast} := by
  ext e
  rw [C137_open_entire]
  simp only [Set.mem_ofPred_eq, C137_fits_handler, Set.mem_insert_iff, Set.mem_singleton_iff]
  cases e <;> simp

/-- **C137** `fits[i]` and `fits[name]` after opening a file: only out_of_range. -/
theorem C137_access (F : FloatText) :
    Throws (fun _ : Reader × Int => True) (fun x => x.1.at' x.2) = {.outOfRange} ∧
    Throws (fun x : Reader × Str => ∃ content cards turns, content.length + 5760 < 2 ^ 63 ∧
      readEntire F cards turns (openFile content) = some (.ok x.1)) (fun x => x.1.byName x.2) = {.outOfRange} := by
  constructor
  · ext e
    constructor
    · rintro ⟨⟨r, i⟩, _, h⟩
      simp only [Reader.at'] at h
      split at h
      · cases h; rfl
      · split at h
        · cases h
        · cases h; rfl
    · rintro rfl
      exact ⟨(openFile [], 0), trivial, rfl⟩
  · ext e
    constructor
    · rintro ⟨⟨r, name⟩, ⟨content, cards, turns, hb, hr⟩, h⟩
      obtain ⟨es, _, _, hn⟩ := C33_name F content hb cards turns r hr
      by_cases hm : name ∈ es.map (·.name)
      · obtain ⟨i, hi⟩ : ∃ i, LastOf (es.map (·.name)) name i := lastOf_exists hm
        have hlt : i < es.length := by simpa using (List.getElem?_eq_some_iff.1 hi.1).1
        simp only [(hn name).1 i es[i] (List.getElem?_eq_getElem hlt) hi] at h
        cases h
      · simp only [(hn name).2 hm] at h
        cases h; rfl
    · rintro rfl
      exact ⟨({ openFile [] with file := (openFile []).file.atEnd.1 }, []), ⟨[], 0, 1, by decide, rfl⟩, rfl⟩

/-- A file without BITPIX value 8, 16, 32, -32, -64 is refused with a fits_exception, one without NAXIS with a bad_get that
`catch (fits_exception&)` does not stop. -/
example (F : FloatText) : readEntire F 10 2 (openFile (exRefused .fitsException)) = some (.error .fitsException) ∧
    CaughtBy .fitsException .fitsException ∧
    readEntire F 10 2 (openFile (exRefused .badGet)) = some (.error .badGet) ∧ ¬ CaughtBy .fitsException .badGet :=
  ⟨entire_refused F _ (by simp), (C137_fits_handler _).2 (by simp), entire_refused F _ (by simp), fun h => by simpa using (C137_fits_handler _).1 h⟩

end files

/-- A card with the text END alone: out_of_range, which is a logic_error but no fits_exception. -/
example : Card.ofRaw b!"END" = .error .outOfRange ∧ CaughtBy .logicError .outOfRange ∧ ¬ CaughtBy .fitsException .outOfRange :=
  ⟨by decide, ⟨_, rfl, .step rfl (.refl _)⟩, fun h => by simpa using (C137_fits_handler _).1 h⟩

/-- Asking a header for a keyword it has not. -/
example (F : FloatText) : ∃ h, LoadedHeader F h ∧ (h.valueOf F b!"X" .int).2 = .error .outOfRange := by
  obtain ⟨h, s', h0, hx, _⟩ := exQuote_loaded F
  exact ⟨h, .load h0, (C137_value_of_missing F h (.load h0) _ _).2 hx⟩

end Astro
