import Verif.Lemmas.CardRead

/-
Properties C01 - C14: FITS cards.
-/

namespace Astro

open Spec

/-- Some way of printing floats, used only in examples. -/
def noFloats : FloatText := ⟨fun _ => [], fun _ => none, fun _ => [], fun _ => none⟩

/-! ## C01 -/

/-- **C01** A successful creation yields exactly the 80-byte card with the given parts. -/
theorem C01_created_card_layout (F : FloatText) (c : Card) (key : Str) (v : Val) (comment : Str)
    (h : (Card.create F c key v comment).2 = .ok ()) :
    ∃ text, TextOf F v text ∧ Fits key text comment ∧
      Layout (Card.create F c key v comment).1.raw key text comment ∧
      (Card.create F c key v comment).1.raw.length = 80 := by
  unfold Card.create at h
  cases hs : Policy.serialize F v with
  | error e => rw [hs] at h; simp at h
  | ok s =>
    rw [hs] at h
    by_cases hf : Fits key s comment
    · refine ⟨s, serialize_iff.1 hs, hf, ?_, ?_⟩
      · rw [create_fits c hs hf]; exact (layout_iff hf).2 rfl
      · rw [create_fits c hs hf]; exact fullCard_length hf
    · simp only at h; rw [createImpl_not_fits c hf] at h; simp at h

example : (Card.create noFloats Card.empty b!"NAXIS" (.int 2#32) b!"axes").2 = .ok () := by decide
example : (Card.create noFloats Card.empty b!"NAXIS" (.int 2#32) b!"axes").1.raw =
    b!"NAXIS   =                    2 /axes                                            " := by decide
example : (Card.create noFloats Card.empty b!"OBJECT" (.string b!"M31") b!"").1.raw =
    b!"OBJECT  = 'M31'                                                                 " := by decide

/-! ## C02 -/

/-- **C02** Creation succeeds exactly when the value has a text and the parts fit. -/
theorem C02_create_accepts_iff (F : FloatText) (c : Card) (key : Str) (v : Val) (comment : Str) :
    (Card.create F c key v comment).2 = .ok () ↔ ∃ text, TextOf F v text ∧ Fits key text comment := by
  constructor
  · intro h
    obtain ⟨t, h1, h2, _⟩ := C01_created_card_layout F c key v comment h
    exact ⟨t, h1, h2⟩
  · rintro ⟨t, h1, h2⟩
    rw [create_fits c (serialize_iff.2 h1) h2]

/-- **C02** Whatever the reason of a failure, the card object is exactly as before. -/
theorem C02_create_failure_unchanged (F : FloatText) (c : Card) (key : Str) (v : Val) (comment : Str)
    (h : (Card.create F c key v comment).2 ≠ .ok ()) : (Card.create F c key v comment).1 = c := by
  unfold Card.create at *
  cases hs : Policy.serialize F v with
  | error e => rfl
  | ok s =>
    rw [hs] at h
    simp only at h ⊢
    by_cases hf : Fits key s comment
    · rw [createImpl_fits c hf] at h; exact absurd rfl h
    · rw [createImpl_not_fits c hf]

/-- **C02** For integers, booleans, strings and complex integers the only possible failure is `invalid_card`. -/
theorem C02_create_failure_kind (F : FloatText) (c : Card) (key : Str) (v : Val) (comment : Str)
    (hv : NoFloat v.ty) (h : (Card.create F c key v comment).2 ≠ .ok ()) :
    Card.create F c key v comment = (c, .error .invalidCard) := by
  obtain ⟨s, hs⟩ := serialize_total F v hv
  unfold Card.create at *
  rw [hs] at h ⊢
  simp only at h ⊢
  by_cases hf : Fits key s comment
  · rw [createImpl_fits c hf] at h; exact absurd rfl h
  · rw [createImpl_not_fits c hf]

/-- **C02** Spelled out for integers and booleans: 8 bytes of keyword and 48 bytes of comment. -/
theorem C02_integer_limits (F : FloatText) (c : Card) (key : Str) (v : Val) (comment : Str)
    (hv : IsIntegerTy v.ty ∨ v.ty = .bool) :
    (Card.create F c key v comment).2 = .ok () ↔ key.length ≤ 8 ∧ comment.length ≤ 48 := by
  have hlen : ∃ s, Policy.serialize F v = .ok s ∧ s.length = 20 := by
    rcases hv with hv | hv
    · obtain ⟨h1, _, _, _, h5⟩ := numeral_props v hv
      exact ⟨_, (h5 F).1, by simp; omega⟩
    · cases v <;> simp only [Val.ty, reduceCtorEq] at hv
      case bool b => cases b <;> exact ⟨_, rfl, by decide⟩
  obtain ⟨s, hs, hl⟩ := hlen
  have : Fits key s comment ↔ key.length ≤ 8 ∧ comment.length ≤ 48 := by
    unfold Fits
    cases comment with
    | nil => simp [hl]
    | cons x t => simp only [hl, ne_eq, reduceCtorEq, not_false_eq_true, true_and, false_and, false_or]; omega
  rw [← this, C02_create_accepts_iff]
  constructor
  · rintro ⟨t, h1, h2⟩
    rw [serialize_iff.2 h1] at hs
    cases hs; exact h2
  · intro h; exact ⟨s, serialize_iff.1 hs, h⟩

/-- **C02** Spelled out for strings: 68 bytes without comment, otherwise 66 bytes together. -/
theorem C02_string_limits (F : FloatText) (c : Card) (key x comment : Str) :
    (Card.create F c key (.string x) comment).2 = .ok () ↔
      key.length ≤ 8 ∧ (if comment = [] then x.length ≤ 68 else x.length + comment.length ≤ 66) := by
  rw [C02_create_accepts_iff]
  simp only [TextOf, Fits]
  by_cases hc : comment = []
  · simp only [hc, if_true, ne_eq, not_true, false_and, or_false, true_and]
    constructor
    · rintro ⟨_, rfl, h1, h2⟩; simp at h2; exact ⟨h1, by omega⟩
    · rintro ⟨h1, h2⟩; exact ⟨_, rfl, h1, by simp; omega⟩
  · simp only [hc, if_false, ne_eq, not_false_eq_true, true_and, false_and, false_or]
    constructor
    · rintro ⟨_, rfl, h1, h2⟩; simp at h2; exact ⟨h1, by omega⟩
    · rintro ⟨h1, h2⟩; exact ⟨_, rfl, h1, by simp; omega⟩

example : (Card.create noFloats ⟨b!"OLD", none⟩ b!"TOOLONGKEY" (.int 2#32) []) = (⟨b!"OLD", none⟩, .error .invalidCard) := by
  decide
example : ∃ text, TextOf noFloats (.int 7#32) text ∧ Fits b!"A" text b!"c" :=
  ⟨b!"                   7", serialize_iff.1 (by decide), by unfold Fits; decide⟩

/-! ## C03 -/

theorem created_keyword_aux {key s comment : Str} (h : Fits key s comment) :
    (fullCard key s comment).take 8 = key ++ spaces (8 - key.length) := by
  apply take_of_prefix (r := (fullCard key s comment).drop 8)
  · unfold fullCard
    generalize spaces (80 - (cardText key s comment).length) = p
    unfold cardText
    have e : (key ++ spaces (8 - key.length)).length = 8 := by have := h.1; simp; omega
    have : key ++ spaces (8 - key.length) ++ [61, 32] ++ s ++ (if comment = [] then [] else [32, 47] ++ comment) ++ p
      = (key ++ spaces (8 - key.length)) ++ ([61, 32] ++ s ++ (if comment = [] then [] else [32, 47] ++ comment) ++ p) := by
      simp
    rw [this, List.drop_left' e]
  · have := h.1; simp; omega

/-- **C03** The whole keyword field is the keyword padded to eight bytes and the keyword is recovered up to white space
at its ends. -/
theorem C03_keyword_of_created (F : FloatText) (c : Card) (key : Str) (v : Val) (comment : Str)
    (h : (Card.create F c key v comment).2 = .ok ()) :
    (∃ kw, (Card.create F c key v comment).1.keywordWhole = .ok kw ∧ leftJustified 8 key kw) ∧
    (∃ k, (Card.create F c key v comment).1.keyword = .ok k ∧ IsTrim key k) := by
  obtain ⟨s, h1, h2⟩ := (C02_create_accepts_iff F c key v comment).1 h
  rw [create_fits c (serialize_iff.2 h1) h2]
  have e := created_keyword_aux h2
  have hl := fullCard_length h2
  have ek : Policy.extractKeyword (fullCard key s comment) = .ok (key ++ spaces (8 - key.length)) := by
    unfold Policy.extractKeyword; rw [substr_ok (by omega)]; simp [e]
  refine ⟨⟨_, ek, leftJustified_iff.2 ⟨h2.1, rfl⟩⟩, ?_⟩
  unfold Card.keyword
  simp only [ek, bind, Except.bind, pure, Except.pure]
  refine ⟨_, rfl, ?_⟩
  rw [isTrim_iff, trim_spaces_right]

/-- **C03** A keyword without outer white space comes back unchanged. -/
theorem C03_keyword_round_trip (F : FloatText) (c : Card) (key : Str) (v : Val) (comment : Str)
    (h : (Card.create F c key v comment).2 = .ok ()) (hk : NoOuterWhite key) :
    (Card.create F c key v comment).1.keyword = .ok key := by
  obtain ⟨_, k, h1, h2⟩ := C03_keyword_of_created F c key v comment h
  rw [h1, ← isTrim_iff.1 h2, trim_of_trimmed (trimmed_iff.2 hk)]

example : NoOuterWhite b!"BITPIX" := trimmed_iff.1 (by constructor <;> decide)

/-! ## C04, C05 -/

/-- A fresh card: nothing cached. -/
def Fresh (c : Card) : Prop := c.cache = none

theorem intLike_round_trip (F : FloatText) (c : Card) (key : Str) (v : Val) (comment : Str) (hc : Fresh c)
    (hv : IsIntegerTy v.ty ∨ v.ty = .bool) (hk : key.length ≤ 8) (hm : comment.length ≤ 48) :
    (Card.value F (Card.create F c key v comment).1 v.ty).2 =
      if comment = [] ∨ slash ∉ key then .ok v else .error .invalidCast := by
  have hprop : ∃ s n, Policy.serialize F v = .ok s ∧ s.length = 20 ∧ (47 : Byte) ∉ s ∧ trim s = n ∧
      Policy.parseTo F v.ty n = .ok v := by
    rcases hv with hv | hv
    · obtain ⟨h1, h2, h3, h4, h5⟩ := numeral_props v hv
      refine ⟨_, _, (h5 F).1, by simp; omega, ?_, ?_, (h5 F).2⟩
      · simp only [List.mem_append, not_or]; exact ⟨not_mem_spaces (by decide) _, h4⟩
      · rw [trim_spaces_left, trim_of_trimmed h2]
    · cases v <;> simp only [Val.ty, reduceCtorEq] at hv
      case bool b =>
        cases b
        · exact ⟨_, b!"F", rfl, by decide, by decide, by decide, by rfl⟩
        · exact ⟨_, b!"T", rfl, by decide, by decide, by decide, by rfl⟩
  obtain ⟨s, n, hs, hl, hns, htr, hp⟩ := hprop
  have hf : Fits key s comment := by
    refine ⟨hk, ?_⟩
    by_cases h : comment = []
    · exact Or.inl ⟨h, by omega⟩
    · exact Or.inr ⟨h, by omega⟩
  rw [create_fits c hs hf]
  have hnt : v.ty ≠ .string := by
    rcases hv with hv | hv
    · intro e; rw [e] at hv; exact hv
    · intro e; rw [e] at hv; cases hv
  rw [value_created hc hf hnt]
  by_cases h : comment = [] ∨ slash ∉ key
  · rw [if_pos h, windowText_plain h hns, htr, hp]
  · rw [if_neg h]
    have h1 : comment ≠ [] := fun e => h (Or.inl e)
    have h2 : (47 : Byte) ∈ key := by
      have := fun e => h (Or.inr e)
      simpa [slash] using this
    rw [windowText_keyslash h1 h2]
    exact parseTo_slash hv (slash_mem_keyslash _ _)

/-- **C04** Every integer of type int, unsigned, long long or size_t written to a card with any comment (up to 48 bytes) reads back
unchanged, exactly when the keyword of a commented card has no `'/'`; otherwise reading reports `invalid_cast`. -/
theorem C04_integer_round_trip (F : FloatText) (c : Card) (key : Str) (v : Val) (comment : Str) (hc : Fresh c)
    (hv : IsIntegerTy v.ty) (hk : key.length ≤ 8) (hm : comment.length ≤ 48) :
    (Card.value F (Card.create F c key v comment).1 v.ty).2 =
      if comment = [] ∨ slash ∉ key then .ok v else .error .invalidCast :=
  intLike_round_trip F c key v comment hc (Or.inl hv) hk hm

example : (Card.value noFloats (Card.create noFloats Card.empty b!"NAXIS1" (.longlong (BitVec.ofInt 64 (-9223372036854775808)))
    b!"a / comment").1 .longlong).2 = .ok (.longlong (BitVec.ofInt 64 (-9223372036854775808))) := by decide
example : (Card.value noFloats (Card.create noFloats Card.empty b!"N/A" (.int 5#32) b!"c").1 .int).2 = .error .invalidCast := by
  decide

/-- **C05** Booleans round-trip under the same condition. -/
theorem C05_bool_round_trip (F : FloatText) (c : Card) (key : Str) (b : Bool) (comment : Str) (hc : Fresh c)
    (hk : key.length ≤ 8) (hm : comment.length ≤ 48) :
    (Card.value F (Card.create F c key (.bool b) comment).1 .bool).2 =
      if comment = [] ∨ slash ∉ key then .ok (.bool b) else .error .invalidCast :=
  intLike_round_trip F c key (.bool b) comment hc (Or.inr rfl) hk hm

example : (Card.value noFloats (Card.create noFloats Card.empty b!"SIMPLE" (.bool true) b!"std").1 .bool).2 = .ok (.bool true) := by
  decide

/-! ## C06 -/

/-- **C06** A string value comes back (without its outer white space) exactly when no `'/'` interferes: there is none in keyword and
value, or the keyword has one and there is no comment. -/
theorem C06_string_round_trip_iff (F : FloatText) (c : Card) (key x comment t : Str) (hc : Fresh c)
    (h : (Card.create F c key (.string x) comment).2 = .ok ()) (ht : IsTrim x t) :
    (Card.value F (Card.create F c key (.string x) comment).1 .string).2 = .ok (.string t) ↔
      (slash ∉ key ∧ slash ∉ x) ∨ (slash ∈ key ∧ comment = []) := by
  obtain ⟨s, h1, hf⟩ := (C02_create_accepts_iff F c key _ comment).1 h
  have hs := serialize_iff.2 h1
  rw [create_fits c hs hf]
  have es : s = 39 :: x ++ [39] := by simpa [TextOf] using h1
  have etr : trim s = s := by rw [es]; exact trim_of_trimmed (quoted_trimmed x)
  have et : trim x = t := isTrim_iff.1 ht
  rw [valueString_created hc hf]
  have hsl : slash = 47 := rfl
  have hmem : (47 : Byte) ∈ s ↔ (47 : Byte) ∈ x := by rw [es]; simp
  have good : windowText key s comment = s →
      unquote (windowText key s comment) = .ok (.string t) := by
    intro hw; rw [hw, es]
    simp [unquote, et]
  rw [hsl]
  by_cases hk : (47 : Byte) ∈ key
  · by_cases hcm : comment = []
    · have hw : windowText key s comment = s := by
        unfold windowText; simp [hcm, hk, etr]
      rw [good hw]; simp [hk, hcm]
    · simp only [hk, not_true, false_and, hcm, and_false, or_self, iff_false]
      rw [windowText_keyslash hcm hk, es]
      intro hbad
      -- count quotes and slashes
      have hp : ∀ c : Byte, ((c == 39) || (c == 47)) = true → isSpace c = false := by
        intro c hcc
        simp only [Bool.or_eq_true, beq_iff_eq] at hcc
        rcases hcc with e | e <;> rw [e] <;> decide
      have hcnt := countP_trim hp (39 :: x ++ [39] ++ [32, 47] ++ comment)
      have hxt := countP_trim hp x
      cases hw : trim (39 :: x ++ [39] ++ [32, 47] ++ comment) with
      | nil =>
        have := slash_mem_keyslash (39 :: x ++ [39]) comment
        rw [hw] at this; cases this
      | cons y r =>
        rw [hw] at hbad hcnt
        simp only [unquote] at hbad
        have hy : y = 39 := by
          have hh := (trim_trimmed (39 :: x ++ [39] ++ [32, 47] ++ comment))
          have : trimL (39 :: x ++ [39] ++ [32, 47] ++ comment) = 39 :: x ++ [39] ++ [32, 47] ++ comment :=
            trimL_of_head (by intro c hcc; simp at hcc; rw [← hcc]; decide)
          obtain ⟨a, b, e, ha, hb, _⟩ := trim_split (39 :: x ++ [39] ++ [32, 47] ++ comment)
          rw [hw] at e
          cases a with
          | nil => simp at e; exact e.1.symm
          | cons z a' =>
            have hz := ha z (by simp)
            simp at e
            rw [← e.1] at hz; exact absurd hz (by decide)
        rw [if_pos hy] at hbad
        by_cases hr : r.isEmpty = true
        · rw [if_pos hr] at hbad; cases hbad
        · rw [if_neg hr] at hbad
          have e1 : trim r.dropLast = trim x := by
            have := hbad; simp only [Except.ok.injEq, Val.string.injEq] at this; rw [this, et]
          have hdl := countP_dropLast (fun c => (c == 39) || (c == 47)) r
          have hrt := countP_trim hp r.dropLast
          rw [e1] at hrt
          simp only [List.countP_cons, List.countP_append, List.countP_nil, hy, List.cons_append] at hcnt
          simp at hcnt
          omega
  · by_cases hx : (47 : Byte) ∈ x
    · simp only [hk, hx, not_true, not_false_eq_true, and_false, false_and, or_self, iff_false]
      intro hbad
      have hno : (47 : Byte) ∉ windowText key s comment := by
        have e : windowText key s comment = trim (s.take (findByte s 47 - 1)) := by
          unfold windowText
          by_cases hcm : comment = [] <;> simp [hcm, hk, hmem, hx]
        rw [e]
        intro hm
        have hm := mem_of_mem_trim hm
        obtain ⟨a, b, e2, hn⟩ := split_first (hmem.2 hx)
        rw [e2, findByte_append hn, List.take_append_of_le_length (by omega)] at hm
        exact hn (List.mem_of_mem_take hm)
      have hin : (47 : Byte) ∈ t := by rw [← et]; exact mem_trim_of_mem (by decide) hx
      cases hw : windowText key s comment with
      | nil => rw [hw] at hbad; simp [unquote] at hbad; rw [hbad] at hin; cases hin
      | cons y r =>
        rw [hw] at hbad hno
        simp only [unquote] at hbad
        by_cases hy : y = 39
        · rw [if_pos hy] at hbad
          by_cases hr : r.isEmpty = true
          · rw [if_pos hr] at hbad; cases hbad
          · rw [if_neg hr] at hbad
            simp only [Except.ok.injEq, Val.string.injEq] at hbad
            rw [← hbad] at hin
            exact hno (List.mem_cons_of_mem _ ((List.dropLast_sublist r).mem (mem_of_mem_trim hin)))
        · rw [if_neg hy] at hbad
          simp only [Except.ok.injEq, Val.string.injEq] at hbad
          rw [hbad] at hno; exact hno hin
    · have hw : windowText key s comment = s := by
        rw [windowText_plain (Or.inr hk) (by rw [hmem]; exact hx), etr]
      rw [good hw]; simp [hk, hx]

example : (Card.value noFloats (Card.create noFloats Card.empty b!"OBJECT" (.string b!" M 31 ") b!"x/y").1 .string).2
    = .ok (.string b!"M 31") := by decide
/-- A string containing `'/'` is truncated. -/
example : (Card.value noFloats (Card.create noFloats Card.empty b!"UNIT" (.string b!"km/s") []).1 .string).2
    = .ok (.string []) := by decide
/-- A `'/'` as second byte even makes the read undefined. -/
example : (Card.value noFloats (Card.create noFloats Card.empty b!"UNIT" (.string b!"m/s") []).1 .string).2
    = .error .ub := by decide

/-! ## C07 -/

theorem complex_window {key comment a b : Str} {p q : Nat} (hta : Trimmed a) (htb : Trimmed b) (ha : a ≠ []) (hb : b ≠ [])
    (hsa : (47 : Byte) ∉ a) (hsb : (47 : Byte) ∉ b) (h : comment = [] ∨ slash ∉ key) :
    windowText key ((spaces p ++ a) ++ (spaces q ++ b)) comment = a ++ spaces q ++ b := by
  rw [windowText_plain (by simpa [slash] using h)]
  · rw [List.append_assoc, trim_spaces_left]
    rw [← List.append_assoc]
    apply trim_of_trimmed
    refine ⟨?_, ?_⟩
    · intro c hc
      apply hta.1
      cases a with
      | nil => exact absurd rfl ha
      | cons x t => simpa using hc
    · intro c hc
      apply htb.2
      rw [List.getLast?_append] at hc
      cases hl : b.getLast? with
      | none => exact absurd (List.getLast?_eq_none_iff.1 hl) hb
      | some y => rw [hl] at hc; simpa using hc
  · simp only [List.mem_append, not_or]
    exact ⟨⟨not_mem_spaces (by decide) _, hsa⟩, ⟨not_mem_spaces (by decide) _, hsb⟩⟩

theorem complex_keyslash {α : Type} {parse : Str → Res α} {a b comment : Str} {p q : Nat}
    (ha : (32 : Byte) ∉ a) (_hb : (32 : Byte) ∉ b) (hta : Trimmed a) (hane : a ≠ [])
    (hbad : ∀ s : Str, (47 : Byte) ∈ s → parse s = .error .invalidCast)
    (herr : ∀ s e, parse s = .error e → e = .invalidCast)
    (hsa : (47 : Byte) ∉ a) (hsb : (47 : Byte) ∉ b) :
    Policy.parseComplex parse (trim ((spaces p ++ a) ++ (spaces q ++ b) ++ b!" /" ++ comment)) = .error .invalidCast := by
  apply parseComplex_bad
  intro x r e hx
  refine ⟨fun e' => herr x e', hbad r ?_⟩
  -- the slash is in the whole text and not before the first space
  have hm : (47 : Byte) ∈ trim ((spaces p ++ a) ++ (spaces q ++ b) ++ b!" /" ++ comment) :=
    slash_mem_keyslash _ _
  rw [e] at hm
  rcases List.mem_append.1 hm with hm | hm
  · exfalso
    have e1 : trim ((spaces p ++ a) ++ (spaces q ++ b) ++ b!" /" ++ comment)
        = trim (a ++ spaces q ++ b ++ b!" /" ++ comment) := by
      have : (spaces p ++ a) ++ (spaces q ++ b) ++ b!" /" ++ comment = spaces p ++ (a ++ spaces q ++ b ++ b!" /" ++ comment) := by
        simp
      rw [this, trim_spaces_left]
    rw [e1] at e
    obtain ⟨u, v, e2, hu, _, _⟩ := trim_split (a ++ spaces q ++ b ++ b!" /" ++ comment)
    have hu0 : u = [] := by
      cases u with
      | nil => rfl
      | cons z u' =>
        exfalso
        have hz := hu z (by simp)
        cases a with
        | nil => exact hane rfl
        | cons y t =>
          simp at e2
          have := hta.1 y rfl
          rw [e2.1, hz] at this; cases this
    rw [hu0, e] at e2
    simp only [List.nil_append] at e2
    -- prefix of `x` up to its slash has no space
    obtain ⟨x1, x2, ex, hx1⟩ := split_first hm
    have hx32 : (32 : Byte) ∉ x1 := fun hh => hx (by rw [ex]; simp [hh])
    have e3 : a ++ spaces q ++ b ++ b!" /" ++ comment = (a ++ spaces q ++ b ++ [32]) ++ 47 :: comment := by simp
    have e4 : (x1 ++ 47 :: x2) ++ 32 :: r ++ v = x1 ++ 47 :: (x2 ++ 32 :: r ++ v) := by simp
    rw [e3, ex, e4] at e2
    -- both are the first slash
    have hlen : (a ++ spaces q ++ b ++ [32]).length = x1.length := by
      have f1 := findByte_append (b := comment) (c := 47) (a := a ++ spaces q ++ b ++ [32]) (by
        simp only [List.mem_append, not_or]
        exact ⟨⟨⟨hsa, not_mem_spaces (by decide) _⟩, hsb⟩, by decide⟩)
      have f2 := findByte_append (b := x2 ++ 32 :: r ++ v) (c := 47) (a := x1) hx1
      rw [e2] at f1
      exact f1.symm.trans f2
    have := List.append_inj_left e2 hlen
    apply hx32
    rw [← this]; simp
  · rcases List.mem_cons.1 hm with hm | hm
    · exact absurd hm (by decide)
    · exact hm

/-- **C07** A complex<int> value can never be read back from a card. -/
theorem C07_complex_int_never (F : FloatText) (c : Card) (key : Str) (re im : BitVec 32) (comment : Str) (hc : Fresh c)
    (h : (Card.create F c key (.cint re im) comment).2 = .ok ()) :
    (Card.value F (Card.create F c key (.cint re im) comment).1 .cint).2 = .error .invalidCast := by
  obtain ⟨s, h1, hf⟩ := (C02_create_accepts_iff F c key _ comment).1 h
  have hs := serialize_iff.2 h1
  rw [create_fits c hs hf, value_created hc hf (by decide)]
  have b1 := toInt_bounds32 re
  have b2 := toInt_bounds32 im
  have l1 : (showInt re.toInt).length ≤ 20 := showInt64_length (by omega) (by omega)
  have l2 : (showInt im.toInt).length ≤ 11 := by
    have : (showNat im.toInt.natAbs).length ≤ 10 := (showNat_length_le 10 _ (by omega)).2 (by omega)
    rcases showInt_cases im.toInt with ⟨_, e⟩ | ⟨_, e⟩ <;> rw [e]
    · simp; omega
    · omega
  have es : s = (spaces (20 - (showInt re.toInt).length) ++ showInt re.toInt) ++
      (spaces (20 - (showInt im.toInt).length) ++ showInt im.toInt) := by
    obtain ⟨x, y, e, e1, e2⟩ := pad20_pair.1 (show (do return (← Policy.pad20 (showInt re.toInt)) ++ (← Policy.pad20 (showInt im.toInt)) : Res Str) = .ok s from hs)
    rw [pad20_ok l1] at e1; rw [pad20_ok (by omega)] at e2
    cases e1; cases e2; exact e
  have key1 : Policy.parseComplex (fun x => Policy.recast (lexSigned 32 x)) (windowText key s comment) = .error .invalidCast := by
    have n32a : (32 : Byte) ∉ showInt re.toInt := showInt_not_mem (by decide) (by decide) _
    have n32b : (32 : Byte) ∉ showInt im.toInt := showInt_not_mem (by decide) (by decide) _
    have n47a : (47 : Byte) ∉ showInt re.toInt := showInt_not_mem (by decide) (by decide) _
    have n47b : (47 : Byte) ∉ showInt im.toInt := showInt_not_mem (by decide) (by decide) _
    have bad : ∀ (ch : Byte) (x : Str), isDigit ch = false → ch ≠ 45 → ch ≠ 43 → ch ∈ x →
        Policy.recast (lexSigned 32 x) = .error .invalidCast := by
      intro ch x h1 h2 h3 h4; rw [lexSigned_bad h4 h1 h2 h3]; rfl
    by_cases hcond : comment = [] ∨ slash ∉ key
    · rw [es, complex_window (showInt_trimmed _) (showInt_trimmed _) (showInt_ne_nil _) (showInt_ne_nil _) n47a n47b hcond]
      obtain ⟨q, hq⟩ : ∃ q, 20 - (showInt im.toInt).length = q + 2 := ⟨18 - (showInt im.toInt).length, by omega⟩
      rw [hq]
      have : showInt re.toInt ++ spaces (q + 2) ++ showInt im.toInt
          = showInt re.toInt ++ 32 :: (32 :: (spaces q ++ showInt im.toInt)) := by
        simp [spaces, List.replicate_succ]
      rw [this, parseComplex_split n32a]
      have hb := bad 32 (32 :: (spaces q ++ showInt im.toInt)) (by decide) (by decide) (by decide) (by simp)
      cases hp : Policy.recast (lexSigned 32 (showInt re.toInt)) with
      | error e => rw [recast_error_signed hp]; rfl
      | ok x => simp only [bind, Except.bind, hb]
    · have h1 : comment ≠ [] := fun e => hcond (Or.inl e)
      have h2 : (47 : Byte) ∈ key := by
        have := fun e => hcond (Or.inr e)
        simpa [slash] using this
      rw [windowText_keyslash h1 h2, es]
      exact complex_keyslash n32a n32b (showInt_trimmed _) (showInt_ne_nil _)
        (fun x hx => bad 47 x (by decide) (by decide) (by decide) hx) (fun x e he => recast_error_signed he) n47a n47b
  simp only [Policy.parseTo, key1, Except.map]

/-- **C07** A complex<size_t> value can be read back exactly when its imaginary part has nineteen digits (and no `'/'` in the keyword
of a commented card); in all other cases reading reports `invalid_cast`. -/
theorem C07_complex_size_iff (F : FloatText) (c : Card) (key : Str) (re im : BitVec 64) (comment : Str) (hc : Fresh c)
    (h : (Card.create F c key (.csizeT re im) comment).2 = .ok ()) :
    (Card.value F (Card.create F c key (.csizeT re im) comment).1 .csizeT).2 =
      if (10 ^ 18 ≤ im.toNat ∧ im.toNat < 10 ^ 19) ∧ (comment = [] ∨ slash ∉ key) then .ok (.csizeT re im)
      else .error .invalidCast := by
  obtain ⟨s, h1, hf⟩ := (C02_create_accepts_iff F c key _ comment).1 h
  have hs := serialize_iff.2 h1
  rw [create_fits c hs hf, value_created hc hf (by decide)]
  have l1 : (showNat re.toNat).length ≤ 20 := showNat64_length (by omega)
  have l2 : (showNat im.toNat).length ≤ 20 := showNat64_length (by omega)
  have l19 := showNat_length_le 19 im.toNat (by omega)
  have l18 := showNat_length_le 18 im.toNat (by omega)
  have es : s = (spaces (20 - (showNat re.toNat).length) ++ showNat re.toNat) ++
      (spaces (20 - (showNat im.toNat).length) ++ showNat im.toNat) := by
    obtain ⟨x, y, e, e1, e2⟩ := pad20_pair.1 (show (do return (← Policy.pad20 (showNat re.toNat)) ++ (← Policy.pad20 (showNat im.toNat)) : Res Str) = .ok s from hs)
    rw [pad20_ok l1] at e1; rw [pad20_ok l2] at e2
    cases e1; cases e2; exact e
  have n32a : (32 : Byte) ∉ showNat re.toNat := showNat_not_mem (by decide) _
  have n32b : (32 : Byte) ∉ showNat im.toNat := showNat_not_mem (by decide) _
  have n47a : (47 : Byte) ∉ showNat re.toNat := showNat_not_mem (by decide) _
  have n47b : (47 : Byte) ∉ showNat im.toNat := showNat_not_mem (by decide) _
  have bad : ∀ (ch : Byte) (x : Str), isDigit ch = false → ch ≠ 45 → ch ≠ 43 → ch ∈ x →
      Policy.recast (lexUnsigned 64 x) = .error .invalidCast := by
    intro ch x h1 h2 h3 h4; rw [lexUnsigned_bad h4 h1 h2 h3]; rfl
  have good : ∀ v : BitVec 64, Policy.recast (lexUnsigned 64 (showNat v.toNat)) = .ok v := by
    intro v; rw [lexUnsigned_showNat 64 _ (by omega)]; simp [Policy.recast]
  have key1 : Policy.parseComplex (fun x => Policy.recast (lexUnsigned 64 x)) (windowText key s comment) =
      if (10 ^ 18 ≤ im.toNat ∧ im.toNat < 10 ^ 19) ∧ (comment = [] ∨ slash ∉ key) then .ok (re, im)
      else .error .invalidCast := by
    by_cases hcond : comment = [] ∨ slash ∉ key
    · simp only [hcond, and_true]
      rw [es, complex_window (showNat_trimmed _) (showNat_trimmed _) (showNat_ne_nil _) (showNat_ne_nil _) n47a n47b hcond]
      by_cases h20 : (showNat im.toNat).length = 20
      · rw [if_neg (by omega), h20]
        unfold Policy.parseComplex
        rw [findIdx_nospace]
        simp only [Nat.sub_self, spaces_zero, List.append_nil, List.mem_append, not_or]
        exact ⟨n32a, n32b⟩
      · obtain ⟨q, hq⟩ : ∃ q, 20 - (showNat im.toNat).length = q + 1 := ⟨19 - (showNat im.toNat).length, by omega⟩
        rw [hq]
        have : showNat re.toNat ++ spaces (q + 1) ++ showNat im.toNat
            = showNat re.toNat ++ 32 :: (spaces q ++ showNat im.toNat) := by
          simp [spaces, List.replicate_succ]
        rw [this, parseComplex_split n32a]
        simp only [good re, bind, Except.bind]
        cases q with
        | zero =>
          rw [if_pos (by omega)]
          simp only [spaces_zero, List.nil_append, good im]; rfl
        | succ q =>
          rw [if_neg (by omega)]
          have hb := bad 32 (spaces (q + 1) ++ showNat im.toNat) (by decide) (by decide) (by decide)
            (by simp [spaces])
          rw [hb]
    · simp only [hcond, and_false, if_false]
      have h1 : comment ≠ [] := fun e => hcond (Or.inl e)
      have h2 : (47 : Byte) ∈ key := by
        have := fun e => hcond (Or.inr e)
        simpa [slash] using this
      rw [windowText_keyslash h1 h2, es]
      exact complex_keyslash n32a n32b (showNat_trimmed _) (showNat_ne_nil _)
        (fun x hx => bad 47 x (by decide) (by decide) (by decide) hx) (fun x e he => recast_error he) n47a n47b
  simp only [Policy.parseTo, key1]
  split <;> rfl

example : (Card.create noFloats Card.empty b!"Z" (.cint 1#32 2#32) []).2 = .ok () := by decide
example : (Card.value noFloats (Card.create noFloats Card.empty b!"Z" (.csizeT 7#64 1000000000000000000#64) []).1 .csizeT).2 =
    .ok (.csizeT 7#64 1000000000000000000#64) := by decide

end Astro
