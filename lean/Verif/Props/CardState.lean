import Verif.Props.Card

/-
Properties C08 - C14: reading histories, set_value, raw cards, commentary cards.
-/

namespace Astro

open Spec

/-! ## C08 -/

/-- The card object after a sequence of typed reads. -/
def afterReads (F : FloatText) (c : Card) (ts : List Ty) : Card :=
  ts.foldl (fun c t => (Card.value F c t).1) c

theorem value_raw (F : FloatText) (c : Card) (t : Ty) : (Card.value F c t).1.raw = c.raw := by
  unfold Card.value
  cases c.cache with
  | none => simp only; cases Card.valueImp F c.raw t <;> rfl
  | some v => simp only; split <;> rfl

theorem valueImp_ty {F : FloatText} {raw : Str} {t : Ty} {v : Val} (h : Card.valueImp F raw t = .ok v) : v.ty = t := by
  unfold Card.valueImp at h
  cases he : Policy.extractValue raw with
  | error e => rw [he] at h; cases h
  | ok x =>
    rw [he] at h
    simp only [bind, Except.bind] at h
    have hm : ∀ {α : Type} {r : Res α} {f : α → Val} {t : Ty}, (∀ a, (f a).ty = t) → r.map f = .ok v → v.ty = t := by
      intro α r f t hf hr
      cases r with
      | error e => cases hr
      | ok a => simp only [Except.map, Except.ok.injEq] at hr; rw [← hr]; exact hf a
    cases t
    case string =>
      simp only at h
      split at h
      · cases h; rfl
      · split at h
        · split at h
          · cases h
          · cases h; rfl
        · cases h; rfl
    all_goals
      simp only [Policy.parseTo] at h
      first
      | exact hm (fun _ => rfl) h

/-- **C08** Reading never changes the raw card or the keyword. -/
theorem C08_reads_preserve_card (F : FloatText) (c : Card) (ts : List Ty) :
    (afterReads F c ts).raw = c.raw ∧ (afterReads F c ts).keyword = c.keyword := by
  have h : (afterReads F c ts).raw = c.raw := by
    unfold afterReads
    induction ts generalizing c with
    | nil => rfl
    | cons t ts ih => simp only [List.foldl_cons]; rw [ih, value_raw]
  exact ⟨h, by unfold Card.keyword; rw [h]⟩

theorem cached_reads (F : FloatText) {c : Card} {v : Val} (h : c.cache = some v) (ts : List Ty) :
    afterReads F c ts = c := by
  unfold afterReads
  induction ts with
  | nil => rfl
  | cons t ts ih =>
    simp only [List.foldl_cons]
    have : (Card.value F c t).1 = c := by
      unfold Card.value; rw [h]; simp only; split <;> rfl
    rw [this]; exact ih

theorem value_ok_cached {F : FloatText} {c : Card} {t : Ty} {v : Val} (h : (Card.value F c t).2 = .ok v) :
    (Card.value F c t).1.cache = some v ∧ v.ty = t := by
  unfold Card.value at *
  cases hc : c.cache with
  | none =>
    rw [hc] at h
    simp only at h ⊢
    cases hv : Card.valueImp F c.raw t with
    | error e => rw [hv] at h; cases h
    | ok w =>
      rw [hv] at h
      simp only [Except.ok.injEq] at h ⊢
      rw [h] at hv
      exact ⟨by rw [h], valueImp_ty hv⟩
  | some w =>
    rw [hc] at h
    simp only at h ⊢
    by_cases hw : w.ty = t
    · rw [if_pos hw] at h ⊢
      simp only [Except.ok.injEq] at h
      rw [← h]; exact ⟨hc, hw⟩
    · rw [if_neg hw] at h; cases h

/-- **C08** After one successful read as `t`, after any further reads, every read as `t` gives the same value and every read as another
type gives `bad_get`. -/
theorem C08_read_repeatable (F : FloatText) (c : Card) (t : Ty) (v : Val) (h : (Card.value F c t).2 = .ok v)
    (ts : List Ty) :
    (Card.value F (afterReads F (Card.value F c t).1 ts) t).2 = .ok v ∧
    ∀ t', t' ≠ t → (Card.value F (afterReads F (Card.value F c t).1 ts) t').2 = .error .badGet := by
  obtain ⟨h1, h2⟩ := value_ok_cached h
  rw [cached_reads F h1]
  constructor
  · generalize (Card.value F c t).1 = d at *
    unfold Card.value; rw [h1]; simp [h2]
  · intro t' ht
    generalize (Card.value F c t).1 = d at *
    unfold Card.value; rw [h1]
    simp only
    rw [if_neg (by rw [h2]; exact fun e => ht e.symm)]

/-- **C08** A failed read leaves the object as it was, so it cannot influence later reads. -/
theorem C08_failed_read_harmless (F : FloatText) (c : Card) (t : Ty) (e : Err) (h : (Card.value F c t).2 = .error e) :
    (Card.value F c t).1 = c := by
  unfold Card.value at *
  cases hc : c.cache with
  | none =>
    rw [hc] at h
    simp only at h ⊢
    cases hv : Card.valueImp F c.raw t with
    | error e => rfl
    | ok w => rw [hv] at h; cases h
  | some w => simp only; split <;> rfl

example : (Card.value noFloats (afterReads noFloats (Card.create noFloats Card.empty b!"A" (.int 3#32) []).1 [.bool, .int, .string]) .int).2
    = .ok (.int 3#32) := by decide
example : (Card.value noFloats (afterReads noFloats (Card.create noFloats Card.empty b!"A" (.int 3#32) []).1 [.bool, .int]) .string).2
    = .error .badGet := by decide

/-! ## C09 -/

theorem create_cache (F : FloatText) (c : Card) (key : Str) (v : Val) (comment : Str) :
    (Card.create F c key v comment).1.cache = c.cache := by
  unfold Card.create
  cases Policy.serialize F v with
  | error e => rfl
  | ok s =>
    simp only
    by_cases hf : Fits key s comment
    · rw [createImpl_fits c hf]
    · rw [createImpl_not_fits c hf]

/-- **C09** Once a value has been read, re-creating the card with anything leaves the old value visible. -/
theorem C09_stale_after_create (F : FloatText) (c : Card) (t : Ty) (v : Val) (h : (Card.value F c t).2 = .ok v)
    (key : Str) (w : Val) (comment : Str) :
    (Card.value F (Card.create F (Card.value F c t).1 key w comment).1 t).2 = .ok v := by
  obtain ⟨h1, h2⟩ := value_ok_cached h
  have := create_cache F (Card.value F c t).1 key w comment
  rw [h1] at this
  generalize (Card.create F (Card.value F c t).1 key w comment).1 = d at *
  unfold Card.value; rw [this]; simp [h2]

/-- **C09** So the expectation "after creating a card with an int one can read that int" is false in general. -/
theorem C09_create_then_read_fails : ¬ ∀ (F : FloatText) (c : Card) (key : Str) (x : BitVec 32) (comment : Str),
    key.length ≤ 8 → comment = [] →
    (Card.value F (Card.create F c key (.int x) comment).1 .int).2 = .ok (.int x) := by
  intro h
  have := h noFloats (Card.value noFloats (Card.create noFloats Card.empty b!"A" (.int 1#32) []).1 .int).1 b!"A" 2#32 [] (by decide) rfl
  revert this; decide

/-- **C09** On a card object with nothing cached the first read depends only on the text just created. -/
theorem C09_fresh_read_sees_new (F : FloatText) (c : Card) (hc : Fresh c) (key : Str) (w : Val) (comment : Str)
    (h : (Card.create F c key w comment).2 = .ok ()) (t : Ty) :
    (Card.value F (Card.create F c key w comment).1 t).2 = (Card.value F (Card.create F Card.empty key w comment).1 t).2 := by
  obtain ⟨s, h1, hf⟩ := (C02_create_accepts_iff F c key _ comment).1 h
  have hs := serialize_iff.2 h1
  rw [create_fits c hs hf, create_fits Card.empty hs hf]
  cases c with
  | mk raw cache =>
    simp only [Fresh] at hc
    subst hc
    rfl

example : (Card.value noFloats (Card.create noFloats Card.empty b!"A" (.int 3#32) []).1 .int).2 = .ok (.int 3#32) := by decide

/-! ## C10 -/

theorem keyword_len8 {c : Card} (h : 8 ≤ c.raw.length) :
    c.keywordWhole = .ok (c.raw.take 8) ∧ c.keyword = .ok (trim (c.raw.take 8)) := by
  have : Policy.extractKeyword c.raw = .ok (c.raw.take 8) := by
    unfold Policy.extractKeyword; rw [substr_ok (by omega)]; simp
  refine ⟨this, ?_⟩
  unfold Card.keyword; rw [this]; rfl

theorem setValue_eq (F : FloatText) (c : Card) (v : Val) (text : Str) (ht : TextOf F v text) :
    Card.setValue F c v =
      if text.length ≤ 70 then (⟨c.raw.take 8 ++ text, some v⟩, .ok ()) else (c, .ok ()) := by
  unfold Card.setValue
  rw [serialize_iff.2 ht]
  have hk : Policy.extractKeyword c.raw = .ok (c.raw.take 8) := by
    unfold Policy.extractKeyword; rw [substr_ok (by omega)]; simp
  unfold Card.keyword Card.keywordWhole
  rw [hk]
  simp only [bind, Except.bind, pure, Except.pure]
  have hl : (trim (c.raw.take 8)).length ≤ 8 := by
    have := trim_length_le (c.raw.take 8)
    have := List.length_take_le 8 c.raw
    omega
  by_cases h : text.length ≤ 70
  · rw [if_pos h, if_pos (isCardValid3_iff.2 ⟨hl, Or.inl ⟨rfl, h⟩⟩)]
  · rw [if_neg h, if_neg]
    intro hh
    rcases (isCardValid3_iff.1 hh).2 with ⟨_, h2⟩ | ⟨h2, _⟩
    · exact h h2
    · exact h2 rfl

/-- **C10** set_value on a full card: unchanged when the new text is longer than 70 bytes; otherwise keyword field plus text, nothing else,
which is never 80 bytes long; the keyword stays and the value just set is what is read. -/
theorem C10_set_value_effect (F : FloatText) (c : Card) (hc : c.raw.length = 80) (v : Val) (text : Str) (ht : TextOf F v text) :
    (70 < text.length → Card.setValue F c v = (c, .ok ())) ∧
    (text.length ≤ 70 →
      (Card.setValue F c v).2 = .ok () ∧
      (Card.setValue F c v).1.raw = c.raw.take 8 ++ text ∧
      (Card.setValue F c v).1.raw.length ≠ 80 ∧
      (Card.setValue F c v).1.keyword = c.keyword ∧
      (Card.value F (Card.setValue F c v).1 v.ty).2 = .ok v) := by
  rw [setValue_eq F c v text ht]
  constructor
  · intro h; rw [if_neg (by omega)]
  · intro h
    rw [if_pos h]
    have h8 : (c.raw.take 8).length = 8 := by simp [hc]
    refine ⟨rfl, rfl, ?_, ?_, ?_⟩
    · simp only [List.length_append, h8]; omega
    · rw [(keyword_len8 (c := c) (by omega)).2, (keyword_len8 (c := ⟨c.raw.take 8 ++ text, some v⟩) (by simp [hc])).2]
      congr 2
      exact List.take_left' h8
    · simp [Card.value]

/-- **C10** The card left by `set_value` is only partly a card: after setting an integer or boolean, its text is not accepted as a raw
card unless the keyword is a reserved or blank one. -/
theorem C10_set_value_not_reparsable (F : FloatText) (c : Card) (hc : c.raw.length = 80) (v : Val)
    (hv : IsIntegerTy v.ty ∨ v.ty = .bool)
    (hr : trim (c.raw.take 7) ∉ [b!"COMMENT", b!"HISTORY", b!"END"]) (hb : c.raw.take 8 ≠ List.replicate 8 32) :
    Card.ofRaw (Card.setValue F c v).1.raw = .error .invalidCard := by
  have hprop : ∃ s, Policy.serialize F v = .ok s ∧ s.length = 20 ∧ (61 : Byte) ∉ s := by
    rcases hv with hv | hv
    · obtain ⟨h1, h2, h3, h4, h5⟩ := numeral_props v hv
      refine ⟨_, (h5 F).1, by simp; omega, ?_⟩
      simp only [List.mem_append, not_or]
      refine ⟨not_mem_spaces (by decide) _, ?_⟩
      cases v <;> simp only [Val.ty, IsIntegerTy] at hv <;> simp only [numeral]
      · exact showInt_not_mem (by decide) (by decide) _
      · exact showNat_not_mem (by decide) _
      · exact showInt_not_mem (by decide) (by decide) _
      · exact showNat_not_mem (by decide) _
    · cases v <;> simp only [Val.ty, reduceCtorEq] at hv
      case bool b => cases b <;> exact ⟨_, rfl, by decide, by decide⟩
  obtain ⟨s, hs, hl, hne⟩ := hprop
  rw [setValue_eq F c v s (serialize_iff.1 hs), if_pos (by omega)]
  have h8 : (c.raw.take 8).length = 8 := by simp [hc]
  simp only
  have hlen : (c.raw.take 8 ++ s).length = 28 := by simp [hc, hl]
  have hp : Policy.inProperFormat (c.raw.take 8 ++ s) = .ok false := by
    unfold Policy.inProperFormat
    rw [substr_ok (by omega), List.drop_left' h8]
    simp only [bind, Except.bind, pure, Except.pure, Except.ok.injEq]
    rw [beq_eq_false_iff_ne]
    intro e
    apply hne
    have : (61 : Byte) ∈ s.take 2 := by rw [e]; simp
    exact List.mem_of_mem_take this
  have h7 : (c.raw.take 8 ++ s).take 7 = c.raw.take 7 := by
    rw [List.take_append_of_le_length (by omega), List.take_take]; congr 1
  have hres : Policy.isReservedKeyword (trim (c.raw.take 7)) = false := by
    unfold Policy.isReservedKeyword Policy.reservedKeywords
    rw [List.contains_eq_mem]; simpa using hr
  have hbl : Policy.isBlank (c.raw.take 8 ++ s) = .ok false := by
    unfold Policy.isBlank
    rw [substr_ok (by omega)]
    simp only [List.drop_zero, bind, Except.bind, pure, Except.pure, Except.ok.injEq]
    rw [beq_eq_false_iff_ne, List.take_left' h8]
    exact hb
  unfold Card.ofRaw Policy.isCardValid
  rw [if_pos (by omega), hp, substr_ok (by omega), hbl]
  simp only [List.drop_zero, h7, hres, bind, Except.bind, pure, Except.pure]
  rfl

example : TextOf noFloats (.int 7#32) b!"                   7" := serialize_iff.1 (by decide)
example : (Card.create noFloats Card.empty b!"NAXIS" (.int 2#32) []).1.raw.length = 80 := by decide
example : (Card.setValue noFloats (Card.create noFloats Card.empty b!"NAXIS" (.int 2#32) b!"c").1 (.int 7#32)).1.raw
    = b!"NAXIS                      7" := by decide

/-! ## C11 -/

theorem reserved_iff {s : Str} : Policy.isReservedKeyword (trim (s.take 7)) = true ↔
    ∃ t, IsTrim (s.take 7) t ∧ (t = b!"COMMENT" ∨ t = b!"HISTORY" ∨ t = b!"END") := by
  unfold Policy.isReservedKeyword Policy.reservedKeywords
  rw [List.contains_iff_mem]
  simp only [isTrim_iff, List.mem_cons, List.not_mem_nil, or_false]
  constructor
  · intro h; exact ⟨_, rfl, h⟩
  · rintro ⟨_, rfl, h⟩; exact h

theorem proper_iff {s : Str} (h : 8 ≤ s.length) : ((s.drop 8).take 2 == b!"= ") = true ↔
    ∃ k r, s = k ++ b!"= " ++ r ∧ k.length = 8 := by
  rw [beq_iff_eq]
  constructor
  · intro e
    refine ⟨s.take 8, s.drop 10, ?_, by simp; omega⟩
    have e2 : s.drop 8 = b!"= " ++ s.drop 10 := by
      rw [← e]
      conv => lhs; rw [← List.take_append_drop 2 (s.drop 8)]
      rw [List.drop_drop]
    rw [List.append_assoc, ← e2, List.take_append_drop]
  · rintro ⟨k, r, rfl, hk⟩
    rw [List.append_assoc, List.drop_left' hk]; rfl

theorem blank_iff {s : Str} : (s.take 8 == spaces 8) = true ↔ ∃ r, s = List.replicate 8 32 ++ r := by
  rw [beq_iff_eq]
  constructor
  · intro e
    refine ⟨s.drop 8, ?_⟩
    have : List.replicate 8 (32 : Byte) = s.take 8 := e.symm
    rw [this, List.take_append_drop]
  · rintro ⟨r, rfl⟩; exact List.take_left' (by simp)

/-- **C11** Complete decision table of the raw-string constructor. -/
theorem C11_raw_card_decision (s : Str) :
    (80 < s.length → Card.ofRaw s = .error .invalidCard) ∧
    (s.length < 8 → Card.ofRaw s = .error .outOfRange) ∧
    (8 ≤ s.length → s.length ≤ 80 → RawOk s → Card.ofRaw s = .ok ⟨s, none⟩) ∧
    (8 ≤ s.length → s.length ≤ 80 → ¬ RawOk s → Card.ofRaw s = .error .invalidCard) := by
  refine ⟨?_, ?_, ?_⟩
  · intro h
    unfold Card.ofRaw Policy.isCardValid
    rw [if_neg (by omega)]; rfl
  · intro h
    unfold Card.ofRaw Policy.isCardValid
    rw [if_pos (by omega)]
    unfold Policy.inProperFormat
    rw [substr_error (by omega)]; rfl
  · have key : 8 ≤ s.length → s.length ≤ 80 → Policy.isCardValid s =
        .ok (((s.drop 8).take 2 == b!"= ") || Policy.isReservedKeyword (trim (s.take 7)) || (s.take 8 == spaces 8)) := by
      intro h1 h2
      unfold Policy.isCardValid Policy.inProperFormat Policy.isBlank
      rw [if_pos h2, substr_ok h1, substr_ok (by omega), substr_ok (by omega)]
      simp only [List.drop_zero, bind, Except.bind, pure, Except.pure]
      cases ((s.drop 8).take 2 == b!"= ") <;> cases Policy.isReservedKeyword (trim (s.take 7)) <;>
        cases (s.take 8 == spaces 8) <;> rfl
    have kiff : 8 ≤ s.length → ((((s.drop 8).take 2 == b!"= ") || Policy.isReservedKeyword (trim (s.take 7)) || (s.take 8 == spaces 8)) = true ↔ RawOk s) := by
      intro h1
      unfold RawOk
      rw [Bool.or_eq_true, Bool.or_eq_true, proper_iff h1, reserved_iff, blank_iff, or_assoc]
    constructor
    · intro h1 h2 h
      unfold Card.ofRaw
      rw [key h1 h2, (kiff h1).2 h]; rfl
    · intro h1 h2 h
      unfold Card.ofRaw
      have : (((s.drop 8).take 2 == b!"= ") || Policy.isReservedKeyword (trim (s.take 7)) || (s.take 8 == spaces 8)) = false := by
        rw [Bool.eq_false_iff]; intro hh; exact h ((kiff h1).1 hh)
      rw [key h1 h2, this]; rfl

example : RawOk b!"BITPIX  =                    8" := Or.inl ⟨b!"BITPIX  ", b!"                  8".cons 32, by decide, by decide⟩
example : Card.ofRaw b!"END" = .error .outOfRange := by decide
example : Card.ofRaw b!"END     " = .ok ⟨b!"END     ", none⟩ := by decide
example : Card.ofRaw b!"GARBAGE text" = .error .invalidCard := by decide

/-! ## C12 -/

/-- **C12** Commentary cards: complete behaviour. -/
theorem C12_commentary (c : Card) (key v : Str) :
    (8 < key.length → Card.createCommentary c key v = (c, .error .invalidCard)) ∧
    (key.length ≤ 8 → key.length + v.length ≤ 78 →
      (Card.createCommentary c key v).2 = .ok () ∧ (Card.createCommentary c key v).1.cache = c.cache ∧
      leftJustified 80 (key ++ b!"  " ++ v) (Card.createCommentary c key v).1.raw) ∧
    (key.length ≤ 8 → 78 < key.length + v.length →
      Card.createCommentary c key v = ({ c with raw := key ++ b!"  " ++ v }, .error .lengthError)) := by
  unfold Card.createCommentary Policy.isKeyValid
  refine ⟨?_, ?_, ?_⟩
  · intro h; rw [if_neg (by simpa using h)]
  · intro h1 h2
    rw [if_pos (by simpa using h1)]
    have hl : (key ++ b!"  " ++ v).length ≤ 80 := by simp; omega
    simp only
    rw [padCount_ok hl]
    exact ⟨rfl, rfl, leftJustified_iff.2 ⟨hl, rfl⟩⟩
  · intro h1 h2
    rw [if_pos (by simpa using h1)]
    have hl : 80 < (key ++ b!"  " ++ v).length := by simp; omega
    simp only
    rw [padCount_error hl]

example : (Card.createCommentary Card.empty b!"COMMENT" b!"hello").1.raw.length = 80 := by decide

/-! ## C13 -/

/-- **C13** A created value card is accepted by the raw-string constructor and gives an equal card with the same keyword. -/
theorem C13_created_reparses (F : FloatText) (c : Card) (key : Str) (v : Val) (comment : Str)
    (h : (Card.create F c key v comment).2 = .ok ()) :
    ∃ d, Card.ofRaw (Card.create F c key v comment).1.raw = .ok d ∧ Card.beq d (Card.create F c key v comment).1 = true ∧
      d.keyword = (Card.create F c key v comment).1.keyword ∧ d.raw.length = 80 := by
  obtain ⟨s, h1, hf⟩ := (C02_create_accepts_iff F c key _ comment).1 h
  rw [create_fits c (serialize_iff.2 h1) hf]
  have hl := fullCard_length hf
  have hok : RawOk (fullCard key s comment) := by
    left
    refine ⟨key ++ spaces (8 - key.length), s ++ (if comment = [] then [] else [32, 47] ++ comment) ++
      spaces (80 - (cardText key s comment).length), ?_, by have := hf.1; simp; omega⟩
    unfold fullCard
    generalize spaces (80 - (cardText key s comment).length) = p
    unfold cardText
    simp only [List.append_assoc]
  refine ⟨_, (C11_raw_card_decision _).2.2.1 (by simp only; omega) (by simp only; omega) hok, ?_, rfl, hl⟩
  simp [Card.beq]

/-- **C13** COMMENT and HISTORY commentary cards of at most 71 bytes of text are accepted as raw cards and keep their keyword. -/
theorem C13_commentary_reparses (c : Card) (key v : Str) (hk : key = b!"COMMENT" ∨ key = b!"HISTORY") (hv : v.length ≤ 71) :
    ∃ d, Card.ofRaw (Card.createCommentary c key v).1.raw = .ok d ∧ d.raw = (Card.createCommentary c key v).1.raw ∧
      d.keyword = .ok key := by
  have hkl : key.length = 7 := by rcases hk with rfl | rfl <;> rfl
  obtain ⟨_, h2, _⟩ := C12_commentary c key v
  obtain ⟨_, _, h3⟩ := h2 (by omega) (by omega)
  obtain ⟨hlen, e⟩ := leftJustified_iff.1 h3
  have hl : (Card.createCommentary c key v).1.raw.length = 80 := by
    rw [e]; simp only [List.length_append, spaces_length]; simp at hlen ⊢; omega
  rw [e] at hl ⊢
  generalize spaces (80 - (key ++ b!"  " ++ v).length) = p at *
  have h7 : (key ++ b!"  " ++ v ++ p).take 7 = key := by
    rw [List.append_assoc, List.append_assoc]; exact List.take_left' hkl
  have htr : Trimmed key := by rcases hk with rfl | rfl <;> constructor <;> decide
  have h8 : (key ++ b!"  " ++ v ++ p).take 8 = key ++ [32] := by
    have : key ++ b!"  " ++ v ++ p = (key ++ [32]) ++ (32 :: (v ++ p)) := by simp
    rw [this]; exact List.take_left' (by simp [hkl])
  have hok : RawOk (key ++ b!"  " ++ v ++ p) := by
    right; left
    refine ⟨key, ?_, ?_⟩
    · rw [isTrim_iff, h7, trim_of_trimmed htr]
    · rcases hk with h | h <;> simp [h]
  refine ⟨_, (C11_raw_card_decision _).2.2.1 (by omega) (by omega) hok, rfl, ?_⟩
  rw [(keyword_len8 (by simp only; omega)).2]
  simp only
  rw [h8]
  have := trim_spaces_right key 1
  rw [show spaces 1 = [32] from rfl] at this
  rw [this, trim_of_trimmed htr]

/-- **C13** An END commentary card with text is not an END card: its keyword is END only if the first three bytes of the text are blank. -/
theorem C13_end_commentary (c : Card) (v : Str) (hv : v.length ≤ 75) :
    (Card.createCommentary c b!"END" v).1.keyword = .ok b!"END" ↔ ∀ x ∈ v.take 3, White x := by
  obtain ⟨_, h2, _⟩ := C12_commentary c b!"END" v
  obtain ⟨_, _, h3⟩ := h2 (by simp) (by simp; omega)
  obtain ⟨hlen, e⟩ := leftJustified_iff.1 h3
  have hl : (Card.createCommentary c b!"END" v).1.raw.length = 80 := by
    rw [e]; simp only [List.length_append, spaces_length]; simp at hlen ⊢; omega
  rw [(keyword_len8 (by omega)).2, e]
  have h8 : ∀ p : Str, (b!"END" ++ b!"  " ++ v ++ p).take 8 = b!"END  " ++ (v ++ p).take 3 := by
    intro p; rfl
  rw [h8]
  simp only [Except.ok.injEq]
  rw [← isTrim_iff]
  constructor
  · rintro ⟨a, b, ea, ha, hb, _, _⟩
    have ha0 : a = [] := by
      cases a with
      | nil => rfl
      | cons z a' =>
        have hz := ha z (by simp)
        simp at ea
        rw [← ea.1] at hz
        exact absurd (isSpace_iff.2 hz) (by decide)
    subst ha0
    simp at ea
    intro x hx
    apply hb
    rw [← ea]
    right; right
    rw [List.take_append]
    exact List.mem_append_left _ hx
  · intro h
    refine ⟨[], b!"  " ++ (v ++ spaces (80 - (b!"END" ++ b!"  " ++ v).length)).take 3, rfl, by simp, ?_, ?_, ?_⟩
    · intro x hx
      rcases List.mem_append.1 hx with hx | hx
      · rw [← isSpace_iff]; simp at hx; rw [hx]; decide
      · rw [List.take_append] at hx
        rcases List.mem_append.1 hx with hx | hx
        · exact h x hx
        · rw [← isSpace_iff]; exact spaces_allSpace _ x (List.mem_of_mem_take hx)
    · intro x hx; rw [← isSpace_false_iff]; simp at hx; rw [← hx]; decide
    · intro x hx; rw [← isSpace_false_iff]; simp at hx; rw [← hx]; decide

/-- **C13** An END commentary card is accepted as a raw card exactly when its text starts with two white bytes (missing bytes count as
blanks), or happens to have `= ` as its fourth and fifth byte. -/
theorem C13_end_commentary_accept_iff (c : Card) (v : Str) (hv : v.length ≤ 75) :
    (∃ d, Card.ofRaw (Card.createCommentary c b!"END" v).1.raw = .ok d) ↔
      (∀ x ∈ v.take 2, White x) ∨ ∃ a r, v ++ b!"     " = a ++ b!"= " ++ r ∧ a.length = 3 := by
  obtain ⟨_, h2, _⟩ := C12_commentary c b!"END" v
  obtain ⟨_, _, h3⟩ := h2 (by simp) (by simp; omega)
  obtain ⟨hlen, e⟩ := leftJustified_iff.1 h3
  have hl : (Card.createCommentary c b!"END" v).1.raw.length = 80 := by
    rw [e]; simp only [List.length_append, spaces_length]; simp at hlen ⊢; omega
  have hiff : (∃ d, Card.ofRaw (Card.createCommentary c b!"END" v).1.raw = .ok d) ↔
      RawOk (Card.createCommentary c b!"END" v).1.raw := by
    obtain ⟨_, _, h5, h6⟩ := C11_raw_card_decision (Card.createCommentary c b!"END" v).1.raw
    constructor
    · rintro ⟨d, hd⟩
      refine Classical.byContradiction fun hn => ?_
      rw [h6 (by omega) (by omega) hn] at hd; cases hd
    · intro h; exact ⟨_, h5 (by omega) (by omega) h⟩
  rw [hiff, e]
  have hp : ∃ q, spaces (80 - (b!"END" ++ b!"  " ++ v).length) = q ∧ ∀ x ∈ q, isSpace x = true := ⟨_, rfl, spaces_allSpace _⟩
  have h5 : v.length ≤ 75 := hv
  have hsp : (v ++ spaces (80 - (b!"END" ++ b!"  " ++ v).length)).take 5 = (v ++ b!"     ").take 5 := by
    have : (80 - (b!"END" ++ b!"  " ++ v).length) = 75 - v.length := by simp only [List.length_append]; simp; omega
    rw [this]
    unfold spaces
    rw [List.take_append, List.take_append, show b!"     " = List.replicate 5 (32 : Byte) from rfl, List.take_replicate,
      List.take_replicate]
    congr 2
    omega
  have e8 : b!"END" ++ b!"  " ++ v ++ spaces (80 - (b!"END" ++ b!"  " ++ v).length) =
      b!"END  " ++ (v ++ spaces (80 - (b!"END" ++ b!"  " ++ v).length)) := rfl
  have hlw : 5 ≤ (v ++ spaces (80 - (b!"END" ++ b!"  " ++ v).length)).length := by
    simp only [List.length_append, spaces_length]; simp; omega
  rw [e8]
  generalize hw : v ++ spaces (80 - (b!"END" ++ b!"  " ++ v).length) = w at *
  have h2w : w.take 2 = (v ++ b!"     ").take 2 := by
    have := congrArg (List.take 2) hsp
    rw [List.take_take, List.take_take] at this
    exact this
  have hwhite : (∀ x ∈ w.take 2, White x) ↔ ∀ x ∈ v.take 2, White x := by
    rw [h2w, List.take_append]
    constructor
    · intro h x hx; exact h x (List.mem_append_left _ hx)
    · intro h x hx
      rcases List.mem_append.1 hx with hx | hx
      · exact h x hx
      · rw [← isSpace_iff]
        have := List.mem_of_mem_take hx
        simp at this; rw [this]; decide
  unfold RawOk
  constructor
  · rintro (⟨k, r, hk, hkl⟩ | ⟨t, ht, hor⟩ | ⟨r, hr⟩)
    · right
      have : w.drop 3 = b!"= " ++ r := by
        have h8 : (b!"END  " ++ w).drop 8 = w.drop 3 := rfl
        rw [← h8, hk, List.append_assoc, List.drop_left' hkl]
      refine ⟨v.take 3 ++ spaces (3 - v.length), (v ++ b!"     ").drop 5, ?_, by simp; omega⟩
      have hv3 : (v ++ b!"     ").take 3 = v.take 3 ++ spaces (3 - v.length) := by
        unfold spaces
        rw [List.take_append, show b!"     " = List.replicate 5 (32 : Byte) from rfl, List.take_replicate]
        congr 2; omega
      have hv5 : ((v ++ b!"     ").drop 3).take 2 = b!"= " := by
        have h1 := congrArg (List.drop 3) hsp
        rw [List.drop_take, List.drop_take, this] at h1
        rw [← h1]; rfl
      rw [← hv3, ← hv5]
      have : (v ++ b!"     ").drop 5 = ((v ++ b!"     ").drop 3).drop 2 := by rw [List.drop_drop]
      rw [this, List.append_assoc, List.take_append_drop, List.take_append_drop]
    · left
      rw [← hwhite]
      have h7 : (b!"END  " ++ w).take 7 = b!"END  " ++ w.take 2 := rfl
      rw [h7] at ht
      obtain ⟨a, b, ea, ha, hb, _, _⟩ := ht
      have ha0 : a = [] := by
        cases a with
        | nil => rfl
        | cons z a' =>
          have hz := ha z (by simp)
          simp at ea
          rw [← ea.1] at hz
          exact absurd (isSpace_iff.2 hz) (by decide)
      subst ha0
      rcases hor with rfl | rfl | rfl
      · simp at ea
      · simp at ea
      · simp at ea
        intro x hx
        apply hb; rw [← ea]; simp [hx]
    · exfalso; simp [List.replicate] at hr
  · rintro (h | ⟨a, r, ha, hal⟩)
    · right; left
      refine ⟨b!"END", ⟨[], b!"  " ++ w.take 2, rfl, by simp, ?_, ?_, ?_⟩, by simp⟩
      · intro x hx
        rcases List.mem_append.1 hx with hx | hx
        · rw [← isSpace_iff]; simp at hx; rw [hx]; decide
        · exact hwhite.2 h x hx
      · intro x hx; rw [← isSpace_false_iff]; simp at hx; rw [← hx]; decide
      · intro x hx; rw [← isSpace_false_iff]; simp at hx; rw [← hx]; decide
    · left
      have h35 : (w.drop 3).take 2 = b!"= " := by
        have h1 := congrArg (List.drop 3) hsp
        rw [List.drop_take, List.drop_take, ha, List.append_assoc, List.drop_left' hal] at h1
        exact h1
      refine ⟨b!"END  " ++ w.take 3, w.drop 5, ?_, by simp; omega⟩
      rw [← h35, List.append_assoc, List.append_assoc, show w.drop 5 = (w.drop 3).drop 2 by rw [List.drop_drop],
        List.take_append_drop, List.take_append_drop]

example : Card.ofRaw (Card.createCommentary Card.empty b!"END" b!"of story").1.raw = .error .invalidCard := by decide
example : (Card.createCommentary Card.empty b!"END" b!"of story").1.keyword = .ok b!"END  of" := by decide

/-! ## C14 -/

/-- **C14** value_with_comment returns the text and the comment without outer white space. -/
theorem C14_value_with_comment (F : FloatText) (c : Card) (key : Str) (v : Val) (comment text : Str)
    (ht : TextOf F v text) (hf : Fits key text comment) :
    ∃ r, (Card.create F c key v comment).1.valueWithComment = .ok r ∧
      IsTrim (text ++ (if comment = [] then [] else b!" /" ++ comment)) r := by
  rw [create_fits c (serialize_iff.2 ht) hf]
  have hl := fullCard_length hf
  unfold Card.valueWithComment
  simp only
  rw [substr_ok (by omega)]
  refine ⟨_, rfl, ?_⟩
  rw [isTrim_iff]
  have e10 : (fullCard key text comment).drop 10 = text ++ (if comment = [] then [] else b!" /" ++ comment) ++
      spaces (80 - (cardText key text comment).length) := by
    have h9 := fullCard_drop9 (v := text) (comment := comment) hf.1
    rw [show (10 : Nat) = 9 + 1 from rfl, ← List.drop_drop, h9]; simp
  rw [List.take_of_length_le (by simp [hl]; decide), e10, trim_spaces_right]

example : (Card.create noFloats Card.empty b!"NAXIS" (.int 2#32) b!"axes").1.valueWithComment = .ok b!"2 /axes" := by decide

end Astro
