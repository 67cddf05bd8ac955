import Verif.Spec.Commentary
import Verif.Props.ForeignFiles
import Verif.Props.FitsModes
import Verif.Props.FitsAny

/-
Property C156: cards of other programs that carry no value.
-/

namespace Astro

open Spec Header Reader

theorem keywordByte_white {c : Byte} (h : KeywordByte c) : ¬ White c := by
  unfold KeywordByte at h; unfold White; omega

theorem keyword_take7 {raw k : Str} (h : KeywordField raw k) : IsTrim (raw.take 7) (k.take 7) := by
  obtain ⟨hk, n, hn, e⟩ := h
  have e7 : raw.take 7 = k.take 7 ++ List.replicate (7 - k.length) 32 := by
    have : raw.take 7 = (raw.take 8).take 7 := by rw [List.take_take]; rfl
    rw [this, e, List.take_append, List.take_replicate]
    congr 2; omega
  refine ⟨[], List.replicate (7 - k.length) 32, by simpa using e7, by simp, ?_, ?_, ?_⟩
  · intro c hc; rw [(List.mem_replicate.1 hc).2]; exact .inl rfl
  · intro c hc; exact keywordByte_white (hk c (List.mem_of_mem_take (List.mem_of_mem_head? hc)))
  · intro c hc; exact keywordByte_white (hk c (List.mem_of_mem_take (List.mem_of_mem_getLast? hc)))

theorem rawOk_bare {raw k : Str} (hl : raw.length = 80) (h : KeywordField raw k) : RawOk raw ↔ HasIndicator raw ∨ Bare k := by
  have h7 := isTrim_iff.1 (keyword_take7 h)
  have hk := h.1
  obtain ⟨_, n, hn, e8⟩ := h
  have pre : ∀ w : Str, w.length = 7 → (k.take 7 = w ↔ w <+: k) := by
    intro w hw
    rw [List.prefix_iff_eq_take, hw]; exact eq_comm
  have hend : k.take 7 = b!"END" ↔ k = b!"END" := by
    constructor
    · intro e
      have := congrArg List.length e
      rw [List.length_take] at this
      have h3 : k.length ≤ 7 := by
        have : (b!"END" : Str).length = 3 := rfl
        omega
      rwa [List.take_of_length_le h3] at e
    · rintro rfl; rfl
  unfold RawOk HasIndicator Bare
  constructor
  · rintro (⟨k', r, e, hk'⟩ | ⟨t, ht, h3⟩ | ⟨r, e⟩)
    · left
      rw [e, List.append_assoc, List.drop_left' hk']; rfl
    · right
      obtain rfl := h7.symm.trans (isTrim_iff.1 ht)
      rw [pre _ rfl, pre _ rfl, hend] at h3
      rcases h3 with h3 | h3 | h3
      · exact .inr (.inr (.inl h3))
      · exact .inr (.inr (.inr h3))
      · exact .inr (.inl h3)
    · right; left
      rw [e, List.take_left' (by simp)] at e8
      cases k with
      | nil => rfl
      | cons c k =>
        exfalso
        rw [List.replicate_succ, List.cons_append] at e8
        have := (List.cons.inj e8).1
        exact keywordByte_white (hk c List.mem_cons_self) (this ▸ .inl rfl)
  · rintro (h | rfl | rfl | h | h)
    · left
      refine ⟨raw.take 8, raw.drop 10, ?_, by simp [hl]⟩
      rw [← h, List.append_assoc]
      have : raw.drop 10 = (raw.drop 8).drop 2 := by rw [List.drop_drop]
      rw [this, List.take_append_drop, List.take_append_drop]
    · right; right
      obtain rfl : n = 8 := by simpa using hn
      exact ⟨raw.drop 8, by rw [List.nil_append] at e8; rw [← e8, List.take_append_drop]⟩
    · exact .inr (.inl ⟨_, isTrim_iff.2 h7, .inr (.inr rfl)⟩)
    · exact .inr (.inl ⟨_, isTrim_iff.2 h7, .inl ((pre _ rfl).2 h)⟩)
    · exact .inr (.inl ⟨_, isTrim_iff.2 h7, .inr (.inl ((pre _ rfl).2 h))⟩)

/-- **C156** Which cards are accepted: those with the value indicator, blank keywords, END, and keywords that begin with COMMENT or HISTORY.  Every other card without the indicator,
which the standard declares to be commentary, is refused. -/
theorem C156_kinds (raw k : Str) (hl : raw.length = 80) (h : KeywordField raw k) :
    (HasIndicator raw ∨ Bare k → Card.ofRaw raw = .ok ⟨raw, none⟩) ∧ (¬ (HasIndicator raw ∨ Bare k) → Card.ofRaw raw = .error .invalidCard) :=
  ⟨fun g => (C11_raw_card_decision raw).2.2.1 (by omega) (by omega) ((rawOk_bare hl h).2 g),
    fun g => (C11_raw_card_decision raw).2.2.2 (by omega) (by omega) fun g' => g ((rawOk_bare hl h).1 g')⟩

/-- A card that is not accepted, in front of the END card. -/
theorem bad_card (F : FloatText) {content : Str} {p k : Nat} (hk : ¬ RawOk (piece content p k)) (he : ∀ j < k, ¬ IsEnd (piece content p j)) :
    HeaderFails F content p .invalidCard := by
  induction k using Nat.strong_induction_on with
  | _ k ih =>
    by_cases hall : ∀ j < k, RawOk (piece content p j)
    · obtain ⟨s', g1, g2⟩ := readCards_skip k Header.empty 1 (streamAt_zero (s := { Stream.openRead content with pos := p }) rfl)
        (fun j hj => by rw [Nat.zero_add]; exact ⟨hall j hj, he j hj⟩)
      rw [Nat.zero_add] at g1
      refine ⟨k + 1, ?_⟩
      unfold readHeader
      rw [g2, readCards_bad _ 0 g1 hk]
    · push Not at hall
      obtain ⟨j, hj, hb⟩ := hall
      exact ih j hj hb fun i hi => he i (by omega)

/-- **C156** A file with such a card in the header of one of its HDUs cannot be opened, in neither mode: invalid_card is raised as soon as the reader comes to it. -/
theorem C156_refused (F : FloatText) (content : Str) (us vs : List ForeignHdu) (v : ForeignHdu) (h : Laid (us ++ v :: vs) content) (hs : ∀ u ∈ us, Supported F u)
    (h36 : ∀ u ∈ us, ¬ 36 ∣ u.cards.length) (hd : ∀ u ∈ us, u.data = [] ∨ ¬ 2880 ∣ u.data.length) (hb : content.length + 5760 < 2 ^ 63)
    (h80 : ∀ r ∈ v.cards, r.length = 80) (l m : List Str) (raw k : Str) (hv : v.cards = l ++ raw :: m) (hl : ∀ r ∈ l, ¬ IsEnd r)
    (hk : KeywordField raw k) (hi : ¬ HasIndicator raw) (hn : ¬ Bare k) :
    EndsIn (fun cards turns => readEntire F cards turns (openFile content)) (.raised .invalidCard) ∧
    EndsIn (fun cards turns => readHeaders F cards turns (openFile content)) (.raised .invalidCard) := by
  obtain ⟨c1, c2, rfl, k1, k2⟩ := laid_append h
  obtain ⟨es, g1, -, -⟩ := laid_chain (rest := c2) k1 hs h36 hd hb [] (by simp) (by simp)
  simp only [List.length_nil, Nat.zero_add] at g1
  obtain ⟨fs, g2, -, -⟩ := chain_listed hb g1
  obtain _ | @⟨_, _, fill, tail, more, -, -, -⟩ := k2
  have e : c1 ++ (v.cards.flatten ++ fill ++ v.data ++ tail ++ more) = c1 ++ v.cards.flatten ++ (fill ++ v.data ++ tail ++ more) := by simp
  have hlen := flatten_length80 v.cards h80
  have hcl : v.cards.length = l.length + 1 + m.length := by rw [hv]; simp; omega
  have hp : c1.length < (c1 ++ (v.cards.flatten ++ fill ++ v.data ++ tail ++ more)).length := by
    simp only [List.length_append, hlen]; omega
  have hf : HeaderFails F (c1 ++ (v.cards.flatten ++ fill ++ v.data ++ tail ++ more)) c1.length .invalidCard := by
    refine bad_card F (k := l.length) ?_ ?_
    · rw [e, flatten_piece v.cards h80 c1 _ l.length (by omega)]
      have : v.cards[l.length]'(by omega) = raw := by simp [hv]
      rw [this, rawOk_bare (h80 raw (by rw [hv]; simp)) hk]
      exact fun h => h.elim hi hn
    · intro j hj
      rw [e, flatten_piece v.cards h80 c1 _ j (by omega)]
      have : v.cards[j]'(by omega) = l[j] := by simp [hv, List.getElem_append_left hj]
      rw [this]
      exact hl _ (List.getElem_mem hj)
  exact ⟨(C134_entire F _ hb _).2 (.inr ⟨es, _, g1, hp, .header hf⟩), (C134_headers F _ hb _).2 (.inr (.inl ⟨fs, _, g2, hp, .header hf⟩))⟩

/-- **C156** The text of a commentary card (its bytes 9 to 80) through `value_with_comment()`: only what begins at byte 11.  All that is to be seen of the text is there exactly if
its first two bytes are white space. -/
theorem C156_text (raw field text : Str) (e : raw = field ++ text) (hf : field.length = 8) (ht : text.length = 72) (c : Option Val) :
    ∃ y, Card.valueWithComment ⟨raw, c⟩ = .ok y ∧ IsTrim (text.drop 2) y ∧ (IsTrim text y ↔ ∀ c ∈ text.take 2, White c) := by
  have h10 : raw.drop 10 = text.drop 2 := by rw [e, List.drop_append, List.drop_of_length_le (by omega), hf]; rfl
  refine ⟨trim (text.drop 2), ?_, isTrim_iff.2 rfl, ?_, ?_⟩
  · unfold Card.valueWithComment
    have hlen : raw.length = 80 := by rw [e, List.length_append]; omega
    rw [substr_ok (by simp only; omega)]
    simp only [bind, Except.bind, pure, Except.pure]
    rw [h10, List.take_of_length_le (by rw [List.length_drop, ht]; decide)]
  · intro h
    have h2 : IsTrim (text.drop 2) (trim (text.drop 2)) := isTrim_iff.2 rfl
    generalize trim (text.drop 2) = y at h h2
    have cnt : ∀ {s : Str}, IsTrim s y → s.countP (fun c => !isSpace c) = y.countP (fun c => !isSpace c) := by
      rintro s ⟨a, b, rfl, ha, hb, -, -⟩
      have z : ∀ {a : Str}, (∀ c ∈ a, White c) → a.countP (fun c => !isSpace c) = 0 := by
        intro a ha
        rw [List.countP_eq_zero]
        intro c hc
        simp [isSpace_iff.2 (ha c hc)]
      rw [List.countP_append, List.countP_append, z ha, z hb]; omega
    have e1 := cnt h
    rw [← cnt h2, ← List.take_append_drop 2 text, List.countP_append, List.take_append_drop] at e1
    have e2 : (text.take 2).countP (fun c => !isSpace c) = 0 := by omega
    intro c hc
    have := List.countP_eq_zero.1 e2 c hc
    exact isSpace_iff.1 (by simpa using this)
  · intro h
    obtain ⟨a, b, e2, ha, hb, h1, h2⟩ : IsTrim (text.drop 2) (trim (text.drop 2)) := isTrim_iff.2 rfl
    refine ⟨text.take 2 ++ a, b, ?_, ?_, hb, h1, h2⟩
    · conv_lhs => rw [← List.take_append_drop 2 text, e2]
      simp
    · intro c hc
      exact (List.mem_append.1 hc).elim (h c) (ha c)

theorem commentary_extract {raw field text part : Str} (e : raw = field ++ text) (hf : field.length = 8) (hs : slash ∉ field) (ht : text.length = 72)
    (hp : ReadPart text part) : Policy.extractValue raw = .ok part := by
  have h9 : raw.drop 9 = text.drop 1 := by rw [e, List.drop_append, List.drop_of_length_le (by omega), hf]; rfl
  have hlen : raw.length = 80 := by rw [e, List.length_append]; omega
  have hl1 : (text.drop 1).length = 71 := by rw [List.length_drop, ht]
  have hsz : sizeMod = 2 ^ 64 := rfl
  unfold Policy.extractValue
  rw [substr_ok (by omega), h9]
  cases hp with
  | whole h =>
    rw [findByte_none (by rw [e]; simpa using ⟨hs, h⟩), List.take_of_length_le]
    rw [hl1]; decide
  | early a b ea ha h1 =>
    have : findByte raw 47 = (field ++ a).length := by
      rw [e, ea, ← List.append_assoc]
      exact findByte_append (by simpa using ⟨hs, ha⟩)
    rw [this, List.length_append, hf, szSub_wrap (by omega) (by omega), List.take_of_length_le]
    rw [hl1]; omega
  | cut a b ea ha h2 =>
    have : findByte raw 47 = (field ++ a).length := by
      rw [e, ea, ← List.append_assoc]
      exact findByte_append (by simpa using ⟨hs, ha⟩)
    have hal : a.length ≤ 72 := by rw [← ht, ea]; simp
    rw [this, List.length_append, hf, szSub_le (by omega) (by omega), List.dropLast_eq_take, List.length_drop, ea, List.drop_append_of_le_length (by omega),
      List.take_append_of_le_length (by rw [List.length_drop]; omega)]
    congr 2; omega

/-- **C156** The same text through `value<std::string>()`: the first byte is lost as well, and from a slash on everything, together with the byte in front of the slash.  What
begins with a quote is taken for a string in quotes and loses its last byte too. -/
theorem C156_value (F : FloatText) (raw field text part : Str) (e : raw = field ++ text) (hf : field.length = 8) (hs : slash ∉ field) (ht : text.length = 72)
    (hp : ReadPart text part) :
    ∃ y, IsTrim part y ∧ (y.head? ≠ some 39 → (Card.value F ⟨raw, none⟩ .string).2 = .ok (.string y)) ∧
      (y = [39] → (Card.value F ⟨raw, none⟩ .string).2 = .error .ub) ∧
      ∀ r, y = 39 :: r → r ≠ [] → ∃ z, IsTrim r.dropLast z ∧ (Card.value F ⟨raw, none⟩ .string).2 = .ok (.string z) := by
  refine ⟨trim part, isTrim_iff.2 rfl, ?_, ?_, ?_⟩
  all_goals rw [value_fresh, valueImp_text (commentary_extract e hf hs ht hp)]
  · intro h
    cases hy : trim part with
    | nil => rfl
    | cons c r =>
      rw [hy] at h
      simp only
      rw [if_neg fun hc => h (by rw [hc]; rfl)]
  · intro h; rw [h]; rfl
  · intro r h hr
    rw [h]
    refine ⟨_, isTrim_iff.2 rfl, ?_⟩
    simp only [if_true]
    rw [if_neg (by simpa using hr)]

/-- **C156** Of every commentary text one such part is read. -/
theorem C156_value_total (text : Str) : ∃ part, ReadPart text part := by
  by_cases h : slash ∈ text
  · obtain ⟨a, b, e, hn⟩ := split_first h
    by_cases h1 : a.length ≤ 1
    · exact ⟨_, .early a b e hn h1⟩
    · exact ⟨_, .cut a b e hn (by omega)⟩
  · exact ⟨_, .whole h⟩

/-- A card that continues a long string, a card of the HIERARCH convention and a card of a program's own. -/
def exContinue : Str := b!"CONTINUE  'of a long string'" ++ spaces 52
def exHierarch : Str := b!"HIERARCH ESO TEL AIRM START = 1.2" ++ spaces 47
def exOwn : Str := b!"AUTHORS  Somebody" ++ spaces 63

theorem exContinue_field : KeywordField exContinue b!"CONTINUE" :=
  ⟨by unfold KeywordByte; decide, 0, rfl, rfl⟩
theorem exHierarch_field : KeywordField exHierarch b!"HIERARCH" :=
  ⟨by unfold KeywordByte; decide, 0, rfl, rfl⟩

/-- Both are refused. -/
example : Card.ofRaw exContinue = .error .invalidCard ∧ Card.ofRaw exHierarch = .error .invalidCard :=
  ⟨(C156_kinds _ _ rfl exContinue_field).2 (by unfold HasIndicator Bare; decide), (C156_kinds _ _ rfl exHierarch_field).2 (by unfold HasIndicator Bare; decide)⟩

/-- COMMENTS is accepted, AUTHORS is not. -/
example : Card.ofRaw (b!"COMMENTS of mine" ++ spaces 64) = .ok ⟨b!"COMMENTS of mine" ++ spaces 64, none⟩ ∧ Card.ofRaw exOwn = .error .invalidCard :=
  ⟨(C156_kinds _ b!"COMMENTS" rfl ⟨by unfold KeywordByte; decide, 0, rfl, rfl⟩).1 (.inr (.inr (.inr (.inl ⟨b!"S", rfl⟩)))),
    (C156_kinds _ b!"AUTHORS" rfl ⟨by unfold KeywordByte; decide, 1, rfl, rfl⟩).2 (by unfold HasIndicator Bare; decide)⟩

/-- A file whose header has a CONTINUE card. -/
example (F : FloatText) : ∃ content, Laid [⟨[b!"SIMPLE  =                    T" ++ spaces 50, exContinue, b!"END" ++ spaces 77], []⟩] content ∧
    EndsIn (fun cards turns => readEntire F cards turns (openFile content)) (.raised .invalidCard) := by
  obtain ⟨fill, hf⟩ : ∃ f : Str, f.length = 2640 := ⟨List.replicate 2640 32, List.length_replicate⟩
  have hl := Laid.cons (u := ⟨[b!"SIMPLE  =                    T" ++ spaces 50, exContinue, b!"END" ++ spaces 77], []⟩) (fill := fill) (tail := [])
    (by show 240 + fill.length = 2880; rw [hf]) (by decide) .nil
  refine ⟨_, hl, ?_⟩
  refine (C156_refused F _ [] [] _ hl (by simp) (by simp) (by simp) ?_ ?_
    [b!"SIMPLE  =                    T" ++ spaces 50] [b!"END" ++ spaces 77] exContinue _ rfl ?_ exContinue_field (by unfold HasIndicator; decide) (by unfold Bare; decide)).1
  · have h3 : [b!"SIMPLE  =                    T" ++ spaces 50, exContinue, b!"END" ++ spaces 77].flatten.length = 240 := flatten_length80 _ (by decide)
    simp only [List.length_append, h3, hf, List.length_nil]
    decide
  · exact show ∀ r ∈ [b!"SIMPLE  =                    T" ++ spaces 50, exContinue, b!"END" ++ spaces 77], r.length = 80 by decide
  · unfold IsEnd; decide

/-- The comment "This is a file of m/s" is read as "is is a file of m/s" and as "his is a file of". -/
example (F : FloatText) : Card.valueWithComment ⟨b!"COMMENT This is a file of m/s" ++ spaces 51, none⟩ = .ok b!"is is a file of m/s" ∧
    (Card.value F ⟨b!"COMMENT This is a file of m/s" ++ spaces 51, none⟩ .string).2 = .ok (.string b!"his is a file of") := by
  constructor
  · obtain ⟨y, h1, h2, _⟩ := C156_text (b!"COMMENT This is a file of m/s" ++ spaces 51) b!"COMMENT " (b!"This is a file of m/s" ++ spaces 51) rfl rfl rfl none
    rw [h1, ← isTrim_iff.1 h2]; rfl
  · obtain ⟨y, h1, h2, _⟩ := C156_value F (b!"COMMENT This is a file of m/s" ++ spaces 51) b!"COMMENT " (b!"This is a file of m/s" ++ spaces 51) _ rfl rfl (by decide) rfl
      (.cut b!"This is a file of m" (b!"s" ++ spaces 51) rfl (by decide) (by decide))
    obtain rfl := isTrim_iff.1 h1
    rw [h2 (by decide)]; rfl

end Astro
