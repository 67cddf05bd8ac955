import Verif.Spec.Exceptions
import Verif.Lemmas.Card
import Verif.Lemmas.FitsAny

namespace Astro

open Spec

/-- Only errors in `S` come out. -/
def Only {α : Type} (S : Err → Prop) (r : Res α) : Prop := ∀ e, r = .error e → S e

namespace Only

variable {α β : Type} {S : Err → Prop}

theorem ok (a : α) : Only S (.ok a : Res α) := fun _ h => by cases h

theorem pure' (a : α) : Only S (pure a : Res α) := fun _ h => by cases h

theorem error {e : Err} (h : S e) : Only S (.error e : Res α) := fun _ h' => by cases h'; exact h

theorem bind {r : Res α} {f : α → Res β} (h : Only S r) (hf : ∀ a, Only S (f a)) : Only S (r >>= f) := by
  intro e he
  cases r with
  | error e' => exact h e (by rw [show (Except.error e' >>= f) = Except.error e' from rfl] at he; cases he; rfl)
  | ok a => exact hf a e he

theorem map {r : Res α} {f : α → β} (h : Only S r) : Only S (r.map f) := by
  intro e he
  cases r with
  | error e' => exact h e (by cases he; rfl)
  | ok a => cases he

theorem mapM {f : α → Res β} : ∀ (l : List α), (∀ a, Only S (f a)) → Only S (l.mapM f)
  | [], _ => by rw [List.mapM_nil]; exact pure' _
  | a :: l, h => by
    rw [List.mapM_cons]
    exact bind (h a) fun _ => bind (mapM l h) fun _ => pure' _

theorem mono {T : Err → Prop} {r : Res α} (h : Only S r) (hST : ∀ e, S e → T e) : Only T r := fun e he => hST e (h e he)

theorem of {r : Res α} {e : Err} (h : Only S r) (he : r = .error e) : S e := h e he

end Only

/-! ### cards -/

section cards

open Policy

theorem substr_only (s : Str) (p n : Nat) : Only (· = .outOfRange) (substr s p n) := by
  unfold substr; split
  · exact .error rfl
  · exact .ok _

theorem padCount_only (t n : Nat) : Only (· = .lengthError) (padCount t n) := by
  unfold padCount; split
  · exact .ok _
  · exact .error rfl

theorem pad20_only (s : Str) : Only (· = .lengthError) (pad20 s) := .bind (padCount_only _ _) fun _ => .pure' _

theorem serialize_only (F : FloatText) (v : Val) : Only (· = .lengthError) (serialize F v) := by
  cases v <;> unfold serialize <;>
    first
    | exact .ok _
    | exact pad20_only _
    | exact .bind (pad20_only _) fun _ => .bind (pad20_only _) fun _ => .pure' _

theorem isCardValid_only (s : Str) : Only (· = .outOfRange) (isCardValid s) := by
  unfold isCardValid inProperFormat isBlank
  split
  · refine .bind (.bind (substr_only _ _ _) fun _ => .pure' _) fun b => ?_
    split
    · exact .pure' _
    · refine .bind (substr_only _ _ _) fun _ => ?_
      split
      · exact .pure' _
      · refine .bind (.bind (substr_only _ _ _) fun _ => .pure' _) fun _ => ?_
        split
        · exact .pure' _
        · exact .pure' _
  · exact .pure' _

theorem ofRaw_only (s : Str) : Only (fun e => e = .invalidCard ∨ e = .outOfRange) (Card.ofRaw s) := by
  unfold Card.ofRaw
  refine .bind ((isCardValid_only s).mono fun _ h => .inr h) fun b => ?_
  split
  · exact .pure' _
  · exact .error (.inl rfl)

theorem createImpl_only (c : Card) (key v comment : Str) : Only (· = .invalidCard) (Card.createImpl c key v comment).2 := by
  by_cases hf : Fits key v comment
  · rw [createImpl_fits c hf]; exact .ok _
  · rw [createImpl_not_fits c hf]; exact .error rfl

theorem createCommentary_only (c : Card) (key v : Str) : Only (fun e => e = .invalidCard ∨ e = .lengthError) (Card.createCommentary c key v).2 := by
  unfold Card.createCommentary
  split
  · simp only
    split
    · next e h => exact .error (.inr ((padCount_only _ _).of h))
    · exact .ok _
  · exact .error (.inl rfl)

theorem keyword_exists (c : Card) : ∃ k w, c.keyword = .ok k ∧ c.keywordWhole = .ok w :=
  ⟨_, _, rfl, rfl⟩

theorem setValue_result (F : FloatText) (c : Card) (v : Val) :
    (∃ s, serialize F v = .ok s ∧ (Card.setValue F c v).2 = .ok ()) ∨ ∃ e, serialize F v = .error e ∧ (Card.setValue F c v).2 = .error e := by
  obtain ⟨k, w, hk, hw⟩ := keyword_exists c
  unfold Card.setValue
  cases hs : serialize F v with
  | error e => exact .inr ⟨e, rfl, rfl⟩
  | ok s =>
    refine .inl ⟨s, rfl, ?_⟩
    simp only [hk, hw]
    split <;> rfl

theorem setValueCStr_result (c : Card) (v : Str) :
    (∃ s, serializeCStr v = .ok s ∧ (Card.setValueCStr c v).2 = .ok ()) ∨ ∃ e, serializeCStr v = .error e ∧ (Card.setValueCStr c v).2 = .error e := by
  obtain ⟨k, w, hk, hw⟩ := keyword_exists c
  unfold Card.setValueCStr
  cases hs : serializeCStr v with
  | error e => exact .inr ⟨e, rfl, rfl⟩
  | ok s =>
    refine .inl ⟨s, rfl, ?_⟩
    simp only [hk, hw]
    split <;> rfl

theorem lexSigned_only (w : Nat) (s : Str) : Only (· = .badLexicalCast) (lexSigned w s) := by
  unfold lexSigned
  repeat' (split <;> try first | exact .ok _ | exact .error rfl)

theorem lexUnsigned_only (w : Nat) (s : Str) : Only (· = .badLexicalCast) (lexUnsigned w s) := by
  unfold lexUnsigned
  repeat' (split <;> try first | exact .ok _ | exact .error rfl)

theorem recast_only {α : Type} {r : Res α} (h : Only (· = .badLexicalCast) r) : Only (· = .invalidCast) (recast r) := by
  cases r with
  | ok a => exact .ok _
  | error e => have : e = .badLexicalCast := h e rfl
               subst this; exact .error rfl

theorem recastOpt_only {α : Type} (o : Option α) : Only (· = .invalidCast) (recastOpt o) := by
  cases o
  · exact .error rfl
  · exact .ok _

theorem parseBool_only (s : Str) : Only (· = .invalidCast) (parseBool s) := by
  unfold parseBool
  repeat' (split <;> try first | exact .ok _ | exact .error rfl)

theorem parseComplex_only {α : Type} {parse : Str → Res α} (h : ∀ s, Only (· = .invalidCast) (parse s)) (s : Str) :
    Only (· = .invalidCast) (parseComplex parse s) := by
  unfold parseComplex
  split
  · exact .bind (h _) fun _ => .bind (h _) fun _ => .pure' _
  · exact .error rfl

theorem parseTo_only (F : FloatText) (t : Ty) (s : Str) : Only (· = .invalidCast) (parseTo F t s) := by
  cases t <;> unfold parseTo <;> simp only
  case bool => exact .map (parseBool_only _)
  case int => exact .map (recast_only (lexSigned_only _ _))
  case longlong => exact .map (recast_only (lexSigned_only _ _))
  case uint => exact .map (recast_only (lexUnsigned_only _ _))
  case sizeT => exact .map (recast_only (lexUnsigned_only _ _))
  case float => exact .map (recastOpt_only _)
  case double => exact .map (recastOpt_only _)
  case string => exact .ok _
  case cint => exact .map (parseComplex_only (fun _ => recast_only (lexSigned_only _ _)) _)
  case csizeT => exact .map (parseComplex_only (fun _ => recast_only (lexUnsigned_only _ _)) _)
  case cdouble => exact .map (parseComplex_only (fun _ => recastOpt_only _) _)
  case cfloat => exact .map (parseComplex_only (fun _ => recastOpt_only _) _)

/-- What the text of a card can give. -/
def TextError (t : Ty) (e : Err) : Prop := if t = .string then e = .ub else e = .invalidCast

theorem valueImp_only (F : FloatText) (raw : Str) (t : Ty) :
    Only (fun e => (e = .outOfRange ∧ raw.length < 9) ∨ TextError t e) (Card.valueImp F raw t) := by
  unfold Card.valueImp extractValue
  by_cases hl : raw.length < 9
  · refine .bind ((substr_only _ _ _).mono fun _ h => .inl ⟨h, hl⟩) fun s => ?_
    split
    · simp only
      split
      · exact .pure' _
      · split
        · split
          · exact .error (.inr rfl)
          · exact .pure' _
        · exact .pure' _
    · next h => exact (parseTo_only F t _).mono fun _ he => .inr (by unfold TextError; rw [if_neg (by simpa using h)]; exact he)
  · have : ∃ s, substr raw 9 (szSub (findByte raw 47) 10) = .ok s := ⟨_, by unfold substr; rw [if_neg hl]⟩
    obtain ⟨s, hs⟩ := this
    rw [hs]
    refine .bind (.ok _) fun s => ?_
    split
    · simp only
      split
      · exact .pure' _
      · split
        · split
          · exact .error (.inr rfl)
          · exact .pure' _
        · exact .pure' _
    · next h => exact (parseTo_only F t _).mono fun _ he => .inr (by unfold TextError; rw [if_neg (by simpa using h)]; exact he)

theorem value_only (F : FloatText) (c : Card) (t : Ty) :
    Only (fun e => e = .badGet ∨ (e = .outOfRange ∧ c.raw.length < 9) ∨ TextError t e) (Card.value F c t).2 := by
  unfold Card.value
  split
  · split
    · next e h => exact .error (.inr ((valueImp_only F c.raw t).of h))
    · exact .ok _
  · split
    · exact .ok _
    · exact .error (.inl rfl)

end cards

/-! ### headers -/

section headers

open Header

/-- The map points to cards, there is at least one card, and all cards have eighty bytes. -/
def SoundHeader (h : Header) : Prop :=
  (∀ k i, h.keyIndex k = some i → i < h.cards.length) ∧ (∀ c ∈ h.cards, c.raw.length = 80) ∧ h.cards ≠ []

theorem stream_read_length {s s' : Stream} {n : Nat} {b : Str} (h : s.read n = .ok (b, s')) : b.length = n := by
  unfold Stream.read at h
  split at h
  · cases h
  · split at h
    · simp only at h
      split at h
      · next h1 => cases h; exact h1
      · cases h
        simp only [List.length_append, spaces, List.length_replicate, List.length_take, List.length_drop]
        omega
    · cases h; simp [spaces]

theorem ofRaw_raw {s : Str} {c : Card} (h : Card.ofRaw s = .ok c) : c.raw = s := by
  unfold Card.ofRaw at h
  cases hv : Policy.isCardValid s with
  | error e => rw [hv] at h; cases h
  | ok b =>
    rw [hv] at h
    cases b
    · cases h
    · cases h; rfl

theorem readCard_sound {h h' : Header} {s s' : Stream} {b : Bool} (e : h.readCard s = .ok (h', s', b))
    (hi : ∀ k i, h.keyIndex k = some i → i < h.cards.length) (hr : ∀ c ∈ h.cards, c.raw.length = 80) : SoundHeader h' := by
  unfold readCard at e
  cases h1 : s.read 80 with
  | error x => rw [h1] at e; cases e
  | ok p =>
    obtain ⟨buf, s1⟩ := p
    rw [h1] at e
    cases h2 : Card.ofRaw buf with
    | error x =>
      simp only [bind, Except.bind, h2] at e
      cases e
    | ok c =>
      obtain ⟨k, w, hk, hw⟩ := keyword_exists c
      simp only [bind, Except.bind, h2, hk, hw, pure, Except.pure, Except.ok.injEq, Prod.mk.injEq] at e
      obtain ⟨rfl, _, _⟩ := e
      refine ⟨?_, ?_, by simp⟩
      · intro k' i hi'
        simp only [setKey, List.length_append, List.length_cons, List.length_nil] at hi' ⊢
        split at hi'
        · cases hi'; omega
        · have := hi _ _ hi'; omega
      · intro c' hc'
        rcases List.mem_append.1 hc' with h3 | h3
        · exact hr _ h3
        · rw [List.mem_singleton.1 h3, ofRaw_raw h2, stream_read_length h1]

theorem readCards_sound : ∀ (fuel : Nat) {h h' : Header} {s s' : Stream}, readCards fuel h s = some (.ok (h', s')) →
    (∀ k i, h.keyIndex k = some i → i < h.cards.length) → (∀ c ∈ h.cards, c.raw.length = 80) → SoundHeader h'
  | 0, _, _, _, _, e, _, _ => by cases e
  | fuel + 1, h, h', s, s', e, hi, hr => by
    unfold readCards at e
    split at e
    · cases e
    · next h1 => cases e; exact readCard_sound h1 hi hr
    · next h1 => have := readCard_sound h1 hi hr; exact readCards_sound fuel e this.1 this.2.1

theorem cardValue_sound (F : FloatText) {h : Header} (hs : SoundHeader h) (i : Nat) (t : Ty) : SoundHeader (h.cardValue F i t).1 := by
  unfold cardValue
  split
  · exact hs
  · next c hc =>
    refine ⟨fun k j hj => ?_, fun c' hc' => ?_, ?_⟩
    · simpa using hs.1 k j hj
    · rcases List.mem_or_eq_of_mem_set hc' with h1 | h1
      · exact hs.2.1 _ h1
      · rw [h1, value_raw]; exact hs.2.1 _ (List.mem_of_getElem? hc)
    · intro h0
      exact hs.2.2 (List.length_eq_zero_iff.1 (by have := congrArg List.length h0; simpa using this))

theorem indexOf_sound {h : Header} (hs : SoundHeader h) (k : Str) : SoundHeader (h.indexOf k).1 := by
  unfold indexOf
  split
  · exact hs
  · refine ⟨fun k' j hj => ?_, hs.2.1, hs.2.2⟩
    simp only [setKey] at hj
    split at hj
    · cases hj; exact List.length_pos_iff.2 hs.2.2
    · exact hs.1 _ _ hj

theorem sizeValue_sound (F : FloatText) {h h' : Header} {k : Str} {v : Nat} (hs : SoundHeader h) (e : h.sizeValue F k = .ok (h', v)) : SoundHeader h' := by
  unfold sizeValue at e
  simp only at e
  split at e
  · next h2 w hq =>
    cases e
    have := cardValue_sound F (indexOf_sound hs k) (h.indexOf k).2 .sizeT
    rw [hq] at this; exact this
  · cases e
  · cases e

theorem readAxes_sound (F : FloatText) : ∀ (n i : Nat) {h h' : Header}, SoundHeader h → readAxes F n i h = .ok h' → SoundHeader h'
  | 0, _, _, _, hs, e => by cases e; exact hs
  | n + 1, i, h, h', hs, e => by
    unfold readAxes at e
    cases h1 : h.sizeValue F (b!"NAXIS" ++ showNat i) with
    | error x => rw [h1] at e; cases e
    | ok p =>
      rw [h1] at e
      exact readAxes_sound F n (i + 1) (show SoundHeader { p.1 with naxis := p.1.naxis ++ [p.2] } from (sizeValue_sound F hs h1 : SoundHeader p.1)) e

theorem interpret_sound (F : FloatText) {h h' : Header} (hs : SoundHeader h) (e : h.interpret F = .ok h') : SoundHeader h' := by
  unfold interpret at e
  simp only at e
  split at e
  · cases e
  · next h2 v hq =>
    have h2s : SoundHeader h2 := by
      have := cardValue_sound F (indexOf_sound hs b!"BITPIX") (h.indexOf b!"BITPIX").2 .int
      rw [hq] at this; exact this
    split at e
    · cases e
    · next b _ =>
      cases h3 : ({ h2 with bitpix := some b } : Header).sizeValue F b!"NAXIS" with
      | error x => rw [h3] at e; cases e
      | ok p =>
        rw [h3] at e
        simp only [bind, Except.bind] at e
        split at e
        · cases e
        · exact readAxes_sound F _ _ (sizeValue_sound F (show SoundHeader { h2 with bitpix := some b } from h2s) h3) e
  · cases e

theorem loaded_sound {F : FloatText} {h : Header} (hl : LoadedHeader F h) : SoundHeader h := by
  induction hl with
  | load e =>
    unfold readHeader at e
    split at e
    · cases e
    · cases e
    · next h1 =>
      have hs := readCards_sound _ h1 (fun k i hk => by cases hk) (fun c hc => by cases hc)
      split at e
      · cases e
      · next h2 => cases e; exact interpret_sound F hs h2
  | ask k t _ ih =>
    unfold valueOf
    split
    · exact ih
    · exact cardValue_sound F ih _ t

theorem valueOf_only (F : FloatText) {h : Header} (hs : SoundHeader h) (k : Str) (t : Ty) :
    Only (fun e => (e = .outOfRange ∧ h.keyIndex k = none) ∨ e = .badGet ∨ TextError t e) (h.valueOf F k t).2 := by
  unfold valueOf
  split
  · next hk => exact .error (.inl ⟨rfl, hk⟩)
  · next i hk =>
    unfold cardValue
    have hi := hs.1 k i hk
    rw [List.getElem?_eq_getElem hi]
    simp only
    refine (value_only F h.cards[i] t).mono fun e he => .inr ?_
    rcases he with h1 | h1 | h1
    · exact .inl h1
    · have := hs.2.1 h.cards[i] (List.getElem_mem hi)
      omega
    · exact .inr h1

end headers

/-! ### opening a file never reports a missing column -/

section opening

open Header Reader

/-- Everything but column_not_found_exception. -/
abbrev NoColumn (e : Err) : Prop := e ≠ .columnNotFound

theorem textError_noColumn {t : Ty} {e : Err} (h : TextError t e) : NoColumn e := by
  unfold TextError at h
  split at h <;> (subst h; simp)

theorem value_noColumn (F : FloatText) (c : Card) (t : Ty) : Only NoColumn (Card.value F c t).2 :=
  (value_only F c t).mono fun e h => by
    rcases h with rfl | ⟨rfl, _⟩ | h
    · simp
    · simp
    · exact textError_noColumn h

theorem cardValue_noColumn (F : FloatText) (h : Header) (i : Nat) (t : Ty) : Only NoColumn (h.cardValue F i t).2 := by
  unfold cardValue
  split
  · exact .error (by simp)
  · exact value_noColumn F _ t

theorem valueOf_noColumn (F : FloatText) (h : Header) (k : Str) (t : Ty) : Only NoColumn (h.valueOf F k t).2 := by
  unfold valueOf
  split
  · exact .error (by simp)
  · exact cardValue_noColumn F h _ t

theorem readCard_noColumn (h : Header) (s : Stream) : Only NoColumn (h.readCard s) := by
  unfold readCard
  refine .bind ?_ fun p => .bind ?_ fun c => ?_
  · unfold Stream.read
    split
    · exact .error (by simp)
    · split
      · simp only; split
        · exact .ok _
        · exact .ok _
      · exact .ok _
  · exact (ofRaw_only _).mono fun e he => by rcases he with rfl | rfl <;> simp
  · obtain ⟨k, w, hk, hw⟩ := keyword_exists c
    rw [hk, hw]
    exact .ok _

theorem stream_read_noColumn (s : Stream) (n : Nat) : Only NoColumn (s.read n) := by
  unfold Stream.read
  split
  · exact .error (by simp)
  · split
    · simp only; split
      · exact .ok _
      · exact .ok _
    · exact .ok _

theorem sizeValue_noColumn (F : FloatText) (h : Header) (k : Str) : Only NoColumn (h.sizeValue F k) := by
  unfold sizeValue
  simp only
  split
  · exact .ok _
  · exact .error (by simp)
  · next e hq => exact .error ((cardValue_noColumn F _ _ _).of (congrArg Prod.snd hq))

theorem readAxes_noColumn (F : FloatText) : ∀ (n i : Nat) (h : Header), Only NoColumn (readAxes F n i h)
  | 0, _, _ => .ok _
  | n + 1, i, h => by
    unfold readAxes
    exact .bind (sizeValue_noColumn F h _) fun p => readAxes_noColumn F n (i + 1) _

theorem interpret_noColumn (F : FloatText) (h : Header) : Only NoColumn (h.interpret F) := by
  unfold interpret
  simp only
  split
  · next hq => exact .error ((cardValue_noColumn F _ _ _).of (congrArg Prod.snd hq))
  · split
    · exact .error (by simp)
    · refine .bind (sizeValue_noColumn F _ _) fun p => ?_
      split
      · exact .error (by simp)
      · exact readAxes_noColumn F _ _ _
  · exact .error (by simp)

/-- The same for a call that may still be running. -/
def OnlyOpt {α : Type} (S : Err → Prop) (r : Option (Res α)) : Prop := ∀ e, r = some (.error e) → S e

theorem readCards_noColumn : ∀ (fuel : Nat) (h : Header) (s : Stream), OnlyOpt NoColumn (readCards fuel h s)
  | 0, _, _, _, he => by cases he
  | fuel + 1, h, s, e, he => by
    unfold readCards at he
    split at he
    · next h1 => cases he; exact (readCard_noColumn h s).of h1
    · cases he
    · exact readCards_noColumn fuel _ _ e he

theorem extractHeader_noColumn (F : FloatText) (fuel : Nat) (s : Stream) : OnlyOpt NoColumn (extractHeader F fuel s) := by
  intro e he
  unfold extractHeader at he
  split at he
  · cases he
  · next h1 =>
    cases he
    unfold readHeader at h1
    split at h1
    · cases h1
    · next h2 => cases h1; exact readCards_noColumn _ _ _ _ h2
    · split at h1
      · next h3 => cases h1; exact (interpret_noColumn F _).of h3
      · cases h1
  · cases he

theorem get_noColumn (F : FloatText) (h : Header) (k : Str) (t : Ty) : Only NoColumn (h.get F k t) := by
  unfold Header.get
  split
  · exact .ok _
  · next hq => exact .error ((valueOf_noColumn F h k t).of (congrArg Prod.snd hq))

theorem getStr_noColumn (F : FloatText) (h : Header) (k : Str) : Only NoColumn (h.getStr F k) := by
  unfold getStr
  split
  · exact .ok _
  · exact .error (by simp)
  · next hq => exact .error ((get_noColumn F h k _).of hq)

theorem getInt_noColumn (F : FloatText) (h : Header) (k : Str) : Only NoColumn (h.getInt F k) := by
  unfold getInt
  split
  · exact .ok _
  · exact .error (by simp)
  · next hq => exact .error ((get_noColumn F h k _).of hq)

theorem getSize_noColumn (F : FloatText) (h : Header) (k : Str) : Only NoColumn (h.getSize F k) := by
  unfold getSize
  split
  · exact .ok _
  · exact .error (by simp)
  · next hq => exact .error ((get_noColumn F h k _).of hq)

theorem getDouble_noColumn (F : FloatText) (h : Header) (k : Str) : Only NoColumn (h.getDouble F k) := by
  unfold getDouble
  split
  · exact .ok _
  · exact .error (by simp)
  · next hq => exact .error ((get_noColumn F h k _).of hq)

theorem getBool_noColumn (F : FloatText) (h : Header) (k : Str) : Only NoColumn (h.getBool F k) := by
  unfold getBool
  split
  · exact .ok _
  · exact .error (by simp)
  · next hq => exact .error ((get_noColumn F h k _).of hq)

theorem optional_noColumn {α : Type} (h : Header) {r : Res (Header × α)} (hr : Only NoColumn r) : Only NoColumn (h.optional r) := by
  unfold Header.optional
  split
  · exact .ok _
  · exact .ok _
  · exact .error (hr.of rfl)

theorem columnName_noColumn (F : FloatText) (h : Header) (i : Nat) : Only NoColumn (Table.columnName F h i) := by
  unfold Table.columnName
  split
  · exact .ok _
  · next hq => exact .error ((getStr_noColumn F _ _).of hq)
  · split
    · exact .ok _
    · next hq => exact .error ((getStr_noColumn F _ _).of hq)
    · exact .ok _

theorem base_noColumn (F : FloatText) (h : Header) : Only NoColumn (Table.base F h) :=
  .bind (getInt_noColumn F _ _) fun _ => .bind (getInt_noColumn F _ _) fun _ => .bind (getStr_noColumn F _ _) fun _ =>
    .bind (getSize_noColumn F _ _) fun _ => .pure' _

theorem naxisAt_only (h : Header) (n : Nat) : Only (· = .ub) (h.naxisAt n) := by
  unfold naxisAt
  split
  · exact .error rfl
  · split
    · exact .ok _
    · exact .error rfl

theorem naxisAt_noColumn (h : Header) (n : Nat) : Only NoColumn (h.naxisAt n) := (naxisAt_only h n).mono fun e he => by subst he; simp

theorem ascii_columnSize_noColumn (f : Str) : Only NoColumn (Ascii.columnSize f) := by
  unfold Ascii.columnSize
  exact .bind ((substr_only _ _ _).mono fun e he => by subst he; simp) fun _ =>
    .bind ((lexUnsigned_only _ _).mono fun e he => by subst he; simp) fun _ => .pure' _

theorem ascii_columns_noColumn (F : FloatText) : ∀ (n i : Nat) (h : Header), Only NoColumn (Ascii.columns F n i h)
  | 0, _, _ => .ok _
  | n + 1, i, h => by
    unfold Ascii.columns
    refine .bind ?_ fun p => .bind (ascii_columns_noColumn F n (i + 1) _) fun _ => .pure' _
    unfold Ascii.column
    exact .bind (getStr_noColumn F _ _) fun _ => .bind (getSize_noColumn F _ _) fun _ => .bind (columnName_noColumn F _ _) fun _ =>
      .bind (optional_noColumn _ (getStr_noColumn F _ _)) fun _ => .bind (optional_noColumn _ (getDouble_noColumn F _ _)) fun _ =>
      .bind (optional_noColumn _ (getDouble_noColumn F _ _)) fun _ => .pure' _

theorem ascii_make_noColumn (F : FloatText) (h : Header) (buf : Str) : Only NoColumn (Ascii.make F h buf) := by
  unfold Ascii.make Ascii.setInfo
  refine .bind (base_noColumn F h) fun t => .bind (ascii_columns_noColumn F _ _ _) fun p => ?_
  simp only
  split
  · exact .pure' _
  · refine .bind (naxisAt_noColumn _ _) fun rows => .bind (naxisAt_noColumn _ _) fun len => .bind ?_ fun _ => .pure' _
    unfold Ascii.tableData
    split
    · exact .error (by simp)
    · refine .mapM _ fun r => .mapM _ fun c => ?_
      unfold Ascii.cell
      simp only
      split
      · exact .error (by simp)
      · refine .bind (ascii_columnSize_noColumn _) fun w => ?_
        split
        · exact .pure' _
        · exact .error (by simp)

theorem elementCount_noColumn (f : Str) : Only NoColumn (Bin.elementCount f) := by
  unfold Bin.elementCount
  simp only
  split
  · exact .map ((lexUnsigned_only _ _).mono fun e he => by subst he; simp)
  · exact .ok _

theorem bin_columnSize_noColumn (f : Str) : Only NoColumn (BinTable.columnSize f) := by
  unfold BinTable.columnSize
  refine .bind (elementCount_noColumn _) fun _ => .bind ?_ fun _ => .bind ?_ fun _ => .pure' _
  · unfold BinTable.getType
    split
    · exact .ok _
    · exact .error (by simp)
  · unfold BinTable.typeSize
    repeat' (split <;> try first | exact .ok _ | exact .error (by simp))

theorem bin_columns_noColumn (F : FloatText) : ∀ (n i start : Nat) (h : Header), Only NoColumn (BinTable.columns F n i start h)
  | 0, _, _, _ => .ok _
  | n + 1, i, start, h => by
    unfold BinTable.columns
    refine .bind ?_ fun p => .bind (bin_columns_noColumn F n (i + 1) _ _) fun _ => .pure' _
    unfold BinTable.column
    exact .bind (getStr_noColumn F _ _) fun _ => .bind (bin_columnSize_noColumn _) fun _ => .bind (columnName_noColumn F _ _) fun _ =>
      .bind (optional_noColumn _ (getStr_noColumn F _ _)) fun _ => .bind (optional_noColumn _ (getDouble_noColumn F _ _)) fun _ =>
      .bind (optional_noColumn _ (getDouble_noColumn F _ _)) fun _ => .bind (optional_noColumn _ (getStr_noColumn F _ _)) fun _ =>
      .bind (optional_noColumn _ (getStr_noColumn F _ _)) fun _ => .bind (elementCount_noColumn _) fun _ => .pure' _

theorem readRow_noColumn (buf : Str) : ∀ (cols : List Column) (off : Nat), Only NoColumn (BinTable.readRow buf cols off)
  | [], _ => .ok _
  | c :: cs, off => by
    unfold BinTable.readRow
    refine .bind (bin_columnSize_noColumn _) fun w => ?_
    split
    · exact .bind (readRow_noColumn buf cs _) fun _ => .pure' _
    · exact .error (by simp)

theorem readRows_noColumn (buf : Str) (cols : List Column) : ∀ (n off : Nat), Only NoColumn (BinTable.readRows buf cols n off)
  | 0, _ => .ok _
  | n + 1, off => by
    unfold BinTable.readRows
    exact .bind (readRow_noColumn buf cols off) fun _ => .bind (readRows_noColumn buf cols n _) fun _ => .pure' _

theorem bin_make_noColumn (F : FloatText) (h : Header) (buf : Str) : Only NoColumn (BinTable.make F h buf) := by
  unfold BinTable.make BinTable.setInfo
  refine .bind (base_noColumn F h) fun t => .bind (bin_columns_noColumn F _ _ _ _) fun p => ?_
  simp only
  split
  · exact .pure' _
  · refine .bind (naxisAt_noColumn _ _) fun rows => .bind (naxisAt_noColumn _ _) fun len => .bind ?_ fun _ => .pure' _
    unfold BinTable.tableData
    split
    · exact .error (by simp)
    · exact readRows_noColumn _ _ _ _

theorem peek_only (w : Nat) (s : Str) (off : Nat) : Only (· = .ub) (Bin.peek w s off) := by
  unfold Bin.peek
  split
  · exact .ok _
  · exact .error rfl

theorem elementToNumeric_only (w : Nat) (s : Str) : Only (· = .ub) (Bin.elementToNumeric w s) :=
  .bind (peek_only _ _ _) fun _ => .pure' _

theorem decode_only (b : Bitpix) (s : Str) : Only (· = .ub) (b.decode s) := by
  cases b
  · exact .ok _
  all_goals exact elementToNumeric_only _ _

theorem readLoop_only (b : Bitpix) : ∀ (n : Nat) (buf : Str), Only (· = .ub) (Image.readLoop b n buf)
  | 0, _ => .ok _
  | n + 1, buf => by
    unfold Image.readLoop
    split
    · exact .error rfl
    · exact .bind (decode_only _ _) fun _ => .bind (readLoop_only b n _) fun _ => .pure' _

theorem construct_noColumn (F : FloatText) (h : Header) (buf : Str) : Only NoColumn (Hdu.construct F h buf) := by
  unfold Hdu.construct
  split
  · refine .bind ?_ fun _ => .pure' _
    unfold Primary.make
    split
    · exact .error (by simp)
    · refine .bind (.bind ?_ fun _ => .pure' _) fun _ => .bind (getBool_noColumn F _ _) fun _ => .bind (getBool_noColumn F _ _) fun _ => .pure' _
      unfold Image.readImage
      split
      · exact .ok _
      · exact .bind ((readLoop_only _ _ _).mono fun e he => by subst he; simp) fun _ => .pure' _
  · unfold Hdu.generateExtension
    refine .bind (getStr_noColumn F _ _) fun p => ?_
    simp only
    split
    · exact .bind (ascii_make_noColumn F _ _) fun _ => .pure' _
    · split
      · exact .bind (bin_make_noColumn F _ _) fun _ => .pure' _
      · exact .pure' _

theorem getHduName_noColumn (F : FloatText) (h : Header) : Only NoColumn (h.getHduName F).2 := by
  unfold getHduName
  split
  · exact .ok _
  · exact .error (by simp)
  · split
    · exact .ok _
    · next hq => exact .error ((valueOf_noColumn F _ _ _).of (congrArg Prod.snd hq))

theorem store_noColumn (F : FloatText) (r : Reader) (s : Stream) (h : Header) (a b : Nat) (buf : Str) : Only NoColumn (store F r s h a b buf) := by
  unfold store
  split
  · next hq => exact .error ((getHduName_noColumn F h).of (congrArg Prod.snd hq))
  · exact .bind (construct_noColumn F _ _) fun _ => .pure' _

theorem dataBytes_noColumn (h : Header) : Only NoColumn (dataBytes h) := by
  unfold dataBytes
  split
  · exact .error (by simp)
  · exact .ok _

theorem extractData_noColumn (h : Header) (s : Stream) : Only NoColumn (extractData h s) := by
  unfold extractData
  split
  · exact .ok _
  · exact .bind (dataBytes_noColumn h) fun _ => .bind (stream_read_noColumn _ _) fun _ => .pure' _

theorem readEntire_noColumn (F : FloatText) (fuel : Nat) : ∀ (n : Nat) (r : Reader), OnlyOpt NoColumn (readEntire F fuel n r)
  | 0, _, _, he => by cases he
  | n + 1, r, e, he => by
    unfold readEntire at he
    split at he
    · cases he
    · split at he
      · cases he
      · next h1 =>
        cases he
        unfold entireTurn at h1
        simp only at h1
        split at h1
        · cases h1
        · next h2 => cases h1; exact extractHeader_noColumn F _ _ _ h2
        · split at h1
          · next h3 => cases h1; exact (extractData_noColumn _ _).of h3
          · simp only [Option.some.injEq] at h1
            exact (store_noColumn F _ _ _ _ _ _).of h1
      · exact readEntire_noColumn F fuel n _ e he

theorem readHeaders_noColumn (F : FloatText) (fuel : Nat) : ∀ (n : Nat) (r : Reader), OnlyOpt NoColumn (readHeaders F fuel n r)
  | 0, _, _, he => by cases he
  | n + 1, r, e, he => by
    unfold readHeaders at he
    split at he
    · cases he
    · split at he
      · cases he
      · next h1 =>
        cases he
        unfold headersTurn at h1
        simp only at h1
        split at h1
        · cases h1
        · next h2 => cases h1; exact extractHeader_noColumn F _ _ _ h2
        · split at h1
          · next h3 => cases h1; exact (store_noColumn F _ _ _ _ _ _).of h3
          · split at h1
            · next h4 =>
              cases h1
              unfold skipData at h4
              split at h4
              · cases h4
              · exact (Only.bind (S := NoColumn) (dataBytes_noColumn _) fun _ => .pure' _).of h4
            · cases h1
      · exact readHeaders_noColumn F fuel n _ e he

end opening

/-! ### columns -/

section columns

variable {Φ : Family}

theorem getColumn_only (o : Obj Φ) (name : Str) (t : Φ.Tag) :
    Only (fun e => e = .columnNotFound ∨ e = .badGet) (o.getColumn name t).2 := by
  unfold Obj.getColumn
  split
  · split
    · exact .ok _
    · exact .error (.inr rfl)
  · split
    · next h =>
      unfold Table.columnMetadata at h
      split at h
      · cases h
      · cases h; exact .error (.inl rfl)
    · exact .ok _

theorem cellAt_only (data : List (List Str)) (row index : Nat) : Only (· = .ub) (cellAt data row index) := by
  unfold cellAt
  repeat' (split <;> try first | exact .ok _ | exact .error rfl)

theorem read_only {S : Err → Prop} (o : Obj Φ) (name : Str) (t : Φ.Tag) (row : Nat) (hd : ∀ s n, Only S (Φ.deser t s n)) :
    Only (fun e => e = .columnNotFound ∨ e = .badGet ∨ e = .ub ∨ S e) (o.read name t row).2 := by
  unfold Obj.read
  split
  · next h => exact .error (by rcases (getColumn_only o name t).of (congrArg Prod.snd h) with h | h <;> simp [h])
  · simp only
    unfold View.read
    split
    · exact .ok _
    · split
      · next h => exact .error (.inr (.inr (.inl ((cellAt_only _ _ _).of h))))
      · split
        · next h => exact .error (.inr (.inr (.inr ((hd _ _).of h))))
        · exact .ok _

theorem update_only (o : Obj Φ) (name : Str) (t : Φ.Tag) (row : Nat) (x : Φ.El t) :
    Only (fun e => e = .columnNotFound ∨ e = .badGet ∨ e = .ub) (o.update name t row x).2 := by
  unfold Obj.update
  split
  · next h => exact .error (by rcases (getColumn_only o name t).of (congrArg Prod.snd h) with h | h <;> simp [h])
  · simp only
    split
    · next h =>
      refine .error (.inr (.inr ?_))
      exact (Only.bind (S := (· = .ub)) (cellAt_only _ _ _) fun _ => .pure' _).of h
    · exact .ok _

theorem numericLoop_only (w : Nat) (s : Str) : ∀ (n i : Nat), Only (· = .ub) (Bin.numericLoop w s i n)
  | 0, _ => by unfold Bin.numericLoop; exact .ok _
  | n + 1, i => by
    unfold Bin.numericLoop
    exact .bind (peek_only _ _ _) fun _ => .bind (numericLoop_only w s n _) fun _ => .pure' _

theorem elementToComplex_only (w : Nat) (s : Str) : Only (· = .ub) (Bin.elementToComplex w s) :=
  .bind (peek_only _ _ _) fun _ => .bind (peek_only _ _ _) fun _ => .pure' _

theorem complexLoop_only (w : Nat) (s : Str) : ∀ (n off : Nat), Only (· = .ub) (Bin.complexLoop w s off n)
  | 0, _ => by unfold Bin.complexLoop; exact .ok _
  | n + 1, off => by
    unfold Bin.complexLoop
    exact .bind (peek_only _ _ _) fun _ => .bind (elementToComplex_only _ _) fun _ => .bind (complexLoop_only w s n _) fun _ => .pure' _

theorem toPair_only (s : Str) : Only (· = .ub) (Bin.toPair s) :=
  .bind (peek_only _ _ _) fun _ => .bind (peek_only _ _ _) fun _ => .pure' _

theorem pairLoop_only (s : Str) : ∀ (n off : Nat), Only (· = .ub) (Bin.pairLoop s off n)
  | 0, _ => by unfold Bin.pairLoop; exact .ok _
  | n + 1, off => by
    unfold Bin.pairLoop
    exact .bind (peek_only _ _ _) fun _ => .bind (peek_only _ _ _) fun _ => .bind (pairLoop_only s n _) fun _ => .pure' _

end columns

end Astro
