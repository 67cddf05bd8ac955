import Verif.Model.Header
import Verif.Lemmas.Stream
import Verif.Props.CardState

/-
Lemmas about headers.
-/

namespace Astro

open Spec

/-! ### cards read from a file -/

theorem keyword_mk (s : Str) (v : Option Val) : Card.keyword ⟨s, v⟩ = .ok (trim (s.take 8)) := by
  unfold Card.keyword Policy.extractKeyword
  rw [substr_ok (Nat.zero_le _)]; rfl

theorem keywordWhole_mk (s : Str) (v : Option Val) : Card.keywordWhole ⟨s, v⟩ = .ok (s.take 8) := by
  unfold Card.keywordWhole Policy.extractKeyword
  rw [substr_ok (Nat.zero_le _)]; rfl

theorem keywordIs_iff {raw k : Str} : KeywordIs raw k ↔ trim (raw.take 8) = k := isTrim_iff

theorem isEnd_rawOk {s : Str} (h : IsEnd s) : RawOk s := by
  refine Or.inr (Or.inl ⟨b!"END", ?_, Or.inr (Or.inr rfl)⟩)
  rw [isTrim_iff]
  have : s.take 7 = b!"END    " := by
    have e : s.take 7 = (s.take 8).take 7 := by rw [List.take_take]; rfl
    rw [e, h]; rfl
  rw [this]; decide

theorem isEnd_keyword {s : Str} (h : IsEnd s) : KeywordIs s b!"END" := by
  rw [keywordIs_iff, h]; decide

theorem blank_rawOk : RawOk (spaces 80) := Or.inr (Or.inr ⟨spaces 72, by decide⟩)

theorem blank_not_end : ¬ IsEnd (spaces 80) := by unfold IsEnd; decide

namespace Header

/-- Push a raw card, as the reading loop does. -/
def addCard (h : Header) (raw : Str) : Header :=
  { h with cards := h.cards ++ [⟨raw, none⟩], keyIndex := setKey h.keyIndex (trim (raw.take 8)) h.cards.length }

/-- Push several. -/
def addCards (h : Header) (raws : List Str) : Header := raws.foldl addCard h

theorem addCards_cons (h : Header) (r : Str) (l : List Str) : addCards h (r :: l) = addCards (addCard h r) l := rfl

theorem addCards_append (h : Header) (l m : List Str) : addCards h (l ++ m) = addCards (addCards h l) m :=
  List.foldl_append

theorem addCards_cards (l : List Str) : ∀ h : Header, (addCards h l).cards = h.cards ++ l.map fun r => ⟨r, none⟩ := by
  induction l with
  | nil => intro h; simp [addCards]
  | cons r l ih => intro h; rw [addCards_cons, ih]; simp [addCard]

theorem addCards_other (l : List Str) : ∀ h : Header, (addCards h l).bitpix = h.bitpix ∧ (addCards h l).naxis = h.naxis ∧
    (addCards h l).hduName = h.hduName := by
  induction l with
  | nil => intro h; exact ⟨rfl, rfl, rfl⟩
  | cons r l ih => intro h; rw [addCards_cons]; exact ih _

/-- The index map of a header built card by card. -/
def Indexed (h : Header) : Prop := ∀ k i, h.keyIndex k = some i ↔ LastWith (h.cards.map (·.raw)) k i

theorem empty_indexed : Indexed empty := by
  intro k i
  constructor
  · intro h; cases h
  · rintro ⟨h, _⟩; simp [empty] at h

theorem addCard_indexed {h : Header} (hi : Indexed h) (r : Str) : Indexed (h.addCard r) := by
  intro k i
  unfold addCard setKey
  simp only [List.map_append, List.map_cons, List.map_nil]
  by_cases hk : k = trim (r.take 8)
  · rw [if_pos hk]
    constructor
    · intro e
      cases e
      refine ⟨by simp, ?_, ?_⟩
      · rw [keywordIs_iff]; simp [hk]
      · intro j hj hlt; simp at hj; omega
    · rintro ⟨hlt, _, hlast⟩
      simp at hlt
      rcases Nat.lt_or_ge i h.cards.length with hi' | hi'
      · exfalso
        refine hlast h.cards.length (by simp) hi' ?_
        rw [keywordIs_iff]; simp [hk]
      · have : i = h.cards.length := by omega
        rw [this]
  · rw [if_neg hk, hi]
    constructor
    · rintro ⟨hlt, h1, h2⟩
      refine ⟨by simp at hlt ⊢; omega, ?_, ?_⟩
      · rw [List.getElem_append_left hlt]; exact h1
      · intro j hj hlt'
        rcases Nat.lt_or_ge j (h.cards.map (·.raw)).length with hj' | hj'
        · rw [List.getElem_append_left hj']; exact h2 j hj' hlt'
        · rw [List.getElem_append_right hj']
          simp only [List.length_append, List.length_cons, List.length_nil] at hj
          have : j - (h.cards.map (·.raw)).length = 0 := by omega
          simp only [this]
          rw [keywordIs_iff]; simp; exact fun e => hk e.symm
    · rintro ⟨hlt, h1, h2⟩
      rcases Nat.lt_or_ge i (h.cards.map (·.raw)).length with hj' | hj'
      · refine ⟨hj', ?_, ?_⟩
        · rw [List.getElem_append_left hj'] at h1; exact h1
        · intro j hj hlt'
          have := h2 j (by simp at hj ⊢; omega) hlt'
          rw [List.getElem_append_left hj] at this; exact this
      · exfalso
        rw [List.getElem_append_right hj'] at h1
        simp only [List.length_append, List.length_cons, List.length_nil] at hlt
        have : i - (h.cards.map (·.raw)).length = 0 := by omega
        simp only [this] at h1
        rw [keywordIs_iff] at h1
        simp at h1
        exact hk h1.symm

theorem addCards_indexed (l : List Str) : ∀ {h : Header}, Indexed h → Indexed (h.addCards l) := by
  induction l with
  | nil => intro h hi; exact hi
  | cons r l ih => intro h hi; rw [addCards_cons]; exact ih (addCard_indexed hi r)

/-! ### the reading loop -/

/-- The stream is where it should be after `k` cards were read from position `p` of `c`. -/
def StreamAt (c : Str) (p k : Nat) (w : Bool) (s : Stream) : Prop :=
  s.content = c ∧ s.writable = w ∧ ((s.good = true ∧ s.pos = p + 80 * k) ∨ (s.fail = true ∧ c.length < p + 80 * k))

theorem streamAt_zero {s : Stream} (hg : s.good = true) : StreamAt s.content s.pos 0 s.writable s :=
  ⟨rfl, rfl, Or.inl ⟨hg, by omega⟩⟩

theorem streamAt_inside {c : Str} {p k : Nat} {w : Bool} {s : Stream} (h : StreamAt c p k w s) (hi : p + 80 * k ≤ c.length) :
    s = ⟨c, p + 80 * k, false, false, w⟩ := by
  obtain ⟨h1, h2, h3 | h3⟩ := h
  · obtain ⟨g1, g2⟩ := Stream.good_iff.1 h3.1
    cases s
    simp only at *
    rw [h1, h2, h3.2, g1, g2]
  · omega

theorem streamAt_read {c : Str} {p k : Nat} {w : Bool} {s : Stream} (h : StreamAt c p k w s) :
    ∃ s', s.read 80 = .ok (piece c p k, s') ∧ StreamAt c p (k + 1) w s' := by
  obtain ⟨h1, h2, h3 | h3⟩ := h
  · obtain ⟨s', g1, g2, g3, g4, g5⟩ := Stream.read_good h3.1 (n := 80) (by decide)
    rw [h1, h3.2] at g1
    refine ⟨s', g1, g2.trans h1, g3.trans h2, ?_⟩
    rw [h1, h3.2] at g4 g5
    rcases Nat.lt_or_ge c.length (p + 80 * k + 80) with hl | hl
    · exact Or.inr ⟨(g5 hl (by decide)).1, by omega⟩
    · have := g4 (Or.inl hl)
      left
      rw [this]
      exact ⟨h3.1, by simp only; omega⟩
  · refine ⟨s, ?_, h1, h2, Or.inr ⟨h3.1, by omega⟩⟩
    rw [Stream.read_fail h3.1 (by decide)]
    unfold piece
    rw [window_outside (by omega)]

theorem piece_length (c : Str) (p k : Nat) : (piece c p k).length = 80 := window_length _ _ _

theorem ofRaw_piece_ok {r : Str} (hl : r.length = 80) (h : RawOk r) : Card.ofRaw r = .ok ⟨r, none⟩ :=
  (C11_raw_card_decision r).2.2.1 (by omega) (by omega) h

theorem ofRaw_piece_bad {r : Str} (hl : r.length = 80) (h : ¬ RawOk r) : Card.ofRaw r = .error .invalidCard :=
  (C11_raw_card_decision r).2.2.2 (by omega) (by omega) h

theorem readCard_ok {c : Str} {p k : Nat} {w : Bool} {s : Stream} (h : Header) (hs : StreamAt c p k w s) (hr : RawOk (piece c p k)) :
    ∃ s', StreamAt c p (k + 1) w s' ∧ h.readCard s = .ok (h.addCard (piece c p k), s', (piece c p k).take 8 == b!"END     ") := by
  obtain ⟨s', h1, h2⟩ := streamAt_read hs
  refine ⟨s', h2, ?_⟩
  unfold readCard
  rw [h1]
  simp only [bind, Except.bind]
  rw [ofRaw_piece_ok (piece_length c p k) hr]
  simp only
  rw [keyword_mk, keywordWhole_mk]
  simp only [pure, Except.pure, addCard]
  simp

theorem readCard_bad {c : Str} {p k : Nat} {w : Bool} {s : Stream} (h : Header) (hs : StreamAt c p k w s) (hr : ¬ RawOk (piece c p k)) :
    h.readCard s = .error .invalidCard := by
  obtain ⟨s', h1, h2⟩ := streamAt_read hs
  unfold readCard
  rw [h1]
  simp only [bind, Except.bind]
  rw [ofRaw_piece_bad (piece_length c p k) hr]

/-- The pieces number `k, .., k+n-1`. -/
def pieces (c : Str) (p k n : Nat) : List Str := (List.range n).map fun j => piece c p (k + j)

theorem pieces_zero (c : Str) (p k : Nat) : pieces c p k 0 = [] := rfl

theorem pieces_succ (c : Str) (p k n : Nat) : pieces c p k (n + 1) = piece c p k :: pieces c p (k + 1) n := by
  unfold pieces
  rw [List.range_succ_eq_map]
  simp [Nat.add_assoc, Nat.add_comm 1]

theorem readCards_skip (n : Nat) : ∀ {c : Str} {p k : Nat} {w : Bool} {s : Stream} (h : Header) (f : Nat), StreamAt c p k w s →
    (∀ j, j < n → RawOk (piece c p (k + j)) ∧ ¬ IsEnd (piece c p (k + j))) →
    ∃ s', StreamAt c p (k + n) w s' ∧ readCards (n + f) h s = readCards f (h.addCards (pieces c p k n)) s' := by
  induction n with
  | zero => intro c p k w s h f hs _; exact ⟨s, hs, by rw [Nat.zero_add]; rfl⟩
  | succ n ih =>
    intro c p k w s h f hs hj
    obtain ⟨hr, hne⟩ := hj 0 (by omega)
    obtain ⟨s1, g1, g2⟩ := readCard_ok h hs hr
    obtain ⟨s2, g3, g4⟩ := ih (h.addCard (piece c p k)) f g1 (fun j hlt => by
      have := hj (j + 1) (by omega)
      rw [Nat.add_assoc, Nat.add_comm 1 j]; exact this)
    refine ⟨s2, by rw [Nat.add_assoc, Nat.add_comm 1 n] at g3; exact g3, ?_⟩
    rw [pieces_succ, addCards_cons, ← g4, Nat.add_right_comm]
    simp only [readCards]
    rw [g2]
    have : ((piece c p k).take 8 == b!"END     ") = false := by
      simp only [beq_eq_false_iff_ne, ne_eq]
      exact hne
    rw [this]

theorem readCards_end {c : Str} {p k : Nat} {w : Bool} {s : Stream} (h : Header) (f : Nat) (hs : StreamAt c p k w s)
    (he : IsEnd (piece c p k)) :
    ∃ s', StreamAt c p (k + 1) w s' ∧ readCards (f + 1) h s = some (.ok (h.addCard (piece c p k), s')) := by
  obtain ⟨s1, g1, g2⟩ := readCard_ok h hs (isEnd_rawOk he)
  refine ⟨s1, g1, ?_⟩
  simp only [readCards]
  rw [g2]
  have : ((piece c p k).take 8 == b!"END     ") = true := by
    simp only [beq_iff_eq]
    exact he
  rw [this]

theorem readCards_bad {c : Str} {p k : Nat} {w : Bool} {s : Stream} (h : Header) (f : Nat) (hs : StreamAt c p k w s)
    (he : ¬ RawOk (piece c p k)) : readCards (f + 1) h s = some (.error .invalidCard) := by
  simp only [readCards]
  rw [readCard_bad h hs he]

/-- More fuel does not change a finished loop. -/
theorem readCards_mono : ∀ (f : Nat) (h : Header) (s : Stream) (r : Res (Header × Stream)), readCards f h s = some r →
    ∀ g, readCards (f + g) h s = some r := by
  intro f
  induction f with
  | zero => intro h s r e; cases e
  | succ f ih =>
    intro h s r e g
    rw [Nat.add_right_comm]
    simp only [readCards] at e ⊢
    split at e
    · exact e
    · exact e
    · exact ih _ _ _ e g

theorem readHeader_mono {F : FloatText} {f : Nat} {h : Header} {s : Stream} {r : Res (Header × Stream)}
    (e : readHeader F f h s = some r) (g : Nat) : readHeader F (f + g) h s = some r := by
  unfold readHeader at e ⊢
  cases hc : readCards f h s with
  | none => rw [hc] at e; cases e
  | some x => rw [hc] at e; rw [readCards_mono _ _ _ _ hc]; exact e

/-- What a loop that finished has read. -/
theorem readCards_some {f : Nat} : ∀ {c : Str} {p k : Nat} {w : Bool} {s : Stream} {h : Header} {r : Res (Header × Stream)},
    StreamAt c p k w s → readCards f h s = some r →
    ∃ n, (∀ j, j < n → RawOk (piece c p (k + j)) ∧ ¬ IsEnd (piece c p (k + j))) ∧ n < f ∧
      ((IsEnd (piece c p (k + n)) ∧ ∃ s', StreamAt c p (k + n + 1) w s' ∧ r = .ok (h.addCards (pieces c p k (n + 1)), s')) ∨
       (¬ RawOk (piece c p (k + n)) ∧ r = .error .invalidCard)) := by
  induction f with
  | zero => intro c p k w s h r _ e; cases e
  | succ f ih =>
    intro c p k w s h r hs e
    by_cases hr : RawOk (piece c p k)
    · by_cases he : IsEnd (piece c p k)
      · obtain ⟨s', g1, g2⟩ := readCards_end h f hs he
        rw [g2] at e
        cases e
        refine ⟨0, fun j hj => absurd hj (by omega), by omega, Or.inl ⟨he, s', g1, ?_⟩⟩
        rw [pieces_succ, pieces_zero]; rfl
      · obtain ⟨s1, g1, g2⟩ := readCards_skip 1 h f hs (fun j hj => by
          have : j = 0 := by omega
          subst this; exact ⟨hr, he⟩)
        rw [Nat.add_comm f 1, g2] at e
        obtain ⟨n, i1, i2, i3⟩ := ih g1 e
        refine ⟨n + 1, ?_, by omega, ?_⟩
        · intro j hj
          cases j with
          | zero => exact ⟨hr, he⟩
          | succ j => have := i1 j (by omega); rw [Nat.add_assoc, Nat.add_comm 1 j] at this; exact this
        · have e1 : k + 1 + n = k + (n + 1) := by omega
          rw [e1] at i3
          rcases i3 with ⟨j1, s', j2, j3⟩ | i3
          · refine Or.inl ⟨j1, s', j2, ?_⟩
            rw [j3, pieces_succ c p k (n + 1), pieces_succ c p k 0, pieces_zero]
            rfl
          · exact Or.inr i3
    · rw [readCards_bad h f hs hr] at e
      cases e
      exact ⟨0, fun j hj => absurd hj (by omega), by omega, Or.inr ⟨hr, rfl⟩⟩

/-! ### reading values from a header -/

/-- Cached values agree with the text of the card. -/
def CacheOk (F : FloatText) (h : Header) : Prop :=
  ∀ c ∈ h.cards, ∀ v, c.cache = some v → Card.valueImp F c.raw v.ty = .ok v

/-- What value look-ups may do to a header; `keys` are the keywords used with `operator[]`. -/
structure Read (F : FloatText) (keys : List Str) (h h' : Header) : Prop where
  raws : h'.cards.map (·.raw) = h.cards.map (·.raw)
  index : ∀ k, h'.keyIndex k = match h.keyIndex k with
    | some i => some i
    | none => if k ∈ keys then some 0 else none
  cacheOk : CacheOk F h → CacheOk F h'
  mono : ∀ (i : Nat) (c : Card) (v : Val), h.cards[i]? = some c → c.cache = some v → ∃ c' : Card, h'.cards[i]? = some c' ∧ c'.cache = some v

theorem Read.refl (F : FloatText) (h : Header) : Read F [] h h :=
  ⟨rfl, fun k => by cases h.keyIndex k <;> rfl, id, fun _ c _ h1 h2 => ⟨c, h1, h2⟩⟩

theorem Read.trans {F : FloatText} {a b : List Str} {h h' h'' : Header} (h1 : Read F a h h') (h2 : Read F b h' h'') :
    Read F (a ++ b) h h'' := by
  refine ⟨h2.raws.trans h1.raws, ?_, h2.cacheOk ∘ h1.cacheOk, ?_⟩
  · intro k
    rw [h2.index, h1.index]
    cases h.keyIndex k with
    | some i => rfl
    | none =>
      simp only [List.mem_append]
      by_cases ha : k ∈ a
      · simp [ha]
      · simp [ha]
  · intro i c v g1 g2
    obtain ⟨c', g3, g4⟩ := h1.mono i c v g1 g2
    exact h2.mono i c' v g3 g4

theorem read_indexOf (F : FloatText) (h : Header) (k : Str) :
    Read F [k] h (h.indexOf k).1 ∧ (h.indexOf k).2 = (h.keyIndex k).getD 0 ∧ (h.indexOf k).1.cards = h.cards ∧
    (h.indexOf k).1.naxis = h.naxis ∧ (h.indexOf k).1.bitpix = h.bitpix ∧ (h.indexOf k).1.hduName = h.hduName := by
  unfold indexOf
  cases hk : h.keyIndex k with
  | some i =>
    simp only
    refine ⟨⟨rfl, ?_, id, fun _ c _ h1 h2 => ⟨c, h1, h2⟩⟩, rfl, trivial, trivial, trivial, trivial⟩
    intro k'
    cases hk' : h.keyIndex k' with
    | some j => rfl
    | none =>
      have : k' ≠ k := by rintro rfl; rw [hk] at hk'; cases hk'
      simp [this]
  | none =>
    simp only
    refine ⟨⟨rfl, ?_, id, fun _ c _ h1 h2 => ⟨c, h1, h2⟩⟩, rfl, trivial, trivial, trivial, trivial⟩
    intro k'
    simp only [setKey]
    by_cases e : k' = k
    · rw [if_pos e, e, hk]; simp
    · rw [if_neg e]
      cases h.keyIndex k' with
      | some j => rfl
      | none => simp [e]

theorem read_cardValue (F : FloatText) (h : Header) (i : Nat) (t : Ty) :
    Read F [] h (h.cardValue F i t).1 ∧ (h.cardValue F i t).1.naxis = h.naxis ∧ (h.cardValue F i t).1.bitpix = h.bitpix ∧
    (h.cardValue F i t).1.keyIndex = h.keyIndex ∧ (h.cardValue F i t).1.hduName = h.hduName := by
  unfold cardValue
  cases hc : h.cards[i]? with
  | none => exact ⟨Read.refl F h, rfl, rfl, rfl, rfl⟩
  | some c =>
    simp only
    refine ⟨⟨?_, ?_, ?_, ?_⟩, trivial, trivial, trivial, trivial⟩
    · apply List.ext_getElem?
      intro j
      simp only [List.getElem?_map, List.getElem?_set]
      by_cases e : i = j
      · subst e
        obtain ⟨hlt, hce⟩ := List.getElem?_eq_some_iff.1 hc
        simp [hlt, hce, value_raw]
      · simp [e]
    · intro k; simp only; cases h.keyIndex k <;> rfl
    · intro hok c' hc' v hv
      rcases List.mem_or_eq_of_mem_set hc' with hc' | hc'
      · exact hok c' hc' v hv
      · subst hc'
        rw [value_raw]
        have hmem : c ∈ h.cards := List.mem_of_getElem? hc
        unfold Card.value at hv
        cases hcc : c.cache with
        | some w =>
          rw [hcc] at hv
          simp only at hv
          apply hok c hmem
          split at hv <;> exact hv
        | none =>
          rw [hcc] at hv
          simp only at hv
          cases hvi : Card.valueImp F c.raw t with
          | error e => rw [hvi] at hv; simp only at hv; rw [hcc] at hv; cases hv
          | ok w =>
            rw [hvi] at hv; simp only at hv; cases hv
            rw [valueImp_ty hvi]; exact hvi
    · intro j c' v h1 h2
      by_cases e : i = j
      · subst e
        rw [hc] at h1; cases h1
        refine ⟨_, List.getElem?_set_self (List.getElem?_eq_some_iff.1 hc).1, ?_⟩
        unfold Card.value
        rw [h2]
        simp only
        split <;> exact h2
      · exact ⟨c', by simp only [List.getElem?_set, if_neg e]; exact h1, h2⟩

theorem cardValue_ok {F : FloatText} {h : Header} {i : Nat} {t : Ty} {v : Val} (hv : (h.cardValue F i t).2 = .ok v) :
    v.ty = t ∧ ∃ c' : Card, (h.cardValue F i t).1.cards[i]? = some c' ∧ c'.cache = some v := by
  unfold cardValue at hv ⊢
  cases hc : h.cards[i]? with
  | none => rw [hc] at hv; cases hv
  | some c =>
    rw [hc] at hv
    simp only at hv ⊢
    obtain ⟨g1, g2⟩ := value_ok_cached hv
    exact ⟨g2, _, List.getElem?_set_self (List.getElem?_eq_some_iff.1 hc).1, g1⟩

theorem sizeValue_ok {F : FloatText} {h h' : Header} {k : Str} {n : Nat} (e : h.sizeValue F k = .ok (h', n)) :
    Read F [k] h h' ∧ h'.naxis = h.naxis ∧ h'.bitpix = h.bitpix ∧ h'.hduName = h.hduName ∧
    ∃ (c : Card) (v : BitVec 64), h'.cards[(h.keyIndex k).getD 0]? = some c ∧ c.cache = some (.sizeT v) ∧ v.toNat = n := by
  unfold sizeValue at e
  obtain ⟨i1, i2, i3, i4, i5, i6⟩ := read_indexOf F h k
  generalize hx : h.indexOf k = x at *
  obtain ⟨h1, i⟩ := x
  simp only at *
  obtain ⟨j1, j2, j3, j4, j5⟩ := read_cardValue F h1 i .sizeT
  have jok := @cardValue_ok F h1 i .sizeT
  generalize hy : h1.cardValue F i .sizeT = y at *
  obtain ⟨h2, r⟩ := y
  cases r with
  | error e' => cases e
  | ok v =>
    cases v with
    | sizeT v =>
      simp only [Except.ok.injEq, Prod.mk.injEq] at e
      obtain ⟨rfl, rfl⟩ := e
      obtain ⟨_, c, k1, k2⟩ := jok rfl
      refine ⟨i1.trans j1, j2.trans i4, j3.trans i5, j5.trans i6, c, v, ?_, k2, rfl⟩
      rw [← i2]; exact k1
    | _ => cases e

theorem Read.keyIndexD {F : FloatText} {keys : List Str} {h h' : Header} (r : Read F keys h h') (k : Str) :
    (h'.keyIndex k).getD 0 = (h.keyIndex k).getD 0 := by
  rw [r.index]
  cases h.keyIndex k with
  | some i => rfl
  | none => by_cases hk : k ∈ keys <;> simp [hk]

/-- The keywords of axes `i, .., i+n-1`. -/
def axisKeys (i n : Nat) : List Str := (List.range n).map fun j => b!"NAXIS" ++ showNat (i + j)

theorem axisKeys_succ (i n : Nat) : axisKeys i (n + 1) = (b!"NAXIS" ++ showNat i) :: axisKeys (i + 1) n := by
  unfold axisKeys
  rw [List.range_succ_eq_map]
  simp [Nat.add_assoc, Nat.add_comm 1]

theorem readAxes_ok {F : FloatText} : ∀ (n i : Nat) {h h' : Header}, readAxes F n i h = .ok h' →
    Read F (axisKeys i n) h h' ∧ h'.bitpix = h.bitpix ∧ h'.hduName = h.hduName ∧
    ∃ vs : List Nat, h'.naxis = h.naxis ++ vs ∧ vs.length = n ∧ ∀ j (hj : j < vs.length), ∃ (c : Card) (v : BitVec 64),
      h'.cards[(h.keyIndex (b!"NAXIS" ++ showNat (i + j))).getD 0]? = some c ∧ c.cache = some (.sizeT v) ∧ v.toNat = vs[j] := by
  intro n
  induction n with
  | zero =>
    intro i h h' e
    simp only [readAxes] at e
    cases e
    exact ⟨Read.refl F h, rfl, rfl, [], by simp, rfl, fun j hj => absurd hj (by simp)⟩
  | succ n ih =>
    intro i h h' e
    simp only [readAxes, bind, Except.bind] at e
    cases hs : h.sizeValue F (b!"NAXIS" ++ showNat i) with
    | error e' => rw [hs] at e; cases e
    | ok x =>
      obtain ⟨h1, v1⟩ := x
      rw [hs] at e
      simp only at e
      obtain ⟨a1, a2, a3, a4, c, v, a5, a6, a7⟩ := sizeValue_ok hs
      obtain ⟨b1, b2, b3, vs, b4, b5, b6⟩ := ih (i + 1) e
      have b1' : Read F (axisKeys (i + 1) n) h1 h' := ⟨b1.raws, b1.index, b1.cacheOk, b1.mono⟩
      refine ⟨?_, b2.trans a3, b3.trans a4, v1 :: vs, ?_, by simp [b5], ?_⟩
      · rw [axisKeys_succ]; exact a1.trans b1'
      · rw [b4]; simp only; rw [a2]; simp
      · intro j hj
        cases j with
        | zero =>
          obtain ⟨c', g1, g2⟩ := b1'.mono _ c _ a5 a6
          exact ⟨c', v, g1, g2, a7⟩
        | succ j =>
          obtain ⟨c', v', g1, g2, g3⟩ := b6 j (by simpa using hj)
          simp only at g1
          rw [a1.keyIndexD] at g1
          rw [Nat.add_assoc, Nat.add_comm 1 j] at g1
          exact ⟨c', v', g1, g2, g3⟩

theorem bitpixOf_iff {v : Int} {b : Bitpix} : bitpixOf v = some b ↔ BitpixValue b v := by
  unfold bitpixOf
  constructor
  · intro h
    repeat' split at h
    all_goals first | (cases h; unfold BitpixValue; assumption) | cases h
  · intro h
    cases b <;> (simp only [BitpixValue] at h; subst h; rfl)

/-- Everything a successful interpretation tells. -/
theorem interpret_ok {F : FloatText} {h h' : Header} (e : h.interpret F = .ok h') :
    ∃ b, Read F (b!"BITPIX" :: b!"NAXIS" :: axisKeys 1 (h'.naxis.length - h.naxis.length)) h h' ∧ h'.hduName = h.hduName ∧ h'.bitpix = some b ∧
    (∃ (c : Card) (v : BitVec 32), h'.cards[(h.keyIndex b!"BITPIX").getD 0]? = some c ∧ c.cache = some (.int v) ∧ BitpixValue b v.toInt) ∧
    ∃ vs : List Nat, h'.naxis = h.naxis ++ vs ∧
    (∃ (c : Card) (v : BitVec 64), h'.cards[(h.keyIndex b!"NAXIS").getD 0]? = some c ∧ c.cache = some (.sizeT v) ∧ v.toNat = vs.length) ∧
    ∀ j (hj : j < vs.length), ∃ (c : Card) (v : BitVec 64),
      h'.cards[(h.keyIndex (b!"NAXIS" ++ showNat (1 + j))).getD 0]? = some c ∧ c.cache = some (.sizeT v) ∧ v.toNat = vs[j] := by
  unfold interpret at e
  obtain ⟨i1, i2, i3, i4, i5, i6⟩ := read_indexOf F h b!"BITPIX"
  generalize hx : h.indexOf b!"BITPIX" = x at *
  obtain ⟨h1, i⟩ := x
  simp only at *
  obtain ⟨j1, j2, j3, j4, j5⟩ := read_cardValue F h1 i .int
  have jok := @cardValue_ok F h1 i .int
  generalize hy : h1.cardValue F i .int = y at *
  obtain ⟨h2, r⟩ := y
  cases r with
  | error e' => cases e
  | ok v =>
    cases v with
    | int v =>
      simp only at *
      obtain ⟨_, c, k1, k2⟩ := jok rfl
      cases hb : bitpixOf v.toInt with
      | none => rw [hb] at e; cases e
      | some b =>
        rw [hb] at e
        simp only [bind, Except.bind] at e
        cases hs : ({ h2 with bitpix := some b } : Header).sizeValue F b!"NAXIS" with
        | error e' => rw [hs] at e; cases e
        | ok x =>
          obtain ⟨h3, n⟩ := x
          rw [hs] at e
          simp only at e
          split at e
          · cases e
          · obtain ⟨a1, a2, a3, a4, c3, v3, a5, a6, a7⟩ := sizeValue_ok hs
            obtain ⟨b1, b2, b3, vs, b4, b5, b6⟩ := readAxes_ok n 1 e
            have a1' : Read F [b!"NAXIS"] h2 h3 := ⟨a1.raws, a1.index, a1.cacheOk, a1.mono⟩
            have r02 : Read F ([b!"BITPIX"] ++ []) h h2 := i1.trans j1
            have r0 := (r02.trans a1').trans b1
            have hn0 : h3.naxis = h.naxis := a2.trans (j2.trans i4)
            refine ⟨b, ?_, b3.trans (a4.trans (j5.trans i6)), b2.trans a3, ?_, vs, ?_, ?_, ?_⟩
            · have : h'.naxis.length - h.naxis.length = n := by rw [b4, hn0]; simp [b5]
              rw [this]; exact r0
            · obtain ⟨c', g1, g2⟩ := (a1'.trans b1).mono _ c _ k1 k2
              rw [← i2]
              exact ⟨c', v, g1, g2, bitpixOf_iff.1 hb⟩
            · rw [b4, hn0]
            · obtain ⟨c', g1, g2⟩ := b1.mono _ c3 _ a5 a6
              simp only at g1
              rw [r02.keyIndexD] at g1
              exact ⟨c', v3, g1, g2, by rw [a7, b5]⟩
            · intro j hj
              obtain ⟨c', v', g1, g2, g3⟩ := b6 j hj
              rw [a1'.keyIndexD, r02.keyIndexD] at g1
              exact ⟨c', v', g1, g2, g3⟩
    | _ => cases e

/-! ### success -/

/-- The card that `key_index[k]` refers to has not been read, or was read as the wanted type. -/
theorem cardValue_present {F : FloatText} {h : Header} {i : Nat} {t : Ty} {c : Card} {v : Val} (hc : h.cards[i]? = some c)
    (hcache : c.cache = none ∨ c.cache = some v) (hv : Card.valueImp F c.raw t = .ok v) :
    h.cardValue F i t = ({ h with cards := h.cards.set i ⟨c.raw, some v⟩ }, .ok v) := by
  unfold cardValue
  rw [hc]
  simp only
  unfold Card.value
  rcases hcache with hn | hn
  · rw [hn]; simp only; rw [hv]
  · rw [hn]
    simp only
    rw [if_pos (valueImp_ty hv)]
    simp only
    cases c
    simp only at hn
    subst hn
    rfl

theorem sizeValue_present {F : FloatText} {h : Header} {k : Str} {i : Nat} {c : Card} {v : BitVec 64} (hk : h.keyIndex k = some i)
    (hc : h.cards[i]? = some c) (hcache : c.cache = none) (hv : Card.valueImp F c.raw .sizeT = .ok (.sizeT v)) :
    h.sizeValue F k = .ok ({ h with cards := h.cards.set i ⟨c.raw, some (.sizeT v)⟩ }, v.toNat) := by
  unfold sizeValue indexOf
  rw [hk]
  simp only
  rw [cardValue_present hc (Or.inl hcache) hv]

theorem showNat_inj {a b : Nat} (h : showNat a = showNat b) : a = b := by
  have := parseNat_showNat a
  rw [h, parseNat_showNat] at this
  exact (Option.some.inj this).symm

/-- A keyword that can be read as the given type. -/
def Avail (F : FloatText) (h : Header) (k : Str) (t : Ty) (v : Val) : Prop :=
  ∃ i c, h.keyIndex k = some i ∧ h.cards[i]? = some c ∧ c.cache = none ∧ Card.valueImp F c.raw t = .ok v

/-- Different keywords refer to different cards. -/
def InjIndex (h : Header) : Prop := ∀ k k' i, h.keyIndex k = some i → h.keyIndex k' = some i → k = k'

theorem Indexed.inj {h : Header} (hi : Indexed h) : InjIndex h := by
  intro k k' i h1 h2
  obtain ⟨a, b, _⟩ := (hi k i).1 h1
  obtain ⟨_, b', _⟩ := (hi k' i).1 h2
  rw [keywordIs_iff] at b b'
  rw [← b, ← b']

theorem Avail.other {F : FloatText} {h h' : Header} {k k' : Str} {t : Ty} {v : Val} (hi : InjIndex h) (hk : k ≠ k') {i : Nat} {c : Card}
    (hki : h.keyIndex k' = some i) (hcards : h'.cards = h.cards.set i c) (hindex : h'.keyIndex = h.keyIndex) (ha : Avail F h k t v) :
    Avail F h' k t v := by
  obtain ⟨j, c', h1, h2, h3, h4⟩ := ha
  refine ⟨j, c', by rw [hindex]; exact h1, ?_, h3, h4⟩
  have : i ≠ j := by rintro rfl; exact hk (hi _ _ _ h1 hki)
  rw [hcards, List.getElem?_set_ne this]; exact h2

theorem readAxes_present {F : FloatText} (n : Nat) : ∀ (i : Nat) (h : Header), InjIndex h →
    (∀ j, j < n → ∃ v, Avail F h (b!"NAXIS" ++ showNat (i + j)) .sizeT (.sizeT v)) → ∃ h', readAxes F n i h = .ok h' := by
  induction n with
  | zero => intro i h _ _; exact ⟨h, rfl⟩
  | succ n ih =>
    intro i h hi ha
    obtain ⟨v, idx, c, h1, h2, h3, h4⟩ := ha 0 (by omega)
    rw [Nat.add_zero] at h1
    obtain ⟨h', e⟩ := ih (i + 1)
      { h with cards := h.cards.set idx ⟨c.raw, some (.sizeT v)⟩, naxis := h.naxis ++ [v.toNat] } hi (fun j hj => by
        obtain ⟨v', hv'⟩ := ha (j + 1) (by omega)
        have e : i + 1 + j = i + (j + 1) := by omega
        rw [e]
        refine ⟨v', Avail.other (k' := b!"NAXIS" ++ showNat i) hi ?_ h1 rfl rfl hv'⟩
        intro e'
        have := showNat_inj (List.append_cancel_left e')
        omega)
    refine ⟨h', ?_⟩
    simp only [readAxes, bind, Except.bind]
    rw [sizeValue_present h1 h2 h3 h4]
    exact e

theorem interpret_present {F : FloatText} {h : Header} (hi : InjIndex h) {v : BitVec 32} {b : Bitpix} {n : BitVec 64}
    (h1 : Avail F h b!"BITPIX" .int (.int v)) (hb : BitpixValue b v.toInt) (h2 : Avail F h b!"NAXIS" .sizeT (.sizeT n))
    (hn : n.toNat < 2 ^ 60) (h3 : ∀ j, j < n.toNat → ∃ v, Avail F h (b!"NAXIS" ++ showNat (1 + j)) .sizeT (.sizeT v)) :
    ∃ h', h.interpret F = .ok h' := by
  obtain ⟨ib, cb, b1, b2, b3, b4⟩ := h1
  have ha : ∀ {h' : Header} {k t v c}, k ≠ b!"BITPIX" → h'.cards = h.cards.set ib c → h'.keyIndex = h.keyIndex → Avail F h k t v →
      Avail F h' k t v := fun hk e1 e2 => Avail.other hi hk b1 e1 e2
  obtain ⟨iN, cN, n1, n2, n3, n4⟩ := @ha { h with cards := h.cards.set ib ⟨cb.raw, some (.int v)⟩, bitpix := some b } b!"NAXIS" .sizeT
    (.sizeT n) ⟨cb.raw, some (.int v)⟩ (by decide) rfl rfl h2
  have ha2 : ∀ j, j < n.toNat → ∃ v', Avail F { h with cards := (h.cards.set ib ⟨cb.raw, some (.int v)⟩).set iN ⟨cN.raw, some (.sizeT n)⟩, bitpix := some b } (b!"NAXIS" ++ showNat (1 + j)) .sizeT (.sizeT v') := by
    intro j hj
    obtain ⟨v', hv'⟩ := h3 j hj
    refine ⟨v', ?_⟩
    have s1 := @ha { h with cards := h.cards.set ib ⟨cb.raw, some (.int v)⟩, bitpix := some b } _ .sizeT
      (.sizeT v') ⟨cb.raw, some (.int v)⟩ (by
        intro e
        have := congrArg List.head? e
        simp at this) rfl rfl hv'
    refine Avail.other (k' := b!"NAXIS") (i := iN) (by exact hi) ?_ n1 rfl rfl s1
    intro e
    have := congrArg List.length e
    rw [List.length_append] at this
    have h0 := List.length_pos_iff.2 (showNat_ne_nil (1 + j))
    simp only [List.length_cons, List.length_nil] at this
    omega
  obtain ⟨h', e⟩ := readAxes_present n.toNat 1
    { h with cards := (h.cards.set ib ⟨cb.raw, some (.int v)⟩).set iN ⟨cN.raw, some (.sizeT n)⟩, bitpix := some b } hi ha2
  refine ⟨h', ?_⟩
  unfold interpret indexOf
  rw [b1]
  simp only
  rw [cardValue_present b2 (Or.inl b3) b4]
  simp only
  rw [bitpixOf_iff.2 hb]
  simp only [bind, Except.bind]
  rw [sizeValue_present n1 n2 n3 n4]
  simp only
  rw [if_neg (by omega)]
  exact e

end Header

end Astro
