import Verif.Model.Table
import Verif.Spec.Table
import Verif.Props.Header
import Verif.Props.Convert

/-
Helper lemmas about tables.
-/

namespace Astro

open Spec Bin

/-! ### mapM -/

theorem bind_ok {α β : Type} {r : Res α} {f : α → Res β} {b : β} (e : (r >>= f) = .ok b) : ∃ a, r = .ok a ∧ f a = .ok b := by
  cases r with
  | error e' => cases e
  | ok a => exact ⟨a, rfl, e⟩

theorem mapM_ok_iff {α β : Type} {f : α → Res β} : ∀ {l : List α} {r : List β}, l.mapM f = .ok r ↔
    r.length = l.length ∧ ∀ i (h1 : i < l.length) (h2 : i < r.length), f l[i] = .ok r[i] := by
  intro l
  induction l with
  | nil =>
    intro r
    simp only [List.mapM_nil, pure, Except.pure, List.length_nil]
    constructor
    · intro h; cases h; exact ⟨rfl, fun i h => absurd h (by simp)⟩
    · rintro ⟨h, _⟩; rw [List.length_eq_zero_iff.1 h]
  | cons a l ih =>
    intro r
    rw [List.mapM_cons]
    cases hf : f a with
    | error e =>
      simp only [bind, Except.bind]
      constructor
      · intro h; cases h
      · rintro ⟨h1, h2⟩
        have := h2 0 (by simp) (by simp [h1])
        simp only [List.getElem_cons_zero] at this
        rw [hf] at this; cases this
    | ok b =>
      simp only [bind, Except.bind]
      cases hm : l.mapM f with
      | error e =>
        simp only
        constructor
        · intro h; cases h
        · rintro ⟨h1, h2⟩
          cases r with
          | nil => simp at h1
          | cons x r =>
            have : l.mapM f = .ok r := ih.2 ⟨by simpa using h1, fun i g1 g2 => by
              have := h2 (i + 1) (by simpa using g1) (by simpa using g2)
              simpa using this⟩
            rw [hm] at this; cases this
      | ok bs =>
        simp only [pure, Except.pure, Except.ok.injEq]
        obtain ⟨i1, i2⟩ := ih.1 hm
        constructor
        · rintro rfl
          refine ⟨by simp [i1], ?_⟩
          intro i h1 h2
          cases i with
          | zero => simpa using hf
          | succ i => simpa using i2 i (by simpa using h1) (by simpa using h2)
        · rintro ⟨h1, h2⟩
          cases r with
          | nil => simp at h1
          | cons x r =>
            have e1 := h2 0 (by simp) (by simp)
            simp only [List.getElem_cons_zero] at e1
            rw [hf] at e1
            have : l.mapM f = .ok r := ih.2 ⟨by simpa using h1, fun i g1 g2 => by
              have := h2 (i + 1) (by simpa using g1) (by simpa using g2)
              simpa using this⟩
            rw [hm] at this
            cases e1; cases this; rfl

/-! ### fields -/

theorem field_iff {buf : Str} {off w : Nat} {s : Str} : Field buf off w s ↔ off + w ≤ buf.length ∧ s = (buf.drop off).take w := by
  constructor
  · rintro ⟨a, b, rfl, rfl, rfl⟩
    refine ⟨by simp only [List.length_append]; omega, ?_⟩
    rw [List.append_assoc, List.drop_left, List.take_left]
  · rintro ⟨h, rfl⟩
    refine ⟨buf.take off, buf.drop (off + w), ?_, by simp only [List.length_take]; omega, by simp only [List.length_take, List.length_drop]; omega⟩
    rw [List.append_assoc, ← List.drop_drop, List.take_append_drop, List.take_append_drop]

/-! ### column widths -/

theorem lexUnsigned64 {s : Str} {w : Nat} : (lexUnsigned 64 s).map BitVec.toNat = .ok w ↔ UnsignedText s w := lexUnsigned_iff

theorem bind_toNat (r : Res (BitVec 64)) : (do return (← r).toNat : Res Nat) = r.map BitVec.toNat := by
  cases r <;> rfl

theorem ascii_columnSize_iff {format : Str} {w : Nat} : Ascii.columnSize format = .ok w ↔ AsciiWidth format w := by
  unfold AsciiWidth Ascii.columnSize
  simp only [isUnquoted_iff, exists_eq_left']
  generalize Bin.trimQuotes format = form
  cases form with
  | nil =>
    rw [substr_error (by simp)]
    constructor
    · intro h; cases h
    · rintro (⟨_, _, _, h, _⟩ | ⟨_, h, _⟩) <;> cases h
  | cons letter r =>
    by_cases hl : letter = 46
    · subst hl
      have e : Ascii.decimal (46 :: r) = 0 := by simp [Ascii.decimal, List.findIdx?_cons]
      rw [e]
      simp only [if_true]
      rw [substr_ok (by simp)]
      simp only [List.drop_succ_cons, List.drop_zero]
      rw [List.take_of_length_le (by simp)]
      simp only [bind, Except.bind]
      refine Iff.trans (b := (lexUnsigned 64 r).map BitVec.toNat = .ok w) ?_ ?_
      · cases lexUnsigned 64 r <;> rfl
      · rw [lexUnsigned_iff]
        constructor
        · intro h; exact Or.inr ⟨r, rfl, h⟩
        · rintro (⟨l, d, t, h1, h2, _⟩ | ⟨d, h1, h2⟩)
          · cases h1; exact absurd rfl h2
          · cases h1; exact h2
    · have key : ∃ digits tail, r = digits ++ tail ∧ 46 ∉ digits ∧ (tail = [] ∨ tail.head? = some 46) ∧
          Ascii.decimal (letter :: r) = digits.length + 1 := by
        by_cases hm : 46 ∈ r
        · obtain ⟨a, b, h1, h2⟩ := split_first hm
          refine ⟨a, 46 :: b, h1, h2, Or.inr rfl, ?_⟩
          have : (letter :: r : Str).findIdx? (· == 46) = some (a.length + 1) := by
            rw [List.findIdx?_cons, h1]
            simp only [beq_iff_eq, hl, if_false, List.findIdx?_append, List.findIdx?_cons, BEq.rfl, if_true]
            rw [List.findIdx?_eq_none_iff.2 (fun x hx => by simp only [beq_eq_false_iff_ne]; rintro rfl; exact h2 hx)]
            simp
          rw [Ascii.decimal, this]
        · refine ⟨r, [], by simp, hm, Or.inl rfl, ?_⟩
          have : (letter :: r : Str).findIdx? (· == 46) = none := by
            rw [List.findIdx?_eq_none_iff]
            intro x hx
            simp only [beq_eq_false_iff_ne]
            rintro rfl
            rcases List.mem_cons.1 hx with h | h
            · exact hl h.symm
            · exact hm h
          rw [Ascii.decimal, this]; rfl
      obtain ⟨digits, tail, e1, e2, e3, e4⟩ := key
      rw [e4]
      simp only [Nat.add_eq_zero_iff, Nat.one_ne_zero, and_false, if_false, Nat.add_sub_cancel]
      rw [substr_ok (by simp)]
      simp only [List.drop_succ_cons, List.drop_zero, bind, Except.bind]
      rw [e1, List.take_left]
      refine Iff.trans (b := (lexUnsigned 64 digits).map BitVec.toNat = .ok w) ?_ ?_
      · cases lexUnsigned 64 digits <;> rfl
      · rw [lexUnsigned_iff]
        constructor
        · intro h; exact Or.inl ⟨letter, digits, tail, rfl, hl, e2, e3, h⟩
        · rintro (⟨l, d, t, h1, _, h3, h4, h5⟩ | ⟨d, h1, h2⟩)
          · injection h1 with _ h1
            have : d = digits := by
              -- both are the part in front of the first dot
              rcases Nat.lt_trichotomy d.length digits.length with h | h | h
              · exfalso
                rcases h4 with rfl | h4
                · rw [List.append_nil] at h1
                  have := congrArg List.length h1; simp only [List.length_append] at this; omega
                · cases t with
                  | nil => cases h4
                  | cons x t =>
                    simp only [List.head?_cons, Option.some.injEq] at h4
                    subst h4
                    have := congrArg (fun l => l[d.length]?) h1
                    simp only [List.getElem?_append_right (Nat.le_refl _), Nat.sub_self, List.getElem?_append_left h] at this
                    simp only [List.getElem?_cons_zero] at this
                    exact e2 (List.mem_of_getElem? this)
              · exact (List.append_inj h1.symm h).1
              · exfalso
                rcases e3 with rfl | e3
                · rw [List.append_nil] at h1
                  have := congrArg List.length h1; simp only [List.length_append] at this; omega
                · cases tail with
                  | nil => cases e3
                  | cons x t' =>
                    simp only [List.head?_cons, Option.some.injEq] at e3
                    subst e3
                    have := congrArg (fun l => l[digits.length]?) h1
                    simp only [List.getElem?_append_right (Nat.le_refl _), Nat.sub_self, List.getElem?_append_left h] at this
                    simp only [List.getElem?_cons_zero] at this
                    exact h3 (List.mem_of_getElem? this.symm)
            rw [← this]; exact h5
          · cases h1; exact absurd rfl hl

theorem letterSize_fun {c : Byte} {n m : Nat} (h : LetterSize c n) (h' : LetterSize c m) : n = m := by
  unfold LetterSize at h h'
  simp only [List.mem_cons, List.not_mem_nil, or_false] at h h'
  rcases h with ⟨h, rfl⟩ | ⟨rfl, rfl⟩ | ⟨h, rfl⟩ | ⟨h, rfl⟩ | ⟨rfl, rfl⟩
  · rcases h with rfl | rfl | rfl | rfl <;> (symm; simpa using h')
  · (symm; simpa using h')
  · rcases h with rfl | rfl <;> (symm; simpa using h')
  · rcases h with rfl | rfl | rfl <;> (symm; simpa using h')
  · (symm; simpa using h')

theorem typeSize_cases (c : Byte) : (∃ n, BinTable.typeSize c = .ok n ∧ LetterSize c n) ∨
    (BinTable.typeSize c = .error .invalidTableFormat ∧ ∀ n, ¬ LetterSize c n) := by
  by_cases h0 : c = 76
  · subst h0; exact Or.inl ⟨1, rfl, by unfold LetterSize; decide⟩
  by_cases h1 : c = 88
  · subst h1; exact Or.inl ⟨1, rfl, by unfold LetterSize; decide⟩
  by_cases h2 : c = 66
  · subst h2; exact Or.inl ⟨1, rfl, by unfold LetterSize; decide⟩
  by_cases h3 : c = 73
  · subst h3; exact Or.inl ⟨2, rfl, by unfold LetterSize; decide⟩
  by_cases h4 : c = 74
  · subst h4; exact Or.inl ⟨4, rfl, by unfold LetterSize; decide⟩
  by_cases h5 : c = 65
  · subst h5; exact Or.inl ⟨1, rfl, by unfold LetterSize; decide⟩
  by_cases h6 : c = 69
  · subst h6; exact Or.inl ⟨4, rfl, by unfold LetterSize; decide⟩
  by_cases h7 : c = 68
  · subst h7; exact Or.inl ⟨8, rfl, by unfold LetterSize; decide⟩
  by_cases h8 : c = 67
  · subst h8; exact Or.inl ⟨8, rfl, by unfold LetterSize; decide⟩
  by_cases h9 : c = 77
  · subst h9; exact Or.inl ⟨16, rfl, by unfold LetterSize; decide⟩
  by_cases h10 : c = 80
  · subst h10; exact Or.inl ⟨8, rfl, by unfold LetterSize; decide⟩
  right
  constructor
  · unfold BinTable.typeSize
    rw [if_neg h0, if_neg h1, if_neg h2, if_neg h3, if_neg h4, if_neg h5, if_neg h6, if_neg h7, if_neg h8, if_neg h9, if_neg h10]
  · intro n h
    unfold LetterSize at h
    simp only [List.mem_cons, List.not_mem_nil, or_false] at h
    rcases h with ⟨h, _⟩ | ⟨h, _⟩ | ⟨h, _⟩ | ⟨h, _⟩ | ⟨h, _⟩
    · rcases h with h | h | h | h <;> contradiction
    · contradiction
    · rcases h with h | h <;> contradiction
    · rcases h with h | h | h <;> contradiction
    · contradiction

theorem letterSize_iff {c : Byte} {n : Nat} : BinTable.typeSize c = .ok n ↔ LetterSize c n := by
  rcases typeSize_cases c with ⟨m, h1, h2⟩ | ⟨h1, h2⟩
  · rw [h1, Except.ok.injEq]
    constructor
    · rintro rfl; exact h2
    · intro h; exact letterSize_fun h2 h
  · rw [h1]
    constructor
    · intro h; cases h
    · intro h; exact absurd h (h2 n)

theorem typeSize_error {c : Byte} {e : Err} (h : BinTable.typeSize c = .error e) : e = .invalidTableFormat := by
  rcases typeSize_cases c with ⟨m, h1, h2⟩ | ⟨h1, h2⟩
  · rw [h1] at h; cases h
  · rw [h1] at h; cases h; rfl

theorem trimQuotes_idem (s : Str) : Bin.trimQuotes (Bin.trimQuotes s) = Bin.trimQuotes s := by
  obtain ⟨a, b, h, h1, h2, h3, h4⟩ := trimQuotes_split s
  have := trimQuotes_unique (a := []) (b := []) (t := Bin.trimQuotes s) (fun c hc => absurd hc (by simp)) (fun c hc => absurd hc (by simp)) h3 h4
  simpa using this

theorem bin_columnSize_iff {format : Str} {w : Nat} : BinTable.columnSize format = .ok w ↔ BinWidth format w := by
  unfold BinTable.columnSize BinTable.getType BinWidth
  simp only [trimQuotes_idem, isUnquoted_iff]
  have hec : Bin.elementCount (Bin.trimQuotes format) = Bin.elementCount format := by
    unfold Bin.elementCount; rw [trimQuotes_idem]
  rw [hec]
  have hm : (18446744073709551616 : Nat) = 2 ^ 64 := by decide
  constructor
  · intro h
    cases hn : Bin.elementCount format with
    | error e => rw [hn] at h; cases h
    | ok n =>
      rw [hn] at h
      simp only [bind, Except.bind] at h
      cases hl : (Bin.trimQuotes format).getLast? with
      | none => rw [hl] at h; cases h
      | some letter =>
        rw [hl] at h
        simp only at h
        cases hs : BinTable.typeSize letter with
        | error e => rw [hs] at h; cases h
        | ok size =>
          rw [hs] at h
          simp only [pure, Except.pure, Except.ok.injEq, sizeMod, hm] at h
          obtain ⟨form, hu, hc⟩ := (C19_element_count format n).1 hn
          rw [isUnquoted_iff] at hu
          rw [hu] at hl
          have hform : ∃ count, form = count ++ [letter] := by
            obtain ⟨ys, hys⟩ := List.getLast?_eq_some_iff.1 hl
            exact ⟨ys, hys⟩
          obtain ⟨count, hform⟩ := hform
          refine ⟨form, count, letter, n, size, hu, hform, ?_, letterSize_iff.1 hs, h.symm⟩
          rcases hc with ⟨h1, h2⟩ | ⟨count', letter', h1, h2⟩
          · left
            rw [hform] at h1
            simp only [List.length_append, List.length_cons, List.length_nil] at h1
            exact ⟨List.length_eq_zero_iff.1 (by omega), h2⟩
          · right
            rw [hform] at h1
            obtain ⟨h3, _⟩ := List.append_inj' h1 rfl
            rw [h3]; exact h2
  · rintro ⟨form, count, letter, n, size, hu, hform, hc, hs, rfl⟩
    have hn : Bin.elementCount format = .ok n := by
      rw [C19_element_count]
      refine ⟨form, isUnquoted_iff.2 hu, ?_⟩
      rcases hc with ⟨rfl, rfl⟩ | hc
      · left; rw [hform]; exact ⟨by simp, rfl⟩
      · right; exact ⟨count, letter, hform, hc⟩
    rw [hn, hu, hform]
    simp only [bind, Except.bind, List.getLast?_append, List.getLast?_singleton, Option.some_or]
    rw [letterSize_iff.2 hs]
    rfl

/-! ### looking up values -/

/-- The keywords that read_header enters even when they are absent. -/
def AxisKey (k : Str) : Prop := k = b!"BITPIX" ∨ ∃ d, k = b!"NAXIS" ++ d

/-- A header as left by read_header and any number of value look-ups. -/
structure Sound (F : FloatText) (h : Header) : Prop where
  cacheOk : Header.CacheOk F h
  size : ∀ r ∈ h.cards.map (·.raw), r.length = 80
  index : ∀ k i, h.keyIndex k = some i → LastWith (h.cards.map (·.raw)) k i ∨ (Absent (h.cards.map (·.raw)) k ∧ AxisKey k)
  present : ∀ k i, LastWith (h.cards.map (·.raw)) k i → h.keyIndex k = some i

theorem sound_of_read {F : FloatText} {fuel : Nat} {s s' : Stream} {h : Header} (hg : s.good = true)
    (e : Header.readHeader F fuel Header.empty s = some (.ok (h, s'))) : Sound F h := by
  obtain ⟨h1, _, hc0, _, h80, hint⟩ := readHeader_facts hg e
  obtain ⟨b, hread, _⟩ := Header.interpret_ok hint
  refine ⟨hread.cacheOk (fun c hc v hv => by rw [hc0 c hc] at hv; cases hv), by rw [hread.raws]; exact h80, ?_, ?_⟩
  · intro k i hk
    rcases (C28_index F fuel s s' h hg e k i).1 hk with h2 | ⟨h2, h3, _⟩
    · exact Or.inl h2
    · refine Or.inr ⟨h2, ?_⟩
      rcases h3 with h3 | h3 | ⟨j, d, _, _, _, h3⟩
      · exact Or.inl h3
      · exact Or.inr ⟨[], by rw [h3]; rfl⟩
      · exact Or.inr ⟨d, h3⟩
  · intro k i hl
    exact (C28_index F fuel s s' h hg e k i).2 (Or.inl hl)

/-- Two headers that differ at most in cached values. -/
structure Same (h h' : Header) : Prop where
  raws : h'.cards.map (·.raw) = h.cards.map (·.raw)
  index : h'.keyIndex = h.keyIndex
  naxis : h'.naxis = h.naxis
  bitpix : h'.bitpix = h.bitpix
  hduName : h'.hduName = h.hduName

theorem Same.refl (h : Header) : Same h h := ⟨rfl, rfl, rfl, rfl, rfl⟩

theorem Same.trans {a b c : Header} (h1 : Same a b) (h2 : Same b c) : Same a c :=
  ⟨h2.raws.trans h1.raws, h2.index.trans h1.index, h2.naxis.trans h1.naxis, h2.bitpix.trans h1.bitpix, h2.hduName.trans h1.hduName⟩

theorem get_ok {F : FloatText} {h h' : Header} {k : Str} {t : Ty} {v : Val} (hs : Sound F h) (e : h.get F k t = .ok (h', v)) :
    Same h h' ∧ Sound F h' ∧ v.ty = t ∧ (¬ AxisKey k → Declares F (h.cards.map (·.raw)) k t v) := by
  unfold Header.get Header.valueOf at e
  cases hk : h.keyIndex k with
  | none => rw [hk] at e; cases e
  | some i =>
    rw [hk] at e
    simp only at e
    obtain ⟨r1, r2, r3, r4, r5⟩ := Header.read_cardValue F h i t
    have hok := @Header.cardValue_ok F h i t
    generalize hy : h.cardValue F i t = y at *
    obtain ⟨h2, r⟩ := y
    cases r with
    | error e' => cases e
    | ok w =>
      cases e
      simp only at *
      obtain ⟨g1, c', g2, g3⟩ := hok rfl
      have hsame : Same h h' := ⟨r1.raws, r4, r2, r3, r5⟩
      have hsound : Sound F h' := by
        refine ⟨r1.cacheOk hs.cacheOk, by rw [hsame.raws]; exact hs.size, ?_, ?_⟩
        · intro k i hk'
          rw [hsame.raws]; exact hs.index k i (by rw [← hsame.index]; exact hk')
        · intro k i hl
          rw [hsame.index]; rw [hsame.raws] at hl; exact hs.present k i hl
      refine ⟨hsame, hsound, g1, ?_⟩
      intro hax
      rcases hs.index k i hk with hl | ⟨_, ha⟩
      · have hraw : (h.cards.map (·.raw))[i]? = some c'.raw := by
          rw [← hsame.raws, List.getElem?_map, g2]; rfl
        refine ⟨i, c'.raw, hl, hraw, ?_⟩
        have := hsound.cacheOk c' (List.mem_of_getElem? g2) v g3
        rw [g1] at this; exact this
      · exact absurd ha hax

theorem get_absent {F : FloatText} {h : Header} {k : Str} {t : Ty} (hs : Sound F h) (hk : ¬ AxisKey k) :
    h.get F k t = .error .outOfRange ↔ Absent (h.cards.map (·.raw)) k := by
  unfold Header.get Header.valueOf
  constructor
  · intro e
    refine (absent_or_last _ k).resolve_right ?_
    rintro ⟨i, hl⟩
    rw [hs.present k i hl] at e
    simp only at e
    unfold Header.cardValue at e
    have hlt := hl.1
    rw [List.length_map] at hlt
    rw [List.getElem?_eq_getElem hlt] at e
    simp only at e
    unfold Card.value at e
    cases hc : h.cards[i].cache with
    | some v =>
      rw [hc] at e
      simp only at e
      by_cases hv : v.ty = t
      · rw [if_pos hv] at e; cases e
      · rw [if_neg hv] at e; cases e
    | none =>
      rw [hc] at e
      simp only at e
      cases hvi : Card.valueImp F h.cards[i].raw t with
      | ok v => rw [hvi] at e; cases e
      | error er =>
        rw [hvi] at e
        simp only [Except.error.injEq] at e
        subst e
        exact valueImp_not_oor F _ t (by rw [hs.size _ (List.mem_map_of_mem (List.getElem_mem hlt))]; omega) hvi
  · intro ha
    cases hk' : h.keyIndex k with
    | none => rfl
    | some i =>
      exfalso
      rcases hs.index k i hk' with h2 | ⟨_, h2⟩
      · exact lastWith_not_absent h2 ha
      · exact hk h2

theorem getStr_ok {F : FloatText} {h h' : Header} {k s : Str} (e : h.getStr F k = .ok (h', s)) : h.get F k .string = .ok (h', .string s) := by
  unfold Header.getStr at e
  split at e <;> first | (cases e; assumption) | cases e

theorem getSize_ok {F : FloatText} {h h' : Header} {k : Str} {n : Nat} (e : h.getSize F k = .ok (h', n)) :
    ∃ v : BitVec 64, h.get F k .sizeT = .ok (h', .sizeT v) ∧ v.toNat = n := by
  unfold Header.getSize at e
  split at e <;> first | (cases e; exact ⟨_, by assumption, rfl⟩) | cases e

theorem getInt_ok {F : FloatText} {h h' : Header} {k : Str} {v : BitVec 32} (e : h.getInt F k = .ok (h', v)) :
    h.get F k .int = .ok (h', .int v) := by
  unfold Header.getInt at e
  split at e <;> first | (cases e; assumption) | cases e

theorem getDouble_ok {F : FloatText} {h h' : Header} {k : Str} {v : BitVec 64} (e : h.getDouble F k = .ok (h', v)) :
    h.get F k .double = .ok (h', .double v) := by
  unfold Header.getDouble at e
  split at e <;> first | (cases e; assumption) | cases e

theorem getStr_error {F : FloatText} {h : Header} {k : Str} {e : Err} (hne : e ≠ .ub) : h.getStr F k = .error e ↔ h.get F k .string = .error e := by
  unfold Header.getStr
  split
  · rename_i h1; rw [h1]; simp
  · rename_i h1; rw [h1]; simp [Ne.symm hne]
  · rename_i h1; rw [h1]; simp

theorem getDouble_error {F : FloatText} {h : Header} {k : Str} {e : Err} (hne : e ≠ .ub) : h.getDouble F k = .error e ↔ h.get F k .double = .error e := by
  unfold Header.getDouble
  split
  · rename_i h1; rw [h1]; simp
  · rename_i h1; rw [h1]; simp [Ne.symm hne]
  · rename_i h1; rw [h1]; simp

/-- An optional string keyword: its value if it is there, the empty text if not. -/
def OptStr (F : FloatText) (raws : List Str) (k : Str) (s : Str) : Prop :=
  Declares F raws k .string (.string s) ∨ (Absent raws k ∧ s = [])

/-- An optional floating point keyword. -/
def OptDouble (F : FloatText) (raws : List Str) (k : Str) (v : Option (BitVec 64)) : Prop :=
  (∃ x, v = some x ∧ Declares F raws k .double (.double x)) ∨ (Absent raws k ∧ v = none)

theorem optional_str {F : FloatText} {h h' : Header} {k : Str} {o : Option Str} (hs : Sound F h) (hk : ¬ AxisKey k)
    (e : h.optional (h.getStr F k) = .ok (h', o)) : Same h h' ∧ Sound F h' ∧ OptStr F (h.cards.map (·.raw)) k (o.getD []) := by
  unfold Header.optional at e
  split at e
  · rename_i h1 a h2
    cases e
    obtain ⟨g1, g2, _, g3⟩ := get_ok hs (getStr_ok h2)
    exact ⟨g1, g2, Or.inl (g3 hk)⟩
  · rename_i h2
    cases e
    exact ⟨Same.refl _, hs, Or.inr ⟨(get_absent hs hk).1 ((getStr_error (by decide)).1 h2), rfl⟩⟩
  · cases e

theorem optional_double {F : FloatText} {h h' : Header} {k : Str} {o : Option (BitVec 64)} (hs : Sound F h) (hk : ¬ AxisKey k)
    (e : h.optional (h.getDouble F k) = .ok (h', o)) : Same h h' ∧ Sound F h' ∧ OptDouble F (h.cards.map (·.raw)) k o := by
  unfold Header.optional at e
  split at e
  · rename_i h1 a h2
    cases e
    obtain ⟨g1, g2, _, g3⟩ := get_ok hs (getDouble_ok h2)
    exact ⟨g1, g2, Or.inl ⟨a, rfl, g3 hk⟩⟩
  · rename_i h2
    cases e
    exact ⟨Same.refl _, hs, Or.inr ⟨(get_absent hs hk).1 ((getDouble_error (by decide)).1 h2), rfl⟩⟩
  · cases e

theorem columnName_ok {F : FloatText} {h h' : Header} {i : Nat} {n c : Str} (hs : Sound F h)
    (e : Table.columnName F h i = .ok (h', n, c)) :
    Same h h' ∧ Sound F h' ∧ OptStr F (h.cards.map (·.raw)) (b!"TTYPE" ++ showNat i) n ∧
      (n ≠ [] → ¬ AxisKey n → OptStr F (h.cards.map (·.raw)) n c) := by
  have hk : ¬ AxisKey (b!"TTYPE" ++ showNat i) := by
    rintro (h | ⟨d, h⟩) <;> simp at h
  unfold Table.columnName at e
  split at e
  · rename_i h1
    cases e
    exact ⟨Same.refl _, hs, Or.inr ⟨(get_absent hs hk).1 ((getStr_error (by decide)).1 h1), rfl⟩, fun h => absurd rfl h⟩
  · cases e
  · rename_i h1 name h2
    obtain ⟨g1, g2, _, g3⟩ := get_ok hs (getStr_ok h2)
    split at e
    · rename_i h3
      cases e
      refine ⟨g1, g2, Or.inl (g3 hk), fun _ hax => Or.inr ⟨?_, rfl⟩⟩
      rw [← g1.raws]
      exact (get_absent g2 hax).1 ((getStr_error (by decide)).1 h3)
    · cases e
    · rename_i h3 comment h4
      cases e
      obtain ⟨k1, k2, _, k3⟩ := get_ok g2 (getStr_ok h4)
      refine ⟨g1.trans k1, k2, Or.inl (g3 hk), fun _ hax => Or.inl ?_⟩
      rw [← g1.raws]
      exact k3 hax

end Astro
