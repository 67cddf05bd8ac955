import Verif.Props.View

/-
Property C72: column names that are also keywords.  Also: every table object built by the constructors has the layout C42 and C44 ask for.
-/

namespace Astro

open Spec

/-! ## layout -/

theorem ascii_column_index {F : FloatText} {h h' : Header} {i : Nat} {c : Column} (e : Ascii.column F h i = .ok (h', c)) : c.index = i := by
  unfold Ascii.column at e
  obtain ⟨⟨h1, f⟩, _, e⟩ := bind_ok e
  obtain ⟨⟨h2, st⟩, _, e⟩ := bind_ok e
  obtain ⟨⟨h3, n, cm⟩, _, e⟩ := bind_ok e
  obtain ⟨⟨h4, u⟩, _, e⟩ := bind_ok e
  obtain ⟨⟨h5, sc⟩, _, e⟩ := bind_ok e
  obtain ⟨⟨h6, ze⟩, _, e⟩ := bind_ok e
  cases e; rfl

theorem ascii_columns_index {F : FloatText} : ∀ (n i : Nat) {h h' : Header} {cs : List Column}, Ascii.columns F n i h = .ok (h', cs) →
    ∀ (j : Nat) (c : Column), cs[j]? = some c → c.index = i + j := by
  intro n
  induction n with
  | zero =>
    intro i h h' cs e j c hc
    cases e
    simp at hc
  | succ n ih =>
    intro i h h' cs e j c hc
    simp only [Ascii.columns] at e
    obtain ⟨⟨h1, c1⟩, e1, e⟩ := bind_ok e
    obtain ⟨⟨h2, cs'⟩, e2, e⟩ := bind_ok e
    cases e
    cases j with
    | zero => cases hc; exact ascii_column_index e1
    | succ j => rw [ih (i + 1) e2 j c hc]; omega

theorem bin_column_index {F : FloatText} {h h' : Header} {i st st' : Nat} {c : Column} (e : BinTable.column F h i st = .ok (h', c, st')) : c.index = i := by
  unfold BinTable.column at e
  obtain ⟨⟨h1, f⟩, _, e⟩ := bind_ok e
  obtain ⟨w, _, e⟩ := bind_ok e
  obtain ⟨⟨h3, n, cm⟩, _, e⟩ := bind_ok e
  obtain ⟨⟨h4, u⟩, _, e⟩ := bind_ok e
  obtain ⟨⟨h5, sc⟩, _, e⟩ := bind_ok e
  obtain ⟨⟨h6, ze⟩, _, e⟩ := bind_ok e
  obtain ⟨⟨h7, di⟩, _, e⟩ := bind_ok e
  obtain ⟨⟨h8, dm⟩, _, e⟩ := bind_ok e
  obtain ⟨m, _, e⟩ := bind_ok e
  cases e; rfl

theorem bin_columns_index {F : FloatText} : ∀ (n i st : Nat) {h h' : Header} {cs : List Column}, BinTable.columns F n i st h = .ok (h', cs) →
    ∀ (j : Nat) (c : Column), cs[j]? = some c → c.index = i + j := by
  intro n
  induction n with
  | zero =>
    intro i st h h' cs e j c hc
    cases e
    simp at hc
  | succ n ih =>
    intro i st h h' cs e j c hc
    simp only [BinTable.columns] at e
    obtain ⟨⟨h1, c1, st1⟩, e1, e⟩ := bind_ok e
    obtain ⟨⟨h2, cs'⟩, e2, e⟩ := bind_ok e
    cases e
    cases j with
    | zero => cases hc; exact bin_column_index e1
    | succ j => rw [ih (i + 1) st1 e2 j c hc]; omega

theorem base_data {F : FloatText} {h : Header} {t : Table} (e : Table.base F h = .ok t) : t.data = [] := by
  unfold Table.base at e
  obtain ⟨⟨h1, f⟩, _, e⟩ := bind_ok e
  obtain ⟨⟨h2, st⟩, _, e⟩ := bind_ok e
  obtain ⟨⟨h3, n⟩, _, e⟩ := bind_ok e
  obtain ⟨⟨h4, u⟩, _, e⟩ := bind_ok e
  cases e; rfl

/-- **C42** The hypothesis of the array theorems holds for every table object the constructors can build. -/
theorem C42_layout_of_made (F : FloatText) (h : Header) (buf : Str) (t : Table)
    (hm : Ascii.make F h buf = .ok t ∨ BinTable.make F h buf = .ok t) : Layout t.cols t.data := by
  rcases hm with hm | hm
  · unfold Ascii.make at hm
    obtain ⟨t0, e0, hm⟩ := bind_ok hm
    have hd := base_data e0
    unfold Ascii.setInfo at hm
    obtain ⟨⟨h1, cs⟩, e1, hm⟩ := bind_ok hm
    have hi := ascii_columns_index _ 1 e1
    simp only at hm
    split at hm
    · cases hm
      exact ⟨fun j c hc => by rw [hi j c hc]; omega, fun row hr => by simp only [hd] at hr; cases hr⟩
    · obtain ⟨rows, e2, hm⟩ := bind_ok hm
      obtain ⟨rowLen, e3, hm⟩ := bind_ok hm
      obtain ⟨d, e4, hm⟩ := bind_ok hm
      cases hm
      refine ⟨fun j c hc => by rw [hi j c hc]; omega, fun row hr => ?_⟩
      obtain ⟨k, hk⟩ := List.mem_iff_getElem?.1 hr
      exact (((C36_table _ _ _ _ _).1 e4).2.2 k row hk).1
  · unfold BinTable.make at hm
    obtain ⟨t0, e0, hm⟩ := bind_ok hm
    have hd := base_data e0
    unfold BinTable.setInfo at hm
    obtain ⟨⟨h1, cs⟩, e1, hm⟩ := bind_ok hm
    have hi := bin_columns_index _ 1 0 e1
    simp only at hm
    split at hm
    · cases hm
      exact ⟨fun j c hc => by rw [hi j c hc]; omega, fun row hr => by simp only [hd] at hr; cases hr⟩
    · obtain ⟨rows, e2, hm⟩ := bind_ok hm
      obtain ⟨_, _, hm⟩ := bind_ok hm
      obtain ⟨d, e4, hm⟩ := bind_ok hm
      cases hm
      refine ⟨fun j c hc => by rw [hi j c hc]; omega, fun row hr => ?_⟩
      obtain ⟨k, hk⟩ := List.mem_iff_getElem?.1 hr
      rcases (C38_table _ _ _ _).1 e4 with ⟨_, h0⟩ | ⟨_, _, ws, _, _, _, h0⟩
      · rw [h0] at hr; cases hr
      · exact (h0 k row hk).1

/-! ## C72 -/

theorem declares_fun {F : FloatText} {raws : List Str} {k : Str} {t : Ty} {v w : Val} (h : Declares F raws k t v) (h' : Declares F raws k t w) :
    v = w := by
  obtain ⟨i, r, ⟨a1, a2, a3⟩, b, c⟩ := h
  obtain ⟨i', r', ⟨a1', a2', a3'⟩, b', c'⟩ := h'
  have hi : i = i' := by
    rcases Nat.lt_trichotomy i i' with h | h | h
    · exact absurd a2' (a3 i' a1' h)
    · exact h
    · exact absurd a2 (a3' i a1 h)
  subst hi
  rw [b] at b'; cases b'
  rw [c] at c'; cases c'; rfl

/-- The card the keyword stands for has been read, and not as a string. -/
def Frozen (h : Header) (k : Str) : Prop :=
  ∃ (i : Nat) (c : Card) (v : Val), h.keyIndex k = some i ∧ h.cards[i]? = some c ∧ c.cache = some v ∧ v.ty ≠ .string

theorem frozen_of_badGet {F : FloatText} {h : Header} {k : Str} (e : (h.valueOf F k .string).2 = .error .badGet) : Frozen h k := by
  unfold Header.valueOf at e
  cases hk : h.keyIndex k with
  | none => rw [hk] at e; cases e
  | some i =>
    rw [hk] at e
    simp only [Header.cardValue] at e
    cases hc : h.cards[i]? with
    | none => rw [hc] at e; cases e
    | some c =>
      rw [hc] at e
      simp only [Card.value] at e
      cases hv : c.cache with
      | some v =>
        rw [hv] at e
        simp only at e
        by_cases ht : v.ty = .string
        · rw [if_pos ht] at e; cases e
        · exact ⟨i, c, v, hk, hc, hv, ht⟩
      | none =>
        rw [hv] at e
        simp only at e
        exfalso
        cases hvi : Card.valueImp F c.raw .string with
        | ok v => rw [hvi] at e; cases e
        | error er =>
          rw [hvi] at e
          cases e
          unfold Card.valueImp at hvi
          cases hx : Policy.extractValue c.raw with
          | error e' =>
            rw [hx] at hvi
            cases hvi
            unfold Policy.extractValue substr at hx
            split at hx <;> cases hx
          | ok x =>
            rw [hx] at hvi
            simp only [Except.bind, bind] at hvi
            generalize trim x = y at hvi
            cases y with
            | nil => cases hvi
            | cons b r =>
              simp only at hvi
              split at hvi
              · split at hvi <;> cases hvi
              · cases hvi

/-- Reading values only adds to the caches. -/
def Keeps (h h' : Header) : Prop :=
  h'.keyIndex = h.keyIndex ∧ ∀ (i : Nat) (c : Card) (v : Val), h.cards[i]? = some c → c.cache = some v → ∃ c' : Card, h'.cards[i]? = some c' ∧ c'.cache = some v

theorem Keeps.refl (h : Header) : Keeps h h := ⟨rfl, fun _ c _ h1 h2 => ⟨c, h1, h2⟩⟩

theorem Keeps.trans {a b c : Header} (h1 : Keeps a b) (h2 : Keeps b c) : Keeps a c := by
  refine ⟨h2.1.trans h1.1, fun i x v e1 e2 => ?_⟩
  obtain ⟨y, e3, e4⟩ := h1.2 i x v e1 e2
  exact h2.2 i y v e3 e4

theorem Keeps.frozen {h h' : Header} {k : Str} (hk : Keeps h h') (hf : Frozen h k) : Frozen h' k := by
  obtain ⟨i, c, v, h1, h2, h3, h4⟩ := hf
  obtain ⟨c', g1, g2⟩ := hk.2 i c v h2 h3
  exact ⟨i, c', v, by rw [hk.1]; exact h1, g1, g2, h4⟩

theorem get_keeps {F : FloatText} {h h' : Header} {k : Str} {t : Ty} {v : Val} (e : h.get F k t = .ok (h', v)) :
    Keeps h h' ∧ ∃ (i : Nat) (c : Card), h'.keyIndex k = some i ∧ h'.cards[i]? = some c ∧ c.cache = some v ∧ v.ty = t := by
  unfold Header.get Header.valueOf at e
  cases hk : h.keyIndex k with
  | none => rw [hk] at e; cases e
  | some i =>
    rw [hk] at e
    simp only [Header.cardValue] at e
    cases hc : h.cards[i]? with
    | none => rw [hc] at e; cases e
    | some c =>
      rw [hc] at e
      simp only [Card.value] at e
      have hi : i < h.cards.length := (List.getElem?_eq_some_iff.1 hc).1
      cases hv : c.cache with
      | some v =>
        rw [hv] at e
        simp only at e
        by_cases ht : v.ty = t
        · rw [if_pos ht] at e
          cases e
          refine ⟨⟨rfl, fun j c' v' h1 h2 => ?_⟩, i, c, hk, by simp [hi], hv, ht⟩
          simp only
          by_cases hj : j = i
          · subst hj
            rw [hc] at h1; cases h1
            exact ⟨c, by simp [hi], h2⟩
          · exact ⟨c', by rw [List.getElem?_set_ne (Ne.symm hj)]; exact h1, h2⟩
        · rw [if_neg ht] at e; cases e
      | none =>
        rw [hv] at e
        simp only at e
        cases hvi : Card.valueImp F c.raw t with
        | error er => rw [hvi] at e; cases e
        | ok w =>
          rw [hvi] at e
          cases e
          refine ⟨⟨rfl, fun j c' v' h1 h2 => ?_⟩, i, _, hk, by simp [hi]; rfl, rfl, valueImp_ty hvi⟩
          simp only
          by_cases hj : j = i
          · subst hj
            rw [hc] at h1; cases h1
            rw [hv] at h2; cases h2
          · exact ⟨c', by rw [List.getElem?_set_ne (Ne.symm hj)]; exact h1, h2⟩

theorem getStr_frozen {F : FloatText} {h : Header} {k : Str} (hf : Frozen h k) : h.getStr F k = .error .badGet := by
  obtain ⟨i, c, v, h1, h2, h3, h4⟩ := hf
  unfold Header.getStr Header.get Header.valueOf
  rw [h1]
  simp only [Header.cardValue, h2, Card.value, h3, if_neg h4]

theorem optional_keeps {F : FloatText} {h h' : Header} {k : Str} {o : Option Str} (e : h.optional (h.getStr F k) = .ok (h', o)) : Keeps h h' := by
  unfold Header.optional at e
  split at e
  · rename_i h2; cases e; exact (get_keeps (getStr_ok h2)).1
  · cases e; exact Keeps.refl _
  · cases e

theorem optionalDouble_keeps {F : FloatText} {h h' : Header} {k : Str} {o : Option (BitVec 64)} (e : h.optional (h.getDouble F k) = .ok (h', o)) :
    Keeps h h' := by
  unfold Header.optional at e
  split at e
  · rename_i h2; cases e; exact (get_keeps (getDouble_ok h2)).1
  · cases e; exact Keeps.refl _
  · cases e

/-- The name of a column is never a frozen keyword. -/
theorem columnName_keeps {F : FloatText} {h h' : Header} {i : Nat} {n c : Str} (hs : Sound F h)
    (e : Table.columnName F h i = .ok (h', n, c)) :
    Keeps h h' ∧ ∀ m, Declares F (h.cards.map (·.raw)) (b!"TTYPE" ++ showNat i) .string (.string m) → ¬ Frozen h m := by
  have hk : ¬ AxisKey (b!"TTYPE" ++ showNat i) := by
    rintro (h | ⟨d, h⟩) <;> simp at h
  unfold Table.columnName at e
  split at e
  · rename_i h1
    cases e
    refine ⟨Keeps.refl _, ?_⟩
    rintro m ⟨j, r, hl, _, _⟩
    exact absurd ((get_absent hs hk).1 ((getStr_error (by decide)).1 h1)) (lastWith_not_absent hl)
  · cases e
  · rename_i h1 name h2
    obtain ⟨g1, _⟩ := get_keeps (getStr_ok h2)
    obtain ⟨_, _, _, g3⟩ := get_ok hs (getStr_ok h2)
    have hname : ∀ m, Declares F (h.cards.map (·.raw)) (b!"TTYPE" ++ showNat i) .string (.string m) → m = name := by
      intro m hm
      have := declares_fun hm (g3 hk)
      injection this
    split at e
    · rename_i h3
      cases e
      refine ⟨g1, fun m hm hf => ?_⟩
      rw [hname m hm] at hf
      rw [getStr_frozen (g1.frozen hf)] at h3
      cases h3
    · cases e
    · rename_i h3 comment h4
      cases e
      refine ⟨g1.trans (get_keeps (getStr_ok h4)).1, fun m hm hf => ?_⟩
      rw [hname m hm] at hf
      rw [getStr_frozen (g1.frozen hf)] at h4
      cases h4

theorem ascii_column_keeps {F : FloatText} {h h' : Header} {i : Nat} {c : Column} (hs : Sound F h) (e : Ascii.column F h i = .ok (h', c)) :
    Keeps h h' ∧ ∀ m, Declares F (h.cards.map (·.raw)) (b!"TTYPE" ++ showNat i) .string (.string m) → ¬ Frozen h m := by
  unfold Ascii.column at e
  obtain ⟨⟨h1, f⟩, e1, e⟩ := bind_ok e
  obtain ⟨⟨h2, st⟩, e2, e⟩ := bind_ok e
  obtain ⟨⟨h3, n, cm⟩, e3, e⟩ := bind_ok e
  obtain ⟨⟨h4, u⟩, e4, e⟩ := bind_ok e
  obtain ⟨⟨h5, sc⟩, e5, e⟩ := bind_ok e
  obtain ⟨⟨h6, ze⟩, e6, e⟩ := bind_ok e
  cases e
  obtain ⟨v, e2, _⟩ := getSize_ok e2
  have k2 := (get_keeps (getStr_ok e1)).1.trans (get_keeps e2).1
  obtain ⟨s1, d1, _⟩ := get_ok hs (getStr_ok e1)
  obtain ⟨s2, d2, _⟩ := get_ok d1 e2
  obtain ⟨k3, hn⟩ := columnName_keeps d2 e3
  refine ⟨(((k2.trans k3).trans (optional_keeps e4)).trans (optionalDouble_keeps e5)).trans (optionalDouble_keeps e6), ?_⟩
  intro m hm hf
  exact hn m (by rw [(s1.trans s2).raws]; exact hm) (k2.frozen hf)

theorem bin_column_keeps {F : FloatText} {h h' : Header} {i st st' : Nat} {c : Column} (hs : Sound F h)
    (e : BinTable.column F h i st = .ok (h', c, st')) :
    Keeps h h' ∧ ∀ m, Declares F (h.cards.map (·.raw)) (b!"TTYPE" ++ showNat i) .string (.string m) → ¬ Frozen h m := by
  unfold BinTable.column at e
  obtain ⟨⟨h1, f⟩, e1, e⟩ := bind_ok e
  obtain ⟨w, _, e⟩ := bind_ok e
  obtain ⟨⟨h3, n, cm⟩, e3, e⟩ := bind_ok e
  obtain ⟨⟨h4, u⟩, e4, e⟩ := bind_ok e
  obtain ⟨⟨h5, sc⟩, e5, e⟩ := bind_ok e
  obtain ⟨⟨h6, ze⟩, e6, e⟩ := bind_ok e
  obtain ⟨⟨h7, di⟩, e7, e⟩ := bind_ok e
  obtain ⟨⟨h8, dm⟩, e8, e⟩ := bind_ok e
  obtain ⟨_, _, e⟩ := bind_ok e
  cases e
  have k1 := (get_keeps (getStr_ok e1)).1
  obtain ⟨s1, d1, _⟩ := get_ok hs (getStr_ok e1)
  obtain ⟨k3, hn⟩ := columnName_keeps d1 e3
  refine ⟨(((((k1.trans k3).trans (optional_keeps e4)).trans (optionalDouble_keeps e5)).trans (optionalDouble_keeps e6)).trans
    (optional_keeps e7)).trans (optional_keeps e8), ?_⟩
  intro m hm hf
  exact hn m (by rw [s1.raws]; exact hm) (k1.frozen hf)

theorem ascii_columns_frozen {F : FloatText} : ∀ (n i : Nat) {h h' : Header} {cs : List Column}, Sound F h →
    Ascii.columns F n i h = .ok (h', cs) → ∀ j m, j < n →
      Declares F (h.cards.map (·.raw)) (b!"TTYPE" ++ showNat (i + j)) .string (.string m) → ¬ Frozen h m := by
  intro n
  induction n with
  | zero => intro i h h' cs _ _ j m hj; omega
  | succ n ih =>
    intro i h h' cs hs e j m hj hd
    unfold Ascii.columns at e
    obtain ⟨⟨h1, c1⟩, e1, e⟩ := bind_ok e
    obtain ⟨⟨h2, cs'⟩, e2, e⟩ := bind_ok e
    obtain ⟨k1, hn⟩ := ascii_column_keeps hs e1
    obtain ⟨s1, d1, _⟩ := ascii_column_ok hs e1
    cases j with
    | zero => exact hn m hd
    | succ j =>
      intro hf
      refine ih (i + 1) d1 e2 j m (by omega) ?_ (k1.frozen hf)
      rw [s1.raws, show i + 1 + j = i + (j + 1) by omega]
      exact hd

theorem bin_columns_frozen {F : FloatText} : ∀ (n i st : Nat) {h h' : Header} {cs : List Column}, Sound F h →
    BinTable.columns F n i st h = .ok (h', cs) → ∀ j m, j < n →
      Declares F (h.cards.map (·.raw)) (b!"TTYPE" ++ showNat (i + j)) .string (.string m) → ¬ Frozen h m := by
  intro n
  induction n with
  | zero => intro i st h h' cs _ _ j m hj; omega
  | succ n ih =>
    intro i st h h' cs hs e j m hj hd
    unfold BinTable.columns at e
    obtain ⟨⟨h1, c1, st1⟩, e1, e⟩ := bind_ok e
    obtain ⟨⟨h2, cs'⟩, e2, e⟩ := bind_ok e
    obtain ⟨k1, hn⟩ := bin_column_keeps hs e1
    obtain ⟨s1, d1, _⟩ := bin_column_ok hs e1
    cases j with
    | zero => exact hn m hd
    | succ j =>
      intro hf
      refine ih (i + 1) st1 d1 e2 j m (by omega) ?_ (k1.frozen hf)
      rw [s1.raws, show i + 1 + j = i + (j + 1) by omega]
      exact hd

/-- The keywords whose values have been read, with another type than string, before the columns are looked at. -/
def NumericKey (naxes : Nat) (k : Str) : Prop :=
  k = b!"BITPIX" ∨ k = b!"NAXIS" ∨ (∃ j d, 1 ≤ j ∧ j ≤ naxes ∧ IsNat d j ∧ k = b!"NAXIS" ++ d) ∨
  k = b!"GCOUNT" ∨ k = b!"PCOUNT" ∨ k = b!"TFIELDS"

theorem base_frozen {F : FloatText} {fuel : Nat} {s s' : Stream} {h : Header} (hg : s.good = true)
    (e : Header.readHeader F fuel Header.empty s = some (.ok (h, s'))) {t : Table} (hb : Table.base F h = .ok t) {k : Str}
    (hk : NumericKey h.naxis.length k) : Frozen t.header k := by
  unfold Table.base at hb
  obtain ⟨⟨h1, g⟩, e1, hb⟩ := bind_ok hb
  obtain ⟨⟨h2, p⟩, e2, hb⟩ := bind_ok hb
  obtain ⟨⟨h3, x⟩, e3, hb⟩ := bind_ok hb
  obtain ⟨⟨h4, n⟩, e4, hb⟩ := bind_ok hb
  cases hb
  obtain ⟨v4, e4, _⟩ := getSize_ok e4
  obtain ⟨k1, i1, c1, a1, b1, c1', t1⟩ := get_keeps (getInt_ok e1)
  obtain ⟨k2, i2, c2, a2, b2, c2', t2⟩ := get_keeps (getInt_ok e2)
  obtain ⟨k3, _⟩ := get_keeps (getStr_ok e3)
  obtain ⟨k4, i4, c4, a4, b4, c4', t4⟩ := get_keeps e4
  have hall := ((k1.trans k2).trans k3).trans k4
  obtain ⟨f1, f2, f3, _⟩ := C71_cached_types F fuel s s' h hg e .string
  rcases hk with rfl | rfl | ⟨j, d, hj, hj', hd, rfl⟩ | rfl | rfl | rfl
  · exact hall.frozen (frozen_of_badGet (f1 (by decide)))
  · exact hall.frozen (frozen_of_badGet (f2 (by decide)))
  · exact hall.frozen (frozen_of_badGet (f3 (by decide) j d hj hj' hd))
  · exact ((k2.trans k3).trans k4).frozen ⟨i1, c1, _, a1, b1, c1', by rw [t1]; decide⟩
  · exact (k3.trans k4).frozen ⟨i2, c2, _, a2, b2, c2', by rw [t2]; decide⟩
  · exact ⟨i4, c4, _, a4, b4, c4', by rw [t4]; decide⟩

/-- **C72** A table whose header gives some column the name of one of the structural keywords BITPIX, NAXIS, NAXISn, GCOUNT, PCOUNT or TFIELDS
can never be opened: the constructor asks for that keyword as a string and fails. -/
theorem C72_keyword_as_column_name (F : FloatText) (fuel : Nat) (s s' : Stream) (h : Header) (hg : s.good = true)
    (e : Header.readHeader F fuel Header.empty s = some (.ok (h, s'))) (v : BitVec 64)
    (hv : Declares F (h.cards.map (·.raw)) b!"TFIELDS" .sizeT (.sizeT v)) (i : Nat) (h1 : 1 ≤ i) (hi : i ≤ v.toNat) (name : Str)
    (hn : Declares F (h.cards.map (·.raw)) (b!"TTYPE" ++ showNat i) .string (.string name)) (hk : NumericKey h.naxis.length name)
    (buf : Str) (t : Table) : Ascii.make F h buf ≠ .ok t ∧ BinTable.make F h buf ≠ .ok t := by
  have hs := sound_of_read hg e
  constructor
  · intro hm
    unfold Ascii.make at hm
    obtain ⟨t0, e0, hm⟩ := bind_ok hm
    obtain ⟨s0, d0, ⟨w, hw, hf⟩, _⟩ := base_ok hs e0
    have hvw : Val.sizeT v = Val.sizeT w := declares_fun hv hf
    cases hvw
    unfold Ascii.setInfo at hm
    obtain ⟨⟨h1, cs⟩, e1, hm⟩ := bind_ok hm
    refine ascii_columns_frozen _ 1 d0 e1 (i - 1) name (by omega) ?_ (base_frozen hg e e0 hk)
    rw [s0.raws, show 1 + (i - 1) = i by omega]
    exact hn
  · intro hm
    unfold BinTable.make at hm
    obtain ⟨t0, e0, hm⟩ := bind_ok hm
    obtain ⟨s0, d0, ⟨w, hw, hf⟩, _⟩ := base_ok hs e0
    have hvw : Val.sizeT v = Val.sizeT w := declares_fun hv hf
    cases hvw
    unfold BinTable.setInfo at hm
    obtain ⟨⟨h1, cs⟩, e1, hm⟩ := bind_ok hm
    refine bin_columns_frozen _ 1 0 d0 e1 (i - 1) name (by omega) ?_ (base_frozen hg e e0 hk)
    rw [s0.raws, show 1 + (i - 1) = i by omega]
    exact hn

/-- The header of an ASCII table with one column. -/
def exTableCards (ttype : Str) : List Str :=
  [b!"XTENSION= 'TABLE   '", b!"BITPIX  =                    8", b!"NAXIS   =                    2", b!"NAXIS1  =                    3",
   b!"NAXIS2  =                    2", b!"PCOUNT  =                    0", b!"GCOUNT  =                    1", b!"TFIELDS =                    1",
   b!"EXTNAME = 'T       '", b!"TBCOL1  =                    1", b!"TFORM1  = 'I3      '", b!"TTYPE1  = '" ++ ttype ++ b!"'", b!"END"].map
    fun s => s ++ spaces (80 - s.length)

/-- The texts of its two cells, if it can be opened. -/
def exOpen (ttype : Str) : Option (Res (List (List Str))) :=
  match Header.readHeader exNoFloats 14 Header.empty (Stream.openRead (exTableCards ttype).flatten) with
  | some (.ok (h, _)) =>
    match Ascii.make exNoFloats h b!" 12  7" with
    | .ok t => some (.ok t.data)
    | .error e => some (.error e)
  | some (.error e) => some (.error e)
  | none => none

/-- The same table with a column called COUNT and one called PCOUNT. -/
example : exOpen b!"COUNT" = some (.ok [[b!"12"], [b!"7"]]) ∧ exOpen b!"PCOUNT" = some (.error .badGet) := by decide +kernel

end Astro
