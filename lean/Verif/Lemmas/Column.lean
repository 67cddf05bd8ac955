import Mathlib.Data.List.Forall2
import Verif.Spec.Column
import Verif.Props.View
import Verif.Props.TableData
import Verif.Props.TableNames

/-
Lemmas about column metadata (Props/Column): repeated look-ups in a header, and uses of columns that differ only in descriptive metadata.
-/

namespace Astro

open Spec

/-! ### repeated look-ups -/

/-- A later state of the same header: same cards, 80 bytes each; values once cached stay. -/
structure Retains (h h' : Header) : Prop where
  index : h'.keyIndex = h.keyIndex
  raws : h'.cards.map (·.raw) = h.cards.map (·.raw)
  cached : ∀ (i : Nat) (c : Card) (v : Val), h.cards[i]? = some c → c.cache = some v → ∃ c', h'.cards[i]? = some c' ∧ c'.cache = some v

theorem Retains.refl (h : Header) : Retains h h := ⟨rfl, rfl, fun _ c _ hc hv => ⟨c, hc, hv⟩⟩

theorem Retains.trans {h h' h'' : Header} (a : Retains h h') (b : Retains h' h'') : Retains h h'' := by
  refine ⟨b.index.trans a.index, b.raws.trans a.raws, fun i c v hc hv => ?_⟩
  obtain ⟨c', hc', hv'⟩ := a.cached i c v hc hv
  exact b.cached i c' v hc' hv'

/-- All cards have 80 bytes. -/
def Wide (h : Header) : Prop := ∀ r ∈ h.cards.map (·.raw), r.length = 80

theorem Wide.keeps {h h' : Header} (hw : Wide h) (k : Retains h h') : Wide h' := by
  unfold Wide; rw [k.raws]; exact hw

theorem cached_value {F : FloatText} {h : Header} {k : Str} {t : Ty} {i : Nat} {c : Card} {v : Val} (hk : h.keyIndex k = some i) (hc : h.cards[i]? = some c)
    (hv : c.cache = some v) (ht : v.ty = t) : h.get F k t = .ok (h, v) := by
  unfold Header.get Header.valueOf
  rw [hk]
  simp only
  unfold Header.cardValue
  rw [hc]
  simp only
  unfold Card.value
  rw [hv]
  simp only
  rw [if_pos ht]
  simp only
  obtain ⟨hi, hci⟩ := List.getElem?_eq_some_iff.1 hc
  rw [← hci, List.set_getElem_self]

/-- A look-up that succeeded succeeds again, with the same value, and changes nothing any more. -/
theorem get_again {F : FloatText} {h h' : Header} {k : Str} {t : Ty} {v : Val} (e : h.get F k t = .ok (h', v)) :
    Retains h h' ∧ ∀ h'', Retains h' h'' → h''.get F k t = .ok (h'', v) := by
  unfold Header.get Header.valueOf at e
  cases hk : h.keyIndex k with
  | none => rw [hk] at e; cases e
  | some i =>
    rw [hk] at e
    simp only at e
    unfold Header.cardValue at e
    cases hc : h.cards[i]? with
    | none => rw [hc] at e; cases e
    | some c =>
      rw [hc] at e
      obtain ⟨hi, hci⟩ := List.getElem?_eq_some_iff.1 hc
      simp only at e
      unfold Card.value at e
      cases hv : c.cache with
      | some w =>
        rw [hv] at e
        simp only at e
        by_cases hw : w.ty = t
        · rw [if_pos hw] at e
          simp only at e
          have he := Except.ok.inj e
          obtain ⟨h1, h2⟩ := Prod.mk.inj he
          rw [← hci, List.set_getElem_self] at h1
          subst h1; subst h2
          refine ⟨Retains.refl _, fun h'' hh => ?_⟩
          obtain ⟨c', hc', hv'⟩ := hh.cached i c w hc hv
          exact cached_value (by rw [hh.index]; exact hk) hc' hv' hw
        · rw [if_neg hw] at e; cases e
      | none =>
        rw [hv] at e
        simp only at e
        cases hvi : Card.valueImp F c.raw t with
        | error er => rw [hvi] at e; cases e
        | ok w =>
          rw [hvi] at e
          simp only at e
          have he := Except.ok.inj e
          obtain ⟨h1, h2⟩ := Prod.mk.inj he
          subst h2
          have hty : w.ty = t := valueImp_ty hvi
          have hget : h'.cards[i]? = some { c with cache := some w } := by
            rw [← h1]; simp [hi]
          refine ⟨⟨by rw [← h1], ?_, ?_⟩, fun h'' hh => ?_⟩
          · rw [← h1]
            simp only
            rw [List.map_set]
            apply List.ext_getElem?
            intro j
            rw [List.getElem?_set]
            by_cases hj : i = j
            · subst hj; simp [hi, ← hci]
            · simp [hj]
          · intro j c' v' hc' hv'
            by_cases hj : i = j
            · subst hj; rw [hc] at hc'; cases hc'; rw [hv] at hv'; cases hv'
            · refine ⟨c', ?_, hv'⟩
              rw [← h1]; simp [hj, hc']
          · obtain ⟨c', hc', hv'⟩ := hh.cached i _ w hget rfl
            exact cached_value (by rw [hh.index, ← h1]; exact hk) hc' hv' hty

/-- A keyword that was not found is not found later. -/
theorem get_missing {F : FloatText} {h : Header} {k : Str} {t : Ty} (hw : Wide h) (e : h.get F k t = .error .outOfRange) :
    ∀ h'', Retains h h'' → h''.get F k t = .error .outOfRange := by
  intro h'' hh
  have hk : h.keyIndex k = none := by
    cases hk : h.keyIndex k with
    | none => rfl
    | some i =>
      exfalso
      unfold Header.get Header.valueOf at e
      rw [hk] at e
      simp only at e
      unfold Header.cardValue at e
      cases hc : h.cards[i]? with
      | none => rw [hc] at e; cases e
      | some c =>
        rw [hc] at e
        simp only at e
        unfold Card.value at e
        cases hv : c.cache with
        | some w =>
          rw [hv] at e
          simp only at e
          by_cases hw : w.ty = t
          · rw [if_pos hw] at e; cases e
          · rw [if_neg hw] at e; cases e
        | none =>
          rw [hv] at e
          simp only at e
          cases hvi : Card.valueImp F c.raw t with
          | ok w => rw [hvi] at e; cases e
          | error er =>
            rw [hvi] at e
            simp only [Except.error.injEq] at e
            subst e
            exact valueImp_not_oor F _ t (by rw [hw _ (List.mem_map_of_mem (List.mem_of_getElem? hc))]; omega) hvi
  unfold Header.get Header.valueOf
  rw [hh.index, hk]

theorem getStr_again {F : FloatText} {h h' : Header} {k s : Str} (e : h.getStr F k = .ok (h', s)) :
    Retains h h' ∧ ∀ h'', Retains h' h'' → h''.getStr F k = .ok (h'', s) := by
  obtain ⟨a, b⟩ := get_again (getStr_ok e)
  exact ⟨a, fun h'' hh => by unfold Header.getStr; rw [b h'' hh]⟩

theorem getSize_again {F : FloatText} {h h' : Header} {k : Str} {n : Nat} (e : h.getSize F k = .ok (h', n)) :
    Retains h h' ∧ ∀ h'', Retains h' h'' → h''.getSize F k = .ok (h'', n) := by
  obtain ⟨v, e, hv⟩ := getSize_ok e
  obtain ⟨a, b⟩ := get_again e
  exact ⟨a, fun h'' hh => by unfold Header.getSize; rw [b h'' hh, ← hv]⟩

theorem getDouble_again {F : FloatText} {h h' : Header} {k : Str} {v : BitVec 64} (e : h.getDouble F k = .ok (h', v)) :
    Retains h h' ∧ ∀ h'', Retains h' h'' → h''.getDouble F k = .ok (h'', v) := by
  obtain ⟨a, b⟩ := get_again (getDouble_ok e)
  exact ⟨a, fun h'' hh => by unfold Header.getDouble; rw [b h'' hh]⟩

theorem optStr_again {F : FloatText} {h h' : Header} {k : Str} {o : Option Str} (hw : Wide h) (e : h.optional (h.getStr F k) = .ok (h', o)) :
    Retains h h' ∧ ∀ h'', Retains h' h'' → h''.optional (h''.getStr F k) = .ok (h'', o) := by
  unfold Header.optional at e
  split at e
  · rename_i h1 a e1
    cases e
    obtain ⟨x, y⟩ := getStr_again e1
    exact ⟨x, fun h'' hh => by unfold Header.optional; rw [y h'' hh]⟩
  · rename_i e1
    cases e
    refine ⟨Retains.refl _, fun h'' hh => ?_⟩
    have := get_missing hw ((getStr_error (by decide)).1 e1) h'' hh
    unfold Header.optional
    rw [(getStr_error (by decide)).2 this]
  · cases e

theorem optDouble_again {F : FloatText} {h h' : Header} {k : Str} {o : Option (BitVec 64)} (hw : Wide h) (e : h.optional (h.getDouble F k) = .ok (h', o)) :
    Retains h h' ∧ ∀ h'', Retains h' h'' → h''.optional (h''.getDouble F k) = .ok (h'', o) := by
  unfold Header.optional at e
  split at e
  · rename_i h1 a e1
    cases e
    obtain ⟨x, y⟩ := getDouble_again e1
    exact ⟨x, fun h'' hh => by unfold Header.optional; rw [y h'' hh]⟩
  · rename_i e1
    cases e
    refine ⟨Retains.refl _, fun h'' hh => ?_⟩
    have := get_missing hw ((getDouble_error (by decide)).1 e1) h'' hh
    unfold Header.optional
    rw [(getDouble_error (by decide)).2 this]
  · cases e

theorem columnName_again {F : FloatText} {h h' : Header} {i : Nat} {n c : Str} (hw : Wide h) (e : Table.columnName F h i = .ok (h', n, c)) :
    Retains h h' ∧ ∀ h'', Retains h' h'' → Table.columnName F h'' i = .ok (h'', n, c) := by
  unfold Table.columnName at e
  split at e
  · rename_i e1
    cases e
    refine ⟨Retains.refl _, fun h'' hh => ?_⟩
    have := get_missing hw ((getStr_error (by decide)).1 e1) h'' hh
    unfold Table.columnName
    rw [(getStr_error (by decide)).2 this]
  · cases e
  · rename_i h1 name e1
    obtain ⟨k1, r1⟩ := getStr_again e1
    split at e
    · rename_i e2
      cases e
      refine ⟨k1, fun h'' hh => ?_⟩
      have := get_missing (hw.keeps k1) ((getStr_error (by decide)).1 e2) h'' hh
      unfold Table.columnName
      rw [r1 h'' hh]
      simp only
      rw [(getStr_error (by decide)).2 this]
    · cases e
    · rename_i h2 comment e2
      cases e
      obtain ⟨k2, r2⟩ := getStr_again e2
      refine ⟨k1.trans k2, fun h'' hh => ?_⟩
      unfold Table.columnName
      rw [r1 h'' (k2.trans hh)]
      simp only
      rw [r2 h'' hh]

theorem ascii_column_again {F : FloatText} {h h' : Header} {i : Nat} {c : Column} (hw : Wide h) (e : Ascii.column F h i = .ok (h', c)) :
    Retains h h' ∧ ∀ h'', Retains h' h'' → Ascii.column F h'' i = .ok (h'', c) := by
  unfold Ascii.column at e
  obtain ⟨⟨h1, f⟩, e1, e⟩ := bind_ok e
  obtain ⟨⟨h2, st⟩, e2, e⟩ := bind_ok e
  obtain ⟨⟨h3, n, cm⟩, e3, e⟩ := bind_ok e
  obtain ⟨⟨h4, u⟩, e4, e⟩ := bind_ok e
  obtain ⟨⟨h5, sc⟩, e5, e⟩ := bind_ok e
  obtain ⟨⟨h6, z⟩, e6, e⟩ := bind_ok e
  simp only at e1 e2 e3 e4 e5 e6 e
  cases e
  obtain ⟨k1, r1⟩ := getStr_again e1
  obtain ⟨k2, r2⟩ := getSize_again e2
  have t2 := k1.trans k2
  obtain ⟨k3, r3⟩ := columnName_again (hw.keeps t2) e3
  have t3 := t2.trans k3
  obtain ⟨k4, r4⟩ := optStr_again (hw.keeps t3) e4
  have t4 := t3.trans k4
  obtain ⟨k5, r5⟩ := optDouble_again (hw.keeps t4) e5
  have t5 := t4.trans k5
  obtain ⟨k6, r6⟩ := optDouble_again (hw.keeps t5) e6
  refine ⟨t5.trans k6, fun h'' g6 => ?_⟩
  have g5 := k6.trans g6
  have g4 := k5.trans g5
  have g3 := k4.trans g4
  have g2 := k3.trans g3
  have g1 := k2.trans g2
  simp only [Ascii.column, r1 h'' g1, r2 h'' g2, r3 h'' g3, r4 h'' g4, r5 h'' g5, r6 h'' g6, bind, Except.bind, pure, Except.pure]

theorem bin_column_again {F : FloatText} {h h' : Header} {i s s' : Nat} {c : Column} (hw : Wide h) (e : BinTable.column F h i s = .ok (h', c, s')) :
    Retains h h' ∧ ∀ h'', Retains h' h'' → BinTable.column F h'' i s = .ok (h'', c, s') := by
  unfold BinTable.column at e
  obtain ⟨⟨h1, f⟩, e1, e⟩ := bind_ok e
  obtain ⟨w, e2, e⟩ := bind_ok e
  obtain ⟨⟨h3, n, cm⟩, e3, e⟩ := bind_ok e
  obtain ⟨⟨h4, u⟩, e4, e⟩ := bind_ok e
  obtain ⟨⟨h5, sc⟩, e5, e⟩ := bind_ok e
  obtain ⟨⟨h6, z⟩, e6, e⟩ := bind_ok e
  obtain ⟨⟨h7, dp⟩, e7, e⟩ := bind_ok e
  obtain ⟨⟨h8, dm⟩, e8, e⟩ := bind_ok e
  obtain ⟨cnt, e9, e⟩ := bind_ok e
  cases e
  obtain ⟨k1, r1⟩ := getStr_again e1
  obtain ⟨k3, r3⟩ := columnName_again (hw.keeps k1) e3
  have t3 := k1.trans k3
  obtain ⟨k4, r4⟩ := optStr_again (hw.keeps t3) e4
  have t4 := t3.trans k4
  obtain ⟨k5, r5⟩ := optDouble_again (hw.keeps t4) e5
  have t5 := t4.trans k5
  obtain ⟨k6, r6⟩ := optDouble_again (hw.keeps t5) e6
  have t6 := t5.trans k6
  obtain ⟨k7, r7⟩ := optStr_again (hw.keeps t6) e7
  have t7 := t6.trans k7
  obtain ⟨k8, r8⟩ := optStr_again (hw.keeps t7) e8
  refine ⟨t7.trans k8, fun h'' g8 => ?_⟩
  have g7 := k8.trans g8
  have g6 := k7.trans g7
  have g5 := k6.trans g6
  have g4 := k5.trans g5
  have g3 := k4.trans g4
  have g1 := k3.trans g3
  simp only [BinTable.column, r1 h'' g1, e2, r3 h'' g3, r4 h'' g4, r5 h'' g5, r6 h'' g6, r7 h'' g7, r8 h'' g8, e9, bind, Except.bind, pure, Except.pure]

theorem ascii_columns_again {F : FloatText} : ∀ (n i : Nat) {h h' : Header} {cs : List Column}, Wide h → Ascii.columns F n i h = .ok (h', cs) →
    Retains h h' ∧ ∀ h'', Retains h' h'' → Ascii.columns F n i h'' = .ok (h'', cs) := by
  intro n
  induction n with
  | zero => intro i h h' cs _ e; cases e; exact ⟨Retains.refl _, fun _ _ => rfl⟩
  | succ n ih =>
    intro i h h' cs hw e
    unfold Ascii.columns at e
    obtain ⟨⟨h1, c⟩, e1, e⟩ := bind_ok e
    obtain ⟨⟨h2, cs'⟩, e2, e⟩ := bind_ok e
    simp only at e1 e2 e
    cases e
    obtain ⟨k1, r1⟩ := ascii_column_again hw e1
    obtain ⟨k2, r2⟩ := ih (i + 1) (hw.keeps k1) e2
    refine ⟨k1.trans k2, fun h'' hh => ?_⟩
    simp only [Ascii.columns, r1 h'' (k2.trans hh), r2 h'' hh, bind, Except.bind, pure, Except.pure]

theorem bin_columns_again {F : FloatText} : ∀ (n i s : Nat) {h h' : Header} {cs : List Column}, Wide h → BinTable.columns F n i s h = .ok (h', cs) →
    Retains h h' ∧ ∀ h'', Retains h' h'' → BinTable.columns F n i s h'' = .ok (h'', cs) := by
  intro n
  induction n with
  | zero => intro i s h h' cs _ e; cases e; exact ⟨Retains.refl _, fun _ _ => rfl⟩
  | succ n ih =>
    intro i s h h' cs hw e
    unfold BinTable.columns at e
    obtain ⟨⟨h1, c, s'⟩, e1, e⟩ := bind_ok e
    obtain ⟨⟨h2, cs'⟩, e2, e⟩ := bind_ok e
    simp only at e1 e2 e
    cases e
    obtain ⟨k1, r1⟩ := bin_column_again hw e1
    obtain ⟨k2, r2⟩ := ih (i + 1) s' (hw.keeps k1) e2
    refine ⟨k1.trans k2, fun h'' hh => ?_⟩
    simp only [BinTable.columns, r1 h'' (k2.trans hh), r2 h'' hh, bind, Except.bind, pure, Except.pure]

/-! ### metadata that do not matter -/

/-- Tables that differ at most in descriptive metadata of their columns. -/
structure Alike {Φ : Family} (o o' : Obj Φ) : Prop where
  cols : List.Forall₂ SamePlace o.cols o'.cols
  data : o.data = o'.data
  views : o.views = o'.views

theorem find_alike {cs cs' : List Column} (h : List.Forall₂ SamePlace cs cs') (n : Str) :
    (Table.columnMetadata cs n = .error .columnNotFound ∧ Table.columnMetadata cs' n = .error .columnNotFound) ∨
    ∃ c c', Table.columnMetadata cs n = .ok c ∧ Table.columnMetadata cs' n = .ok c' ∧ SamePlace c c' := by
  induction h with
  | nil => exact Or.inl ⟨rfl, rfl⟩
  | @cons c c' cs cs' hc _ ih =>
    have hn := hc.2.1
    unfold Table.columnMetadata at ih ⊢
    rw [List.find?_cons, List.find?_cons, ← hn]
    by_cases hb : (c.name == n) = true
    · rw [hb]; exact Or.inr ⟨c, c', rfl, rfl, hc⟩
    · rw [Bool.eq_false_iff.2 hb]; exact ih

variable {Φ : Family}

theorem putView_alike {o o' : Obj Φ} (h : Alike o o') (n : Str) (t : Φ.Tag) (v : View (Φ.El t)) : Alike (o.putView n t v) (o'.putView n t v) :=
  ⟨h.cols, h.data, by unfold Obj.putView; simp only; rw [h.views]⟩

theorem getColumn_alike {o o' : Obj Φ} (h : Alike o o') (n : Str) (t : Φ.Tag) :
    Alike (o.getColumn n t).1 (o'.getColumn n t).1 ∧ (o.getColumn n t).2 = (o'.getColumn n t).2 := by
  unfold Obj.getColumn
  rw [← h.views]
  cases o.views n with
  | some e =>
    obtain ⟨t', v⟩ := e
    simp only
    by_cases ht : t' = t
    · rw [dif_pos ht, dif_pos ht]; exact ⟨h, rfl⟩
    · rw [dif_neg ht, dif_neg ht]; exact ⟨h, rfl⟩
  | none =>
    simp only
    rcases find_alike h.cols n with ⟨h1, h2⟩ | ⟨c, c', h1, h2, hc⟩
    · rw [h1, h2]; exact ⟨h, rfl⟩
    · rw [h1, h2]
      simp only
      rw [hc.1, hc.2.2.2.2]
      exact ⟨putView_alike h _ _ _, rfl⟩

theorem read_alike {o o' : Obj Φ} (h : Alike o o') (n : Str) (t : Φ.Tag) (row : Nat) :
    Alike (o.read n t row).1 (o'.read n t row).1 ∧ (o.read n t row).2 = (o'.read n t row).2 := by
  obtain ⟨h1, h2⟩ := getColumn_alike h n t
  unfold Obj.read
  revert h1 h2
  rcases o.getColumn n t with ⟨p, r⟩
  rcases o'.getColumn n t with ⟨p', r'⟩
  intro h1 h2
  simp only at h1 h2
  subst h2
  cases r with
  | error e => exact ⟨h1, rfl⟩
  | ok v =>
    simp only
    rw [← h1.data]
    exact ⟨putView_alike h1 _ _ _, rfl⟩

theorem update_alike {o o' : Obj Φ} (h : Alike o o') (n : Str) (t : Φ.Tag) (row : Nat) (x : Φ.El t) :
    Alike (o.update n t row x).1 (o'.update n t row x).1 ∧ (o.update n t row x).2 = (o'.update n t row x).2 := by
  obtain ⟨h1, h2⟩ := getColumn_alike h n t
  unfold Obj.update
  revert h1 h2
  rcases o.getColumn n t with ⟨p, r⟩
  rcases o'.getColumn n t with ⟨p', r'⟩
  intro h1 h2
  simp only at h1 h2
  subst h2
  cases r with
  | error e => exact ⟨h1, rfl⟩
  | ok v =>
    simp only
    rw [← h1.data]
    rcases v.update (Φ.ser t) p.data row x with ⟨v', r⟩
    have := putView_alike h1 n t v'
    cases r with
    | error e => exact ⟨this, rfl⟩
    | ok d => exact ⟨⟨this.cols, rfl, this.views⟩, rfl⟩

theorem assign_alike {o o' : Obj Φ} (h : Alike o o') (n : Str) (t : Φ.Tag) (row : Nat) (x : Φ.El t) :
    Alike (o.assign n t row x).1 (o'.assign n t row x).1 ∧ (o.assign n t row x).2 = (o'.assign n t row x).2 := by
  obtain ⟨h1, h2⟩ := read_alike h n t row
  unfold Obj.assign
  revert h1 h2
  rcases o.read n t row with ⟨p, r⟩
  rcases o'.read n t row with ⟨p', r'⟩
  intro h1 h2
  simp only at h1 h2
  subst h2
  cases r with
  | error e => exact ⟨h1, rfl⟩
  | ok v => exact update_alike h1 n t row x

theorem iterateFrom_alike (n : Str) (t : Φ.Tag) : ∀ (k i : Nat) {o o' : Obj Φ}, Alike o o' →
    Alike (Obj.iterateFrom n t k i o).1 (Obj.iterateFrom n t k i o').1 ∧ (Obj.iterateFrom n t k i o).2 = (Obj.iterateFrom n t k i o').2 := by
  intro k
  induction k with
  | zero => intro i o o' h; exact ⟨h, rfl⟩
  | succ k ih =>
    intro i o o' h
    obtain ⟨h1, h2⟩ := read_alike h n t i
    unfold Obj.iterateFrom
    revert h1 h2
    rcases o.read n t i with ⟨p, r⟩
    rcases o'.read n t i with ⟨p', r'⟩
    intro h1 h2
    simp only at h1 h2
    subst h2
    cases r with
    | error e => exact ⟨h1, rfl⟩
    | ok v =>
      simp only
      obtain ⟨h3, h4⟩ := ih (i + 1) h1
      revert h3 h4
      rcases Obj.iterateFrom n t k (i + 1) p with ⟨q, s⟩
      rcases Obj.iterateFrom n t k (i + 1) p' with ⟨q', s'⟩
      intro h3 h4
      simp only at h3 h4
      subst h4
      cases s with
      | error e => exact ⟨h3, rfl⟩
      | ok l => exact ⟨h3, rfl⟩

theorem iterate_alike {o o' : Obj Φ} (h : Alike o o') (n : Str) (t : Φ.Tag) :
    Alike (o.iterate n t).1 (o'.iterate n t).1 ∧ (o.iterate n t).2 = (o'.iterate n t).2 := by
  obtain ⟨h1, h2⟩ := getColumn_alike h n t
  unfold Obj.iterate
  revert h1 h2
  rcases o.getColumn n t with ⟨p, r⟩
  rcases o'.getColumn n t with ⟨p', r'⟩
  intro h1 h2
  simp only at h1 h2
  subst h2
  cases r with
  | error e => exact ⟨h1, rfl⟩
  | ok v =>
    simp only
    rw [← h1.data]
    exact iterateFrom_alike n t _ _ h1

theorem use_alike {o o' : Obj Φ} (h : Alike o o') (u : Use Φ) : Alike (u.run o).1 (u.run o').1 ∧ (u.run o).2 = (u.run o').2 := by
  cases u with
  | get n t => obtain ⟨a, b⟩ := getColumn_alike h n t; exact ⟨a, by simp only [Use.run, b]⟩
  | read n t row => obtain ⟨a, b⟩ := read_alike h n t row; exact ⟨a, by simp only [Use.run, b]⟩
  | write n t row x => obtain ⟨a, b⟩ := update_alike h n t row x; exact ⟨a, by simp only [Use.run, b]⟩
  | assign n t row x => obtain ⟨a, b⟩ := assign_alike h n t row x; exact ⟨a, by simp only [Use.run, b]⟩
  | iterate n t => obtain ⟨a, b⟩ := iterate_alike h n t; exact ⟨a, by simp only [Use.run, b]⟩

theorem program_alike : ∀ (us : List (Use Φ)) {o o' : Obj Φ}, Alike o o' → program o us = program o' us := by
  intro us
  induction us with
  | nil => intro o o' h; unfold program; rw [h.data]
  | cons u us ih =>
    intro o o' h
    obtain ⟨a, b⟩ := use_alike h u
    unfold program
    rw [ih a, b]

theorem mapM_alike {f : Column → Res Str} (hf : ∀ c c', SamePlace c c' → f c = f c') {cs cs' : List Column} (h : List.Forall₂ SamePlace cs cs') :
    cs.mapM f = cs'.mapM f := by
  induction h with
  | nil => rfl
  | cons hc _ ih => rw [List.mapM_cons, List.mapM_cons, hf _ _ hc, ih]

theorem forall₂_isEmpty {cs cs' : List Column} (h : List.Forall₂ SamePlace cs cs') : cs.isEmpty = cs'.isEmpty := by
  cases h <;> rfl

theorem ascii_data_alike {cs cs' : List Column} (h : List.Forall₂ SamePlace cs cs') (buf : Str) (rowLen rows : Nat) :
    Ascii.tableData buf rowLen rows cs = Ascii.tableData buf rowLen rows cs' := by
  unfold Ascii.tableData
  rw [forall₂_isEmpty h]
  have : ∀ r, cs.mapM (Ascii.cell buf rowLen r) = cs'.mapM (Ascii.cell buf rowLen r) := fun r =>
    mapM_alike (fun c c' hc => by unfold Ascii.cell; rw [hc.2.2.1, hc.2.2.2.1]) h
  simp only [this]

theorem bin_row_alike {cs cs' : List Column} (h : List.Forall₂ SamePlace cs cs') (buf : Str) : ∀ off,
    BinTable.readRow buf cs off = BinTable.readRow buf cs' off := by
  induction h with
  | nil => intro off; rfl
  | cons hc _ ih =>
    intro off
    unfold BinTable.readRow
    rw [hc.2.2.2.1]
    simp only [ih]

theorem bin_rows_alike {cs cs' : List Column} (h : List.Forall₂ SamePlace cs cs') (buf : Str) : ∀ n off,
    BinTable.readRows buf cs n off = BinTable.readRows buf cs' n off := by
  intro n
  induction n with
  | zero => intro off; rfl
  | succ n ih =>
    intro off
    unfold BinTable.readRows
    rw [bin_row_alike h]
    simp only [ih]

theorem bin_data_alike {cs cs' : List Column} (h : List.Forall₂ SamePlace cs cs') (buf : Str) (rows : Nat) :
    BinTable.tableData buf rows cs = BinTable.tableData buf rows cs' := by
  unfold BinTable.tableData
  rw [forall₂_isEmpty h, bin_rows_alike h]

theorem rowBytes_alike {cs cs' : List Column} (h : List.Forall₂ SamePlace cs cs') : ∀ (r : List Str) (i : Nat),
    Ascii.rowBytes cs r i = Ascii.rowBytes cs' r i := by
  intro r
  induction r with
  | nil => intro i; rfl
  | cons s r ih =>
    intro i
    unfold Ascii.rowBytes
    have hl := h.length_eq
    by_cases hi : i < cs.length
    · have hi' : i < cs'.length := by omega
      rw [List.getElem?_eq_getElem hi, List.getElem?_eq_getElem hi']
      simp only
      have := h.get hi hi'
      simp only [List.get_eq_getElem] at this
      rw [this.2.2.2.1, ih]
    · rw [List.getElem?_eq_none (by omega), List.getElem?_eq_none (by omega)]

end Astro
