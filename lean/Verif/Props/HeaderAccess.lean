import Verif.Props.Header

/-
Property C91: card count, number of axes and comparison of headers.
-/

namespace Astro

open Spec Header

theorem szSub_one {n : Nat} (h : n + 1 < sizeMod) : szSub (n + 1) 1 = n := by
  rw [szSub_le (by omega) (by omega)]
  rfl

theorem addCards_raws (l : List Str) : (Header.empty.addCards l).cards.map (·.raw) = l := by
  rw [addCards_cards]
  simp [Header.empty, Function.comp_def]

/-- A header read from a file is what the second half of read_header makes of its cards, which are the pieces of the file up to the first END. -/
theorem readHeader_cards {F : FloatText} {fuel : Nat} {s s' : Stream} {h : Header} (hg : s.good = true)
    (e : readHeader F fuel Header.empty s = some (.ok (h, s'))) :
    ∃ n, (∀ j, j < n → ¬ IsEnd (piece s.content s.pos j)) ∧ IsEnd (piece s.content s.pos n) ∧
      h.cards.map (·.raw) = pieces s.content s.pos 0 (n + 1) ∧ h.hduName = [] ∧
      (Header.empty.addCards (h.cards.map (·.raw))).interpret F = .ok h := by
  unfold readHeader at e
  cases hc : readCards fuel Header.empty s with
  | none => rw [hc] at e; cases e
  | some x =>
    rw [hc] at e
    cases x with
    | error e' => cases e
    | ok y =>
      obtain ⟨h1, s2⟩ := y
      simp only at e
      cases hi : h1.interpret F with
      | error e' => rw [hi] at e; cases e
      | ok h2 =>
        rw [hi] at e
        simp only [Option.some.injEq, Except.ok.injEq, Prod.mk.injEq] at e
        obtain ⟨rfl, rfl⟩ := e
        obtain ⟨n, i1, _, i3⟩ := readCards_some (streamAt_zero hg) hc
        rcases i3 with ⟨j1, s', j2, j3⟩ | ⟨_, j3⟩
        · cases j3
          simp only [Nat.zero_add] at i1 j1
          obtain ⟨b, hread, hname, _⟩ := interpret_ok hi
          have hr := hread.raws
          rw [addCards_raws] at hr
          refine ⟨n, fun j hj => (i1 j hj).2, j1, hr, hname.trans (addCards_other _ _).2.2, ?_⟩
          rw [hr]
          exact hi
        · cases j3

/-- **C91** card_count() of a header read from a file is the number of cards before END, so END is the card with that number. -/
theorem C91_card_count (F : FloatText) (fuel : Nat) (s s' : Stream) (h : Header) (hg : s.good = true) (hs : s.content.length < 2 ^ 64)
    (e : readHeader F fuel Header.empty s = some (.ok (h, s'))) :
    h.cards.length = h.cardCount + 1 ∧ ∀ i c, h.cards[i]? = some c → (IsEnd c.raw ↔ i = h.cardCount) := by
  obtain ⟨n, h1, h2, h3, _, _⟩ := readHeader_cards hg e
  have hl : h.cards.length = n + 1 := by
    have := congrArg List.length h3
    simpa [pieces] using this
  have hn : s.pos + 80 * n < s.content.length := by
    refine Classical.byContradiction fun hge => ?_
    unfold piece at h2
    rw [window_outside (by omega)] at h2
    exact blank_not_end h2
  have hcount : h.cardCount = n := by
    unfold cardCount
    rw [hl]
    exact szSub_one (by unfold sizeMod; omega)
  rw [hcount]
  refine ⟨hl, fun i c hc => ?_⟩
  have hi : i < n + 1 := by
    rw [← hl]
    exact (List.getElem?_eq_some_iff.1 hc).1
  have hr : c.raw = piece s.content s.pos i := by
    have : (h.cards.map (·.raw))[i]? = some c.raw := by rw [List.getElem?_map, hc]; rfl
    rw [h3] at this
    simp [pieces, hi] at this
    exact this.symm
  rw [hr]
  constructor
  · intro hE
    refine Classical.byContradiction fun hne => ?_
    exact h1 i (by omega) hE
  · rintro rfl
    exact h2

/-- **C91** A header which has read nothing counts 2^64 - 1 cards. -/
theorem C91_card_count_default : Header.empty.cardCount = 2 ^ 64 - 1 := by decide

/-- **C91** total_dimensions() is the number on the NAXIS card. -/
theorem C91_dimensions (F : FloatText) (fuel : Nat) (s s' : Stream) (h : Header) (hg : s.good = true)
    (e : readHeader F fuel Header.empty s = some (.ok (h, s'))) :
    ∃ i r v, Selected (h.cards.map (·.raw)) b!"NAXIS" i ∧ (h.cards.map (·.raw))[i]? = some r ∧
      Card.valueImp F r .sizeT = .ok (.sizeT v) ∧ h.totalDimensions = v.toNat :=
  (C29_values F fuel s s' h hg e).2.1

/-- **C91** Two headers read from files are equal exactly when they have the same cards. -/
theorem C91_equal (F : FloatText) (fuel fuel' : Nat) (s s' r r' : Stream) (h k : Header) (hs : s.good = true) (hr : r.good = true)
    (eh : readHeader F fuel Header.empty s = some (.ok (h, s'))) (ek : readHeader F fuel' Header.empty r = some (.ok (k, r'))) :
    Equal h k ↔ h.cards.map (·.raw) = k.cards.map (·.raw) := by
  constructor
  · intro e; exact e.2.2.2.1
  · intro e
    obtain ⟨_, _, _, _, _, i1⟩ := readHeader_cards hs eh
    obtain ⟨_, _, _, _, _, i2⟩ := readHeader_cards hr ek
    rw [e, i2] at i1
    cases i1
    exact ⟨rfl, rfl, rfl, rfl, rfl⟩

theorem equal_cardValue (F : FloatText) (h : Header) (i : Nat) (t : Ty) : Equal (h.cardValue F i t).1 h := by
  obtain ⟨h1, h2, h3, h4, h5⟩ := read_cardValue F h i t
  exact ⟨h3, h2, h5, h1.raws, h4⟩

theorem equal_valueOf (F : FloatText) (h : Header) (k : Str) (t : Ty) : Equal (h.valueOf F k t).1 h := by
  unfold valueOf
  cases h.keyIndex k with
  | none => exact ⟨rfl, rfl, rfl, rfl, rfl⟩
  | some i => exact equal_cardValue F h i t

theorem equal_trans {a b c : Header} (h1 : Equal a b) (h2 : Equal b c) : Equal a c :=
  ⟨h1.1.trans h2.1, h1.2.1.trans h2.2.1, h1.2.2.1.trans h2.2.2.1, h1.2.2.2.1.trans h2.2.2.2.1, h1.2.2.2.2.trans h2.2.2.2.2⟩

/-- **C91** Asking for values does not change what a header is equal to ... -/
theorem C91_values_keep (F : FloatText) (h k : Header) (qs : List (Str × Ty)) :
    Equal (qs.foldl (fun h q => (h.valueOf F q.1 q.2).1) h) k ↔ Equal h k := by
  induction qs generalizing h with
  | nil => rfl
  | cons q qs ih =>
    rw [List.foldl_cons, ih]
    have e := equal_valueOf F h q.1 q.2
    constructor
    · intro g
      exact equal_trans ⟨e.1.symm, e.2.1.symm, e.2.2.1.symm, e.2.2.2.1.symm, e.2.2.2.2.symm⟩ g
    · exact equal_trans e

/-- **C91** ... but asking for the name of an extension does: a header just read stays equal to itself through get_hdu_name() exactly when there is no
XTENSION text to be read, or an empty one. -/
theorem C91_name_changes (F : FloatText) (fuel : Nat) (s s' : Stream) (h : Header) (hg : s.good = true)
    (e : readHeader F fuel Header.empty s = some (.ok (h, s'))) :
    Equal (h.getHduName F).1 h ↔ ∀ x, (h.valueOf F b!"XTENSION" .string).2 = .ok (.string x) → x = [] := by
  obtain ⟨_, _, _, _, hname, _⟩ := readHeader_cards hg e
  have he := equal_valueOf F h b!"XTENSION" .string
  unfold getHduName
  cases hv : h.valueOf F b!"XTENSION" .string with
  | mk h1 r =>
    rw [hv] at he
    simp only at he
    have other : (∀ x, r ≠ .ok (.string x)) → (∀ x, r = .ok (.string x) → x = []) := fun hn x hx => absurd hx (hn x)
    have hs : ∀ k t, Equal (h1.valueOf F k t).1 h := fun k t => equal_trans (equal_valueOf F h1 k t) he
    have e2 : Equal (match h1.valueOf F b!"SIMPLE" .bool with
        | (h2, .ok _) => (h2, (.ok b!"primary_hdu" : Res Str))
        | (h2, .error e) => (h2, .error e)).1 h := by
      have := hs b!"SIMPLE" .bool
      cases hb : h1.valueOf F b!"SIMPLE" .bool with
      | mk h2 r2 =>
        rw [hb] at this
        cases r2 <;> exact this
    cases r with
    | error er =>
      refine iff_of_true ?_ (other (fun x hx => by cases hx))
      cases er <;> first | exact he | exact e2
    | ok v =>
      cases v with
      | string x =>
        simp only [Except.ok.injEq, Val.string.injEq, forall_eq']
        constructor
        · intro g
          have := g.2.2.1
          simp only at this
          rw [this, hname]
        · rintro rfl
          exact ⟨he.1, he.2.1, hname.symm, he.2.2.2.1, he.2.2.2.2⟩
      | _ => exact iff_of_true e2 (other (fun x hx => by cases hx))

/-- An extension header with four cards before END; asking for its name fills the field that comparison looks at. -/
def exExtension : List Str :=
  [exCard b!"XTENSION= 'IMAGE   '", exCard b!"BITPIX  =                   16", exCard b!"NAXIS   =                    1",
   exCard b!"NAXIS1  =                  300", exCard b!"END"]

example : (match readHeader exNoFloats 7 Header.empty (Stream.openRead exExtension.flatten) with
    | some (.ok (h, _)) => decide (h.cardCount = 4 ∧ h.totalDimensions = 1 ∧ (h.getHduName exNoFloats).1.hduName = b!"IMAGE" ∧ h.hduName = [])
    | _ => false) = true := by
  decide +kernel

end Astro
