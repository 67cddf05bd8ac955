import Verif.Lemmas.Lookup

/-
Helper lemmas: which table headers are accepted.
-/

namespace Astro

open Spec Header

/-- The type a keyword is read as when a table is built. -/
def keyTy (k : Str) : Ty :=
  if k = b!"SIMPLE" then .bool
  else if k = b!"GCOUNT" ∨ k = b!"PCOUNT" then .int
  else if k = b!"TFIELDS" ∨ b!"TBCOL" <+: k then .sizeT
  else if b!"TSCAL" <+: k ∨ b!"TZERO" <+: k then .double
  else .string

/-- A header in which cached values have the types of `keyTy`. -/
abbrev PlainT (F : FloatText) (h : Header) : Prop := Plain F (fun k t => t = keyTy k) h

theorem textKey_facts {k : Str} (h : TextKey k) : ¬ AxisKey k ∧ keyTy k = .string := by
  obtain ⟨h1, h2⟩ := h
  simp only [List.mem_cons, List.not_mem_nil, or_false, not_or] at h1
  obtain ⟨a1, a2, a3, a4, a5⟩ := h1
  have b1 := h2 b!"NAXIS" (by simp)
  have b2 := h2 b!"TBCOL" (by simp)
  have b3 := h2 b!"TSCAL" (by simp)
  have b4 := h2 b!"TZERO" (by simp)
  refine ⟨?_, ?_⟩
  · rintro (h | ⟨d, h⟩)
    · exact a1 h
    · exact b1 ⟨d, h.symm⟩
  · unfold keyTy
    rw [if_neg a2, if_neg (by rintro (h | h); exacts [a3 h, a4 h]), if_neg (by rintro (h | h); exacts [a5 h, b2 h]),
      if_neg (by rintro (h | h); exacts [b3 h, b4 h])]

variable {F : FloatText} {h : Header}

theorem lookup_error_absent (hp : Sound F h) {k : Str} {t : Ty} {er : Err} (hl : Lookup F (h.cards.map (·.raw)) k t (.error er)) :
    er = .outOfRange ↔ Absent (h.cards.map (·.raw)) k := by
  constructor
  · rintro rfl
    rcases hl with ⟨ha, _⟩ | ⟨i, r, _, h2, h3⟩
    · exact ha
    · exact absurd h3.symm (valueImp_not_oor F r t (by rw [hp.size r (List.mem_of_getElem? h2)]; omega))
  · intro ha
    have := lookup_fun hl (.inl ⟨ha, rfl⟩)
    cases this; rfl

theorem not_optional (hp : Sound F h) {k : Str} {t : Ty} {er : Err} (hl : Lookup F (h.cards.map (·.raw)) k t (.error er)) (hne : er ≠ .outOfRange) :
    ¬ Optional F (h.cards.map (·.raw)) k t := by
  rintro (ha | ⟨v, hv⟩)
  · exact hne ((lookup_error_absent hp hl).2 ha)
  · cases lookup_fun hl hv

theorem not_required {raws : List Str} {k : Str} {t : Ty} {er : Err} (hl : Lookup F raws k t (.error er)) : ¬ Required F raws k t := by
  rintro ⟨v, hv⟩
  cases lookup_fun hl hv

theorem out_get (hp : PlainT F h) {k : Str} {t : Ty} (hk : ¬ AxisKey k) (ht : keyTy k = t) :
    (∃ h' v, h.get F k t = .ok (h', v) ∧ Lookup F (h.cards.map (·.raw)) k t (.ok v) ∧ Same h h' ∧ PlainT F h') ∨
    (∃ er, h.get F k t = .error er ∧ Lookup F (h.cards.map (·.raw)) k t (.error er)) := by
  obtain ⟨r, hr⟩ := lookup_total F (h.cards.map (·.raw)) k t
  cases r with
  | ok v =>
    obtain ⟨h', g1, g2, g3⟩ := plain_get hp hk (fun t' e => e.trans ht) hr
    refine .inl ⟨h', v, g1, hr, g2, g3.mono ?_⟩
    rintro k' t' (g | ⟨rfl, rfl⟩)
    · exact g
    · exact ht.symm
  | error er => exact .inr ⟨er, plain_get_error hp hk (fun t' e => e.trans ht) hr, hr⟩

theorem out_str (hp : PlainT F h) {k : Str} (hk : ¬ AxisKey k) (ht : keyTy k = .string) :
    (∃ h' s, h.getStr F k = .ok (h', s) ∧ Lookup F (h.cards.map (·.raw)) k .string (.ok (.string s)) ∧ Same h h' ∧ PlainT F h') ∨
    (∃ er, h.getStr F k = .error er ∧ Lookup F (h.cards.map (·.raw)) k .string (.error er)) := by
  rcases out_get hp hk ht with ⟨h', v, g1, g2, g3, g4⟩ | ⟨er, g1, g2⟩
  · have := lookup_ty g2
    cases v <;> first | cases this | skip
    exact .inl ⟨h', _, by unfold Header.getStr; rw [g1], g2, g3, g4⟩
  · exact .inr ⟨er, by unfold Header.getStr; rw [g1], g2⟩

theorem out_int (hp : PlainT F h) {k : Str} (hk : ¬ AxisKey k) (ht : keyTy k = .int) :
    (∃ h' s, h.getInt F k = .ok (h', s) ∧ Lookup F (h.cards.map (·.raw)) k .int (.ok (.int s)) ∧ Same h h' ∧ PlainT F h') ∨
    (∃ er, h.getInt F k = .error er ∧ Lookup F (h.cards.map (·.raw)) k .int (.error er)) := by
  rcases out_get hp hk ht with ⟨h', v, g1, g2, g3, g4⟩ | ⟨er, g1, g2⟩
  · have := lookup_ty g2
    cases v <;> first | cases this | skip
    exact .inl ⟨h', _, by unfold Header.getInt; rw [g1], g2, g3, g4⟩
  · exact .inr ⟨er, by unfold Header.getInt; rw [g1], g2⟩

theorem out_size (hp : PlainT F h) {k : Str} (hk : ¬ AxisKey k) (ht : keyTy k = .sizeT) :
    (∃ h' v, h.getSize F k = .ok (h', v.toNat) ∧ Lookup F (h.cards.map (·.raw)) k .sizeT (.ok (.sizeT v)) ∧ Same h h' ∧ PlainT F h') ∨
    (∃ er, h.getSize F k = .error er ∧ Lookup F (h.cards.map (·.raw)) k .sizeT (.error er)) := by
  rcases out_get hp hk ht with ⟨h', v, g1, g2, g3, g4⟩ | ⟨er, g1, g2⟩
  · have := lookup_ty g2
    cases v <;> first | cases this | skip
    exact .inl ⟨h', _, by unfold Header.getSize; rw [g1], g2, g3, g4⟩
  · exact .inr ⟨er, by unfold Header.getSize; rw [g1], g2⟩

theorem out_double (hp : PlainT F h) {k : Str} (hk : ¬ AxisKey k) (ht : keyTy k = .double) :
    (∃ h' s, h.getDouble F k = .ok (h', s) ∧ Lookup F (h.cards.map (·.raw)) k .double (.ok (.double s)) ∧ Same h h' ∧ PlainT F h') ∨
    (∃ er, h.getDouble F k = .error er ∧ Lookup F (h.cards.map (·.raw)) k .double (.error er)) := by
  rcases out_get hp hk ht with ⟨h', v, g1, g2, g3, g4⟩ | ⟨er, g1, g2⟩
  · have := lookup_ty g2
    cases v <;> first | cases this | skip
    exact .inl ⟨h', _, by unfold Header.getDouble; rw [g1], g2, g3, g4⟩
  · exact .inr ⟨er, by unfold Header.getDouble; rw [g1], g2⟩

theorem out_optStr (hp : PlainT F h) {k : Str} (hk : ¬ AxisKey k) (ht : keyTy k = .string) :
    (∃ h' o, h.optional (h.getStr F k) = .ok (h', o) ∧ Optional F (h.cards.map (·.raw)) k .string ∧ Same h h' ∧ PlainT F h') ∨
    (∃ er, h.optional (h.getStr F k) = .error er ∧ ¬ Optional F (h.cards.map (·.raw)) k .string) := by
  rcases out_str hp hk ht with ⟨h', s, g1, g2, g3, g4⟩ | ⟨er, g1, g2⟩
  · exact .inl ⟨h', some s, by rw [g1]; rfl, .inr ⟨_, g2⟩, g3, g4⟩
  · by_cases ho : er = .outOfRange
    · subst ho
      exact .inl ⟨h, none, by rw [g1]; rfl, .inl ((lookup_error_absent hp.sound g2).1 rfl), Same.refl h, hp⟩
    · refine .inr ⟨er, ?_, not_optional hp.sound g2 ho⟩
      rw [g1]; unfold Header.optional
      split
      · rename_i heq; cases heq
      · rename_i heq; cases heq; exact absurd rfl ho
      · rename_i heq; cases heq; rfl

theorem out_optDouble (hp : PlainT F h) {k : Str} (hk : ¬ AxisKey k) (ht : keyTy k = .double) :
    (∃ h' o, h.optional (h.getDouble F k) = .ok (h', o) ∧ Optional F (h.cards.map (·.raw)) k .double ∧ Same h h' ∧ PlainT F h') ∨
    (∃ er, h.optional (h.getDouble F k) = .error er ∧ ¬ Optional F (h.cards.map (·.raw)) k .double) := by
  rcases out_double hp hk ht with ⟨h', s, g1, g2, g3, g4⟩ | ⟨er, g1, g2⟩
  · exact .inl ⟨h', some s, by rw [g1]; rfl, .inr ⟨_, g2⟩, g3, g4⟩
  · by_cases ho : er = .outOfRange
    · subst ho
      exact .inl ⟨h, none, by rw [g1]; rfl, .inl ((lookup_error_absent hp.sound g2).1 rfl), Same.refl h, hp⟩
    · refine .inr ⟨er, ?_, not_optional hp.sound g2 ho⟩
      rw [g1]; unfold Header.optional
      split
      · rename_i heq; cases heq
      · rename_i heq; cases heq; exact absurd rfl ho
      · rename_i heq; cases heq; rfl

theorem out_name (hp : PlainT F h) (hn : TextNames F (h.cards.map (·.raw))) (i : Nat) :
    (∃ h' o, Table.columnName F h i = .ok (h', o) ∧ Optional F (h.cards.map (·.raw)) (b!"TTYPE" ++ showNat i) .string ∧
      (∀ name, Lookup F (h.cards.map (·.raw)) (b!"TTYPE" ++ showNat i) .string (.ok (.string name)) → Optional F (h.cards.map (·.raw)) name .string) ∧
      Same h h' ∧ PlainT F h') ∨
    (∃ er, Table.columnName F h i = .error er ∧ ¬ (Optional F (h.cards.map (·.raw)) (b!"TTYPE" ++ showNat i) .string ∧
      ∀ name, Lookup F (h.cards.map (·.raw)) (b!"TTYPE" ++ showNat i) .string (.ok (.string name)) → Optional F (h.cards.map (·.raw)) name .string)) := by
  have hk : ¬ AxisKey (b!"TTYPE" ++ showNat i) := by rintro (h | ⟨d, h⟩) <;> simp at h
  have ht : keyTy (b!"TTYPE" ++ showNat i) = .string := by simp [keyTy]
  unfold Table.columnName
  rcases out_str hp hk ht with ⟨h1, s, g1, g2, g3, g4⟩ | ⟨er, g1, g2⟩
  · rw [g1]
    simp only
    have hs : ∀ name, Lookup F (h.cards.map (·.raw)) (b!"TTYPE" ++ showNat i) .string (.ok (.string name)) → name = s := by
      intro name hl; cases lookup_fun hl g2; rfl
    obtain ⟨k1, k2⟩ := textKey_facts (hn _ _ g2)
    rcases out_str g4 k1 k2 with ⟨h2, c, f1, f2, f3, f4⟩ | ⟨er, f1, f2⟩
    · rw [f1]
      rw [g3.raws] at f2
      exact .inl ⟨h2, _, rfl, .inr ⟨_, g2⟩, fun name hl => by rw [hs name hl]; exact .inr ⟨_, f2⟩, g3.trans f3, f4⟩
    · by_cases ho : er = .outOfRange
      · subst ho
        rw [f1]
        have := (lookup_error_absent g4.sound f2).1 rfl
        rw [g3.raws] at this
        exact .inl ⟨h1, _, rfl, .inr ⟨_, g2⟩, fun name hl => by rw [hs name hl]; exact .inl this, g3, g4⟩
      · refine .inr ⟨er, ?_, ?_⟩
        · rw [f1]
          split
          · rename_i heq; cases heq; exact absurd rfl ho
          · rename_i heq; cases heq; rfl
          · rename_i heq; cases heq
        · rintro ⟨_, hc⟩
          have := hc s g2
          rw [← g3.raws] at this
          exact not_optional g4.sound f2 ho this
  · by_cases ho : er = .outOfRange
    · subst ho
      rw [g1]
      refine .inl ⟨h, _, rfl, .inl ((lookup_error_absent hp.sound g2).1 rfl), fun name hl => ?_, Same.refl h, hp⟩
      cases lookup_fun hl g2
    · refine .inr ⟨er, ?_, fun hc => not_optional hp.sound g2 ho hc.1⟩
      rw [g1]
      split
      · rename_i heq; cases heq; exact absurd rfl ho
      · rename_i heq; cases heq; rfl
      · rename_i heq; cases heq

theorem axis_T (i : Nat) : ∀ p : Str, 4 ≤ p.length → p.headD 0 = 84 → ¬ AxisKey (p ++ showNat i) := by
  intro p hp hp'
  rintro (h | ⟨d, h⟩) <;> (match p, hp, hp' with | a :: _, _, hp' => (simp only [List.headD_cons] at hp'; subst hp'; simp at h))

theorem out_ascii_column (hp : PlainT F h) (hn : TextNames F (h.cards.map (·.raw))) (i : Nat) :
    (∃ h' c, Ascii.column F h i = .ok (h', c) ∧ ColumnCards F (h.cards.map (·.raw)) (showNat i) ∧ Same h h' ∧ PlainT F h' ∧
      Lookup F (h.cards.map (·.raw)) (b!"TFORM" ++ showNat i) .string (.ok (.string c.format)) ∧
      ∃ v, Lookup F (h.cards.map (·.raw)) (b!"TBCOL" ++ showNat i) .sizeT (.ok (.sizeT v)) ∧ c.start = v.toNat) ∨
    (∃ er, Ascii.column F h i = .error er ∧ ¬ (ColumnCards F (h.cards.map (·.raw)) (showNat i) ∧
      Required F (h.cards.map (·.raw)) (b!"TBCOL" ++ showNat i) .sizeT)) := by
  unfold Ascii.column
  rcases out_str hp (axis_T i b!"TFORM" (by decide) rfl) (by simp [keyTy]) with ⟨h1, f, a1, a2, a3, a4⟩ | ⟨er, a1, a2⟩
  swap
  · exact .inr ⟨er, by rw [a1]; rfl, fun hc => not_required a2 hc.1.tform⟩
  rcases out_size a4 (axis_T i b!"TBCOL" (by decide) rfl) (by simp [keyTy]) with ⟨h2, v, b1, b2, b3, b4⟩ | ⟨er, b1, b2⟩
  swap
  · refine .inr ⟨er, ?_, fun hc => not_required b2 ?_⟩
    · rw [a1]; simp only [bind, Except.bind]; rw [b1]
    · rw [a3.raws]; exact hc.2
  have ab := a3.trans b3
  rcases out_name b4 (by rw [ab.raws]; exact hn) i with ⟨h3, nm, c1, c2, c2', c3, c4⟩ | ⟨er, c1, c2⟩
  swap
  · refine .inr ⟨er, ?_, fun hc => c2 ?_⟩
    · rw [a1]; simp only [bind, Except.bind]; rw [b1]; simp only; rw [c1]
    · rw [ab.raws]; exact ⟨hc.1.ttype, hc.1.comment⟩
  have ac := ab.trans c3
  rcases out_optStr c4 (axis_T i b!"TUNIT" (by decide) rfl) (by simp [keyTy]) with ⟨h4, u, d1, d2, d3, d4⟩ | ⟨er, d1, d2⟩
  swap
  · refine .inr ⟨er, ?_, fun hc => d2 ?_⟩
    · rw [a1]; simp only [bind, Except.bind]; rw [b1]; simp only; rw [c1]; simp only; rw [d1]
    · rw [ac.raws]; exact hc.1.tunit
  have ad := ac.trans d3
  rcases out_optDouble d4 (axis_T i b!"TSCAL" (by decide) rfl) (by simp [keyTy]) with ⟨h5, sc, e1, e2, e3, e4⟩ | ⟨er, e1, e2⟩
  swap
  · refine .inr ⟨er, ?_, fun hc => e2 ?_⟩
    · rw [a1]; simp only [bind, Except.bind]; rw [b1]; simp only; rw [c1]; simp only; rw [d1]; simp only; rw [e1]
    · rw [ad.raws]; exact hc.1.tscal
  have ae := ad.trans e3
  rcases out_optDouble e4 (axis_T i b!"TZERO" (by decide) rfl) (by simp [keyTy]) with ⟨h6, z, f1, f2, f3, f4⟩ | ⟨er, f1, f2⟩
  swap
  · refine .inr ⟨er, ?_, fun hc => f2 ?_⟩
    · rw [a1]; simp only [bind, Except.bind]; rw [b1]; simp only; rw [c1]; simp only; rw [d1]; simp only; rw [e1]; simp only; rw [f1]
    · rw [ae.raws]; exact hc.1.tzero
  rw [a3.raws] at b2
  rw [ab.raws] at c2 c2'
  rw [ac.raws] at d2
  rw [ad.raws] at e2
  rw [ae.raws] at f2
  refine .inl ⟨h6, ⟨i, nm.1, v.toNat, f, u.getD [], sc, z, [], [], nm.2, 0⟩, ?_, ⟨⟨_, a2⟩, c2, c2', d2, e2, f2⟩, ae.trans f3, f4, a2, v, b2, rfl⟩
  rw [a1]; simp only [bind, Except.bind]; rw [b1]; simp only; rw [c1]; simp only; rw [d1]; simp only; rw [e1]; simp only; rw [f1]
  rfl

theorem out_ascii_columns : ∀ (n i : Nat) {h : Header}, PlainT F h → TextNames F (h.cards.map (·.raw)) →
    (∃ h' cs, Ascii.columns F n i h = .ok (h', cs) ∧ Same h h' ∧ cs.length = n ∧
      ∀ (j : Nat) (c : Column), cs[j]? = some c → ColumnCards F (h.cards.map (·.raw)) (showNat (i + j)) ∧
        Lookup F (h.cards.map (·.raw)) (b!"TFORM" ++ showNat (i + j)) .string (.ok (.string c.format)) ∧
        ∃ v, Lookup F (h.cards.map (·.raw)) (b!"TBCOL" ++ showNat (i + j)) .sizeT (.ok (.sizeT v)) ∧ c.start = v.toNat) ∨
    (∃ er, Ascii.columns F n i h = .error er ∧ ∃ j < n, ¬ (ColumnCards F (h.cards.map (·.raw)) (showNat (i + j)) ∧
      Required F (h.cards.map (·.raw)) (b!"TBCOL" ++ showNat (i + j)) .sizeT)) := by
  intro n
  induction n with
  | zero => intro i h _ _; exact .inl ⟨h, [], rfl, Same.refl h, rfl, fun j c hc => by simp at hc⟩
  | succ n ih =>
    intro i h hp hn
    unfold Ascii.columns
    rcases out_ascii_column hp hn i with ⟨h1, c, a1, a2, a3, a4, a5⟩ | ⟨er, a1, a2⟩
    swap
    · exact .inr ⟨er, by rw [a1]; rfl, 0, by omega, a2⟩
    rcases ih (i + 1) a4 (by rw [a3.raws]; exact hn) with ⟨h2, cs, b1, b2, b3, b4⟩ | ⟨er, b1, j, hj, b2⟩
    swap
    · refine .inr ⟨er, by rw [a1]; simp only [bind, Except.bind]; rw [b1], j + 1, by omega, ?_⟩
      rw [a3.raws, show i + 1 + j = i + (j + 1) by omega] at b2
      exact b2
    refine .inl ⟨h2, c :: cs, by rw [a1]; simp only [bind, Except.bind]; rw [b1]; rfl, a3.trans b2, by simp [b3], ?_⟩
    intro j c' hc
    cases j with
    | zero => cases hc; exact ⟨a2, a5⟩
    | succ j =>
      have := b4 j c' (by simpa using hc)
      rw [a3.raws, show i + 1 + j = i + (j + 1) by omega] at this
      exact this

theorem out_bin_column (hp : PlainT F h) (hn : TextNames F (h.cards.map (·.raw))) (i st : Nat) :
    (∃ h' c st', BinTable.column F h i st = .ok (h', c, st') ∧ ColumnCards F (h.cards.map (·.raw)) (showNat i) ∧
      Optional F (h.cards.map (·.raw)) (b!"TDISP" ++ showNat i) .string ∧ Optional F (h.cards.map (·.raw)) (b!"TDIM" ++ showNat i) .string ∧
      Same h h' ∧ PlainT F h' ∧ Lookup F (h.cards.map (·.raw)) (b!"TFORM" ++ showNat i) .string (.ok (.string c.format)) ∧
      ∃ w, BinWidth c.format w) ∨
    (∃ er, BinTable.column F h i st = .error er ∧ ¬ (ColumnCards F (h.cards.map (·.raw)) (showNat i) ∧
      Optional F (h.cards.map (·.raw)) (b!"TDISP" ++ showNat i) .string ∧ Optional F (h.cards.map (·.raw)) (b!"TDIM" ++ showNat i) .string ∧
      ∃ f w, Lookup F (h.cards.map (·.raw)) (b!"TFORM" ++ showNat i) .string (.ok (.string f)) ∧ BinWidth f w)) := by
  unfold BinTable.column
  rcases out_str hp (axis_T i b!"TFORM" (by decide) rfl) (by simp [keyTy]) with ⟨h1, f, a1, a2, a3, a4⟩ | ⟨er, a1, a2⟩
  swap
  · exact .inr ⟨er, by rw [a1]; rfl, fun hc => not_required a2 hc.1.tform⟩
  cases b1 : BinTable.columnSize f with
  | error er =>
    refine .inr ⟨er, ?_, ?_⟩
    · rw [a1]; simp only [bind, Except.bind]; rw [b1]
    · rintro ⟨_, _, _, f', w, g1, g2⟩
      cases lookup_fun a2 g1
      rw [bin_columnSize_iff.2 g2] at b1; cases b1
  | ok w =>
  rcases out_name a4 (by rw [a3.raws]; exact hn) i with ⟨h3, nm, c1, c2, c2', c3, c4⟩ | ⟨er, c1, c2⟩
  swap
  · refine .inr ⟨er, ?_, fun hc => c2 ?_⟩
    · rw [a1]; simp only [bind, Except.bind]; rw [b1]; simp only; rw [c1]
    · rw [a3.raws]; exact ⟨hc.1.ttype, hc.1.comment⟩
  have ac := a3.trans c3
  rcases out_optStr c4 (axis_T i b!"TUNIT" (by decide) rfl) (by simp [keyTy]) with ⟨h4, u, d1, d2, d3, d4⟩ | ⟨er, d1, d2⟩
  swap
  · refine .inr ⟨er, ?_, fun hc => d2 ?_⟩
    · rw [a1]; simp only [bind, Except.bind]; rw [b1]; simp only; rw [c1]; simp only; rw [d1]
    · rw [ac.raws]; exact hc.1.tunit
  have ad := ac.trans d3
  rcases out_optDouble d4 (axis_T i b!"TSCAL" (by decide) rfl) (by simp [keyTy]) with ⟨h5, sc, e1, e2, e3, e4⟩ | ⟨er, e1, e2⟩
  swap
  · refine .inr ⟨er, ?_, fun hc => e2 ?_⟩
    · rw [a1]; simp only [bind, Except.bind]; rw [b1]; simp only; rw [c1]; simp only; rw [d1]; simp only; rw [e1]
    · rw [ad.raws]; exact hc.1.tscal
  have ae := ad.trans e3
  rcases out_optDouble e4 (axis_T i b!"TZERO" (by decide) rfl) (by simp [keyTy]) with ⟨h6, z, f1, f2, f3, f4⟩ | ⟨er, f1, f2⟩
  swap
  · refine .inr ⟨er, ?_, fun hc => f2 ?_⟩
    · rw [a1]; simp only [bind, Except.bind]; rw [b1]; simp only; rw [c1]; simp only; rw [d1]; simp only; rw [e1]; simp only; rw [f1]
    · rw [ae.raws]; exact hc.1.tzero
  have af := ae.trans f3
  rcases out_optStr f4 (axis_T i b!"TDISP" (by decide) rfl) (by simp [keyTy]) with ⟨h7, dp, g1, g2, g3, g4⟩ | ⟨er, g1, g2⟩
  swap
  · refine .inr ⟨er, ?_, fun hc => g2 ?_⟩
    · rw [a1]; simp only [bind, Except.bind]; rw [b1]; simp only; rw [c1]; simp only; rw [d1]; simp only; rw [e1]; simp only; rw [f1]
      simp only; rw [g1]
    · rw [af.raws]; exact hc.2.1
  have ag := af.trans g3
  rcases out_optStr g4 (axis_T i b!"TDIM" (by decide) rfl) (by simp [keyTy]) with ⟨h8, dm, k1, k2, k3, k4⟩ | ⟨er, k1, k2⟩
  swap
  · refine .inr ⟨er, ?_, fun hc => k2 ?_⟩
    · rw [a1]; simp only [bind, Except.bind]; rw [b1]; simp only; rw [c1]; simp only; rw [d1]; simp only; rw [e1]; simp only; rw [f1]
      simp only; rw [g1]; simp only; rw [k1]
    · rw [ag.raws]; exact hc.2.2.1
  have hw := bin_columnSize_iff.1 b1
  obtain ⟨n, hcount⟩ : ∃ n, Bin.elementCount f = .ok n := by
    obtain ⟨form, count, letter, n, size, hu, hform, hc, hs, rfl⟩ := hw
    refine ⟨n, (C19_element_count _ _).2 ⟨form, hu, ?_⟩⟩
    rcases hc with ⟨rfl, rfl⟩ | hc
    · left; rw [hform]; exact ⟨by simp, rfl⟩
    · right; exact ⟨count, letter, hform, hc⟩
  rw [a3.raws] at c2 c2'
  rw [ac.raws] at d2
  rw [ad.raws] at e2
  rw [ae.raws] at f2
  rw [af.raws] at g2
  rw [ag.raws] at k2
  refine .inl ⟨h8, ⟨i, nm.1, st, f, u.getD [], sc, z, dp.getD [], dm.getD [], nm.2, n⟩, (st + w) % sizeMod, ?_, ⟨⟨_, a2⟩, c2, c2', d2, e2, f2⟩, g2, k2, ag.trans k3, k4, a2, w, hw⟩
  rw [a1]; simp only [bind, Except.bind]; rw [b1]; simp only; rw [c1]; simp only; rw [d1]; simp only; rw [e1]; simp only; rw [f1]
  simp only; rw [g1]; simp only; rw [k1]; simp only; rw [hcount]
  rfl

theorem out_bin_columns : ∀ (n i st : Nat) {h : Header}, PlainT F h → TextNames F (h.cards.map (·.raw)) →
    (∃ h' cs, BinTable.columns F n i st h = .ok (h', cs) ∧ Same h h' ∧ cs.length = n ∧
      ∀ (j : Nat) (c : Column), cs[j]? = some c → ColumnCards F (h.cards.map (·.raw)) (showNat (i + j)) ∧
        Optional F (h.cards.map (·.raw)) (b!"TDISP" ++ showNat (i + j)) .string ∧ Optional F (h.cards.map (·.raw)) (b!"TDIM" ++ showNat (i + j)) .string ∧
        Lookup F (h.cards.map (·.raw)) (b!"TFORM" ++ showNat (i + j)) .string (.ok (.string c.format)) ∧ ∃ w, BinWidth c.format w) ∨
    (∃ er, BinTable.columns F n i st h = .error er ∧ ∃ j < n, ¬ (ColumnCards F (h.cards.map (·.raw)) (showNat (i + j)) ∧
        Optional F (h.cards.map (·.raw)) (b!"TDISP" ++ showNat (i + j)) .string ∧ Optional F (h.cards.map (·.raw)) (b!"TDIM" ++ showNat (i + j)) .string ∧
        ∃ f w, Lookup F (h.cards.map (·.raw)) (b!"TFORM" ++ showNat (i + j)) .string (.ok (.string f)) ∧ BinWidth f w)) := by
  intro n
  induction n with
  | zero => intro i st h _ _; exact .inl ⟨h, [], rfl, Same.refl h, rfl, fun j c hc => by simp at hc⟩
  | succ n ih =>
    intro i st h hp hn
    unfold BinTable.columns
    rcases out_bin_column hp hn i st with ⟨h1, c, st', a1, a2, a2', a2'', a3, a4, a5⟩ | ⟨er, a1, a2⟩
    swap
    · exact .inr ⟨er, by rw [a1]; rfl, 0, by omega, a2⟩
    rcases ih (i + 1) st' a4 (by rw [a3.raws]; exact hn) with ⟨h2, cs, b1, b2, b3, b4⟩ | ⟨er, b1, j, hj, b2⟩
    swap
    · refine .inr ⟨er, by rw [a1]; simp only [bind, Except.bind]; rw [b1], j + 1, by omega, ?_⟩
      rw [a3.raws, show i + 1 + j = i + (j + 1) by omega] at b2
      exact b2
    refine .inl ⟨h2, c :: cs, by rw [a1]; simp only [bind, Except.bind]; rw [b1]; rfl, a3.trans b2, by simp [b3], ?_⟩
    intro j c' hc
    cases j with
    | zero => cases hc; exact ⟨a2, a2', a2'', a5⟩
    | succ j =>
      have := b4 j c' (by simpa using hc)
      rw [a3.raws, show i + 1 + j = i + (j + 1) by omega] at this
      exact this

/-- The four keywords every table needs. -/
theorem out_base (hp : PlainT F h) :
    (∃ t v, Table.base F h = .ok t ∧ Required F (h.cards.map (·.raw)) b!"GCOUNT" .int ∧ Required F (h.cards.map (·.raw)) b!"PCOUNT" .int ∧
      Required F (h.cards.map (·.raw)) b!"EXTNAME" .string ∧ Lookup F (h.cards.map (·.raw)) b!"TFIELDS" .sizeT (.ok (.sizeT v)) ∧ t.tfields = v.toNat ∧
      Same h t.header ∧ PlainT F t.header) ∨
    (∃ er, Table.base F h = .error er ∧
      FirstError F (h.cards.map (·.raw)) [(b!"GCOUNT", .int), (b!"PCOUNT", .int), (b!"EXTNAME", .string), (b!"TFIELDS", .sizeT)] er) := by
  unfold Table.base
  rcases out_int hp (k := b!"GCOUNT") (by rintro (h | ⟨d, h⟩) <;> simp at h) (by simp [keyTy]) with ⟨h1, g, a1, a2, a3, a4⟩ | ⟨er, a1, a2⟩
  swap
  · exact .inr ⟨er, by rw [a1]; rfl, .here a2⟩
  rcases out_int a4 (k := b!"PCOUNT") (by rintro (h | ⟨d, h⟩) <;> simp at h) (by simp [keyTy]) with ⟨h2, p, b1, b2, b3, b4⟩ | ⟨er, b1, b2⟩
  swap
  · rw [a3.raws] at b2
    exact .inr ⟨er, by rw [a1]; simp only [bind, Except.bind]; rw [b1], .later a2 (.here b2)⟩
  have ab := a3.trans b3
  rw [a3.raws] at b2
  rcases out_str b4 (k := b!"EXTNAME") (by rintro (h | ⟨d, h⟩) <;> simp at h) (by simp [keyTy]) with ⟨h3, x, c1, c2, c3, c4⟩ | ⟨er, c1, c2⟩
  swap
  · rw [ab.raws] at c2
    exact .inr ⟨er, by rw [a1]; simp only [bind, Except.bind]; rw [b1]; simp only; rw [c1], .later a2 (.later b2 (.here c2))⟩
  have ac := ab.trans c3
  rw [ab.raws] at c2
  rcases out_size c4 (k := b!"TFIELDS") (by rintro (h | ⟨d, h⟩) <;> simp at h) (by simp [keyTy]) with ⟨h4, v, d1, d2, d3, d4⟩ | ⟨er, d1, d2⟩
  swap
  · rw [ac.raws] at d2
    exact .inr ⟨er, by rw [a1]; simp only [bind, Except.bind]; rw [b1]; simp only; rw [c1]; simp only; rw [d1],
      .later a2 (.later b2 (.later c2 (.here d2)))⟩
  rw [ac.raws] at d2
  refine .inl ⟨⟨h4, g, p, x, v.toNat, [], []⟩, v, ?_, ⟨_, a2⟩, ⟨_, b2⟩, ⟨_, c2⟩, d2, rfl, ac.trans d3, d4⟩
  rw [a1]; simp only [bind, Except.bind]; rw [b1]; simp only; rw [c1]; simp only; rw [d1]
  rfl

theorem firstError_fun : ∀ {l : List (Str × Ty)} {raws : List Str} {a b : Err}, FirstError F raws l a → FirstError F raws l b → a = b := by
  intro l raws a b ha
  induction ha with
  | here hl =>
    intro hb
    cases hb with
    | here hl' => cases lookup_fun hl hl'; rfl
    | later hl' _ => cases lookup_fun hl hl'
  | later hl _ ih =>
    intro hb
    cases hb with
    | here hl' => cases lookup_fun hl hl'
    | later _ hb => exact ih hb

theorem mapM_all_ok {α β : Type} {f : α → Res β} : ∀ {l : List α}, (∀ x ∈ l, ∃ y, f x = .ok y) → ∃ ys, l.mapM f = .ok ys := by
  intro l
  induction l with
  | nil => intro _; exact ⟨[], rfl⟩
  | cons a l ih =>
    intro h
    rw [List.mapM_cons]
    obtain ⟨y, hy⟩ := h a (by simp)
    obtain ⟨ys, hys⟩ := ih fun x hx => h x (by simp [hx])
    rw [hy, hys]; exact ⟨_, rfl⟩

theorem firstError_not : ∀ {l : List (Str × Ty)} {raws : List Str} {er : Err}, FirstError F raws l er → ¬ ∀ p ∈ l, Required F raws p.1 p.2 := by
  intro l raws er hf
  induction hf with
  | here hl => intro h; exact not_required hl (h _ List.mem_cons_self)
  | later _ _ ih => intro h; exact ih fun p hp => h p (by simp [hp])

theorem bind_pure_ok {α β : Type} (x : Res α) (f : α → β) : (∃ t, Except.bind x (fun d => (pure (f d) : Res β)) = .ok t) ↔ ∃ d, x = .ok d := by
  cases x with
  | error e => exact ⟨fun ⟨_, h⟩ => (by cases h), fun ⟨_, h⟩ => (by cases h)⟩
  | ok d => exact ⟨fun _ => ⟨_, rfl⟩, fun _ => ⟨_, rfl⟩⟩

theorem mapM_ub {α β : Type} {f : α → Res β} : ∀ {l : List α}, (∀ x ∈ l, (∃ y, f x = .ok y) ∨ f x = .error .ub) →
    (∃ ys, l.mapM f = .ok ys) ∨ l.mapM f = .error .ub := by
  intro l
  induction l with
  | nil => intro _; exact .inl ⟨[], rfl⟩
  | cons a l ih =>
    intro h
    rw [List.mapM_cons]
    rcases h a (by simp) with ⟨y, hy⟩ | hy
    · rw [hy]
      rcases ih fun x hx => h x (by simp [hx]) with ⟨ys, hys⟩ | hys
      · rw [hys]; exact .inl ⟨_, rfl⟩
      · rw [hys]; exact .inr rfl
    · rw [hy]; exact .inr rfl

theorem readRow_ub (buf : Str) : ∀ (cols : List Column) (off : Nat), (∀ c ∈ cols, ∃ w, BinWidth c.format w) →
    (∃ x, BinTable.readRow buf cols off = .ok x) ∨ BinTable.readRow buf cols off = .error .ub := by
  intro cols
  induction cols with
  | nil => intro off _; exact .inl ⟨_, rfl⟩
  | cons c cs ih =>
    intro off h
    obtain ⟨w, hw⟩ := h c (by simp)
    unfold BinTable.readRow
    rw [bin_columnSize_iff.2 hw]
    simp only [bind, Except.bind]
    by_cases hl : off + w ≤ buf.length
    · rw [if_pos hl]
      rcases ih (off + w) fun x hx => h x (by simp [hx]) with ⟨x, hx⟩ | hx
      · rw [hx]; exact .inl ⟨_, rfl⟩
      · rw [hx]; exact .inr rfl
    · rw [if_neg hl]; exact .inr rfl

theorem readRows_ub (buf : Str) (cols : List Column) (h : ∀ c ∈ cols, ∃ w, BinWidth c.format w) : ∀ (n off : Nat),
    (∃ x, BinTable.readRows buf cols n off = .ok x) ∨ BinTable.readRows buf cols n off = .error .ub := by
  intro n
  induction n with
  | zero => intro off; exact .inl ⟨_, rfl⟩
  | succ n ih =>
    intro off
    unfold BinTable.readRows
    rcases readRow_ub buf cols off h with ⟨x, hx⟩ | hx
    · rw [hx]
      simp only [bind, Except.bind]
      rcases ih x.2 with ⟨y, hy⟩ | hy
      · rw [hy]; exact .inl ⟨_, rfl⟩
      · rw [hy]; exact .inr rfl
    · rw [hx]; exact .inr rfl

theorem naxisAt_two (h : Header) :
    (∃ a b more, h.naxis = a :: b :: more ∧ h.naxisAt 2 = .ok b ∧ h.naxisAt 1 = .ok a) ∨
    ((∀ a b more, h.naxis ≠ a :: b :: more) ∧ h.naxisAt 2 = .error .ub) := by
  unfold Header.naxisAt
  match hx : h.naxis with
  | [] => exact .inr ⟨by simp, rfl⟩
  | [a] => exact .inr ⟨by simp, rfl⟩
  | a :: b :: more => exact .inl ⟨a, b, more, rfl, rfl, rfl⟩

theorem ascii_make_accept (hp : PlainT F h) (hn : TextNames F (h.cards.map (·.raw))) (buf : Str) :
    ((∃ t, Ascii.make F h buf = .ok t) ↔
      ∃ n, AsciiCards F (h.cards.map (·.raw)) n ∧ (buf = [] ∨ AsciiFits F (h.cards.map (·.raw)) n h.naxis buf)) ∧
    (∀ n, AsciiCards F (h.cards.map (·.raw)) n → (∀ i d f, 1 ≤ i → i ≤ n → IsNat d i →
        Lookup F (h.cards.map (·.raw)) (b!"TFORM" ++ d) .string (.ok (.string f)) → ∃ w, AsciiWidth f w) →
      (∃ t, Ascii.make F h buf = .ok t) ∨ Ascii.make F h buf = .error .ub) := by
  unfold Ascii.make
  rcases out_base hp with ⟨t, v, a1, a2, a3, a4, a5, a6, a7, a8⟩ | ⟨er, a1, a2⟩
  swap
  · have hno : ∀ n, ¬ AsciiCards F (h.cards.map (·.raw)) n := by
      intro n hc
      refine firstError_not a2 ?_
      obtain ⟨v, hv, _⟩ := hc.table.tfields
      simp only [List.mem_cons, List.not_mem_nil, or_false]
      rintro p (rfl | rfl | rfl | rfl)
      exacts [hc.table.gcount, hc.table.pcount, hc.table.extname, ⟨_, hv⟩]
    rw [a1]
    refine ⟨⟨fun ⟨t, ht⟩ => (by cases ht), fun ⟨n, hc, _⟩ => absurd hc (hno n)⟩, fun n hc => absurd hc (hno n)⟩
  have hnn : ∀ n, AsciiCards F (h.cards.map (·.raw)) n → n = t.tfields := by
    intro n hc
    obtain ⟨v', hv, rfl⟩ := hc.table.tfields
    cases lookup_fun hv a5; rw [a6]
  have htab : TableCards F (h.cards.map (·.raw)) t.tfields := ⟨a2, a3, a4, v, a5, a6.symm⟩
  rw [a1]
  simp only [bind, Except.bind]
  unfold Ascii.setInfo
  rcases out_ascii_columns t.tfields 1 a8 (by rw [a7.raws]; exact hn) with ⟨h2, cs, b1, b2, b3, b4⟩ | ⟨er, b1, j, hj, b2⟩
  swap
  · have hno : ∀ n, ¬ AsciiCards F (h.cards.map (·.raw)) n := by
      intro n hc
      cases hnn n hc
      rw [a7.raws] at b2
      exact b2 (hc.column (1 + j) _ (by omega) (by omega) (showNat_isNat _))
    rw [b1]
    refine ⟨⟨fun ⟨t, ht⟩ => (by cases ht), fun ⟨n, hc, _⟩ => absurd hc (hno n)⟩, fun n hc => absurd hc (hno n)⟩
  rw [a7.raws] at b4
  have hcol : ∀ i d, 1 ≤ i → i ≤ t.tfields → IsNat d i → ∃ c, cs[i - 1]? = some c ∧ c ∈ cs ∧ ColumnCards F (h.cards.map (·.raw)) d ∧
      Lookup F (h.cards.map (·.raw)) (b!"TFORM" ++ d) .string (.ok (.string c.format)) ∧
      ∃ v, Lookup F (h.cards.map (·.raw)) (b!"TBCOL" ++ d) .sizeT (.ok (.sizeT v)) ∧ c.start = v.toNat := by
    intro i d h1 h2 hd
    rw [isNat_unique hd]
    have hl : i - 1 < cs.length := by omega
    have := b4 (i - 1) cs[i - 1] (List.getElem?_eq_getElem hl)
    rw [show 1 + (i - 1) = i by omega] at this
    exact ⟨_, List.getElem?_eq_getElem hl, List.getElem_mem hl, this⟩
  have hcards : AsciiCards F (h.cards.map (·.raw)) t.tfields :=
    ⟨htab, fun i d h1 h2 hd => by obtain ⟨c, _, _, g1, _, v, g2, _⟩ := hcol i d h1 h2 hd; exact ⟨g1, _, g2⟩⟩
  rw [b1]
  simp only [bind, Except.bind]
  by_cases hbuf : buf = []
  · rw [if_pos (by simp [hbuf])]
    exact ⟨⟨fun _ => ⟨_, hcards, .inl hbuf⟩, fun _ => ⟨_, rfl⟩⟩, fun _ _ _ => .inl ⟨_, rfl⟩⟩
  rw [if_neg (by simpa using hbuf)]
  have hnax : h2.naxis = h.naxis := (a7.trans b2).naxis
  have hback : ∀ c ∈ cs, ∃ i d, 1 ≤ i ∧ i ≤ t.tfields ∧ IsNat d i ∧ Lookup F (h.cards.map (·.raw)) (b!"TFORM" ++ d) .string (.ok (.string c.format)) ∧
      ∃ v, Lookup F (h.cards.map (·.raw)) (b!"TBCOL" ++ d) .sizeT (.ok (.sizeT v)) ∧ c.start = v.toNat := by
    intro c hc
    obtain ⟨j, hj, rfl⟩ := List.getElem_of_mem hc
    obtain ⟨_, g1, g2⟩ := b4 j cs[j] (List.getElem?_eq_getElem hj)
    exact ⟨1 + j, _, by omega, by omega, showNat_isNat _, g1, g2⟩
  rcases naxisAt_two h2 with ⟨rl, rows, more, n1, n2, n3⟩ | ⟨n1, n2⟩
  swap
  · rw [n2]
    rw [hnax] at n1
    refine ⟨⟨fun ⟨t, ht⟩ => (by cases ht), ?_⟩, fun _ _ _ => .inr rfl⟩
    rintro ⟨n, _, hb | ⟨rl, rows, more, hx, _⟩⟩
    · exact absurd hb hbuf
    · exact absurd hx (n1 _ _ _)
  rw [n2, n3]
  rw [hnax] at n1
  simp only
  refine ⟨?_, ?_⟩
  · refine (bind_pure_ok _ _).trans ⟨?_, ?_⟩
    · rintro ⟨d, hd⟩
      obtain ⟨k1, k2, k3⟩ := (C36_table _ _ _ _ _).1 hd
      refine ⟨_, hcards, .inr ⟨rl, rows, more, n1, ?_, ?_⟩⟩
      · intro h0
        rcases k1 with k1 | k1
        · exact absurd (List.length_eq_zero_iff.1 (b3.trans h0)) k1
        · exact k1
      · intro r i d' f b hr h1 h2 hd' lf lb
        obtain ⟨c, c1, c2, _, c3, v, c4, c5⟩ := hcol i d' h1 h2 hd'
        cases lookup_fun lf c3
        cases lookup_fun lb c4
        have hr' : r < d.length := by omega
        obtain ⟨k4, k5⟩ := k3 r d[r] (List.getElem?_eq_getElem hr')
        have hl : i - 1 < d[r].length := by omega
        obtain ⟨w, field, w1, w2, w3, w4, _⟩ := (C36_cell _ _ _ _ _).1 (k5 (i - 1) c d[r][i - 1] c1 (List.getElem?_eq_getElem hl))
        rw [c5] at w2 w3 w4
        exact ⟨w, w1, w2, w3, (field_iff.1 w4).1⟩
    · rintro ⟨n, hc, hb | ⟨rl', rows', more', hx, h0, hcell⟩⟩
      · exact absurd hb hbuf
      cases hnn n hc
      rw [n1] at hx
      cases hx
      have hcells : ∀ r < rows, ∀ c ∈ cs, ∃ s, Ascii.cell buf rl r c = .ok s := by
        intro r hr c hc'
        obtain ⟨i, d', g1, g2, g3, g4, v', g5, g6⟩ := hback c hc'
        obtain ⟨w, w1, w2, w3, w4⟩ := hcell r i d' _ _ hr g1 g2 g3 g4 g5
        rw [← g6] at w2 w3 w4
        exact ⟨_, (C36_cell _ _ _ _ _).2 ⟨w, _, w1, w2, w3, field_iff.2 ⟨w4, rfl⟩, isTrim_iff.2 rfl⟩⟩
      unfold Ascii.tableData
      rw [if_neg]
      · have hmap : ∀ r ∈ List.range rows, ∃ y, (cs.mapM (Ascii.cell buf rl r)) = .ok y := by
          intro r hr
          exact mapM_all_ok fun c hc' => hcells r (List.mem_range.1 hr) c hc'
        exact mapM_all_ok hmap
      · rintro ⟨g1, g2⟩
        have := List.isEmpty_iff.1 g1
        subst this
        exact g2 (h0 (by simpa using b3.symm))
  · intro n hc hw
    cases hnn n hc
    have : (∃ d, Ascii.tableData buf rl rows cs = .ok d) ∨ Ascii.tableData buf rl rows cs = .error .ub := by
      unfold Ascii.tableData
      split
      · exact .inr rfl
      · refine mapM_ub fun r _ => mapM_ub fun c hc' => ?_
        obtain ⟨i, d', g1, g2, g3, g4, _⟩ := hback c hc'
        obtain ⟨w, hw⟩ := hw i d' _ g1 g2 g3 g4
        unfold Ascii.cell
        simp only
        split
        · exact .inr rfl
        · rw [ascii_columnSize_iff.2 hw]
          simp only [bind, Except.bind]
          split
          · exact .inl ⟨_, rfl⟩
          · exact .inr rfl
    rcases this with ⟨d, hd⟩ | hd
    · rw [hd]; exact .inl ⟨_, rfl⟩
    · rw [hd]; exact .inr rfl

theorem binary_make_accept (hp : PlainT F h) (hn : TextNames F (h.cards.map (·.raw))) (buf : Str) :
    ((∃ t, BinTable.make F h buf = .ok t) ↔
      ∃ n, BinaryCards F (h.cards.map (·.raw)) n ∧ (buf = [] ∨ BinaryFits F (h.cards.map (·.raw)) n h.naxis buf)) ∧
    (∀ n, BinaryCards F (h.cards.map (·.raw)) n → (∃ t, BinTable.make F h buf = .ok t) ∨ BinTable.make F h buf = .error .ub) := by
  unfold BinTable.make
  rcases out_base hp with ⟨t, v, a1, a2, a3, a4, a5, a6, a7, a8⟩ | ⟨er, a1, a2⟩
  swap
  · have hno : ∀ n, ¬ BinaryCards F (h.cards.map (·.raw)) n := by
      intro n hc
      refine firstError_not a2 ?_
      obtain ⟨v, hv, _⟩ := hc.table.tfields
      simp only [List.mem_cons, List.not_mem_nil, or_false]
      rintro p (rfl | rfl | rfl | rfl)
      exacts [hc.table.gcount, hc.table.pcount, hc.table.extname, ⟨_, hv⟩]
    rw [a1]
    refine ⟨⟨fun ⟨t, ht⟩ => (by cases ht), fun ⟨n, hc, _⟩ => absurd hc (hno n)⟩, fun n hc => absurd hc (hno n)⟩
  have hnn : ∀ n, BinaryCards F (h.cards.map (·.raw)) n → n = t.tfields := by
    intro n hc
    obtain ⟨v', hv, rfl⟩ := hc.table.tfields
    cases lookup_fun hv a5; rw [a6]
  have htab : TableCards F (h.cards.map (·.raw)) t.tfields := ⟨a2, a3, a4, v, a5, a6.symm⟩
  rw [a1]
  simp only [bind, Except.bind]
  unfold BinTable.setInfo
  rcases out_bin_columns t.tfields 1 0 a8 (by rw [a7.raws]; exact hn) with ⟨h2, cs, b1, b2, b3, b4⟩ | ⟨er, b1, j, hj, b2⟩
  swap
  · have hno : ∀ n, ¬ BinaryCards F (h.cards.map (·.raw)) n := by
      intro n hc
      cases hnn n hc
      rw [a7.raws] at b2
      exact b2 (hc.column (1 + j) _ (by omega) (by omega) (showNat_isNat _))
    rw [b1]
    refine ⟨⟨fun ⟨t, ht⟩ => (by cases ht), fun ⟨n, hc, _⟩ => absurd hc (hno n)⟩, fun n hc => absurd hc (hno n)⟩
  rw [a7.raws] at b4
  have hcol : ∀ i d, 1 ≤ i → i ≤ t.tfields → IsNat d i → ∃ c, cs[i - 1]? = some c ∧ ColumnCards F (h.cards.map (·.raw)) d ∧
      Optional F (h.cards.map (·.raw)) (b!"TDISP" ++ d) .string ∧ Optional F (h.cards.map (·.raw)) (b!"TDIM" ++ d) .string ∧
      Lookup F (h.cards.map (·.raw)) (b!"TFORM" ++ d) .string (.ok (.string c.format)) ∧ ∃ w, BinWidth c.format w := by
    intro i d h1 h2 hd
    rw [isNat_unique hd]
    have hl : i - 1 < cs.length := by omega
    have := b4 (i - 1) cs[i - 1] (List.getElem?_eq_getElem hl)
    rw [show 1 + (i - 1) = i by omega] at this
    exact ⟨_, List.getElem?_eq_getElem hl, this⟩
  have hcards : BinaryCards F (h.cards.map (·.raw)) t.tfields :=
    ⟨htab, fun i d h1 h2 hd => by
      obtain ⟨c, _, g1, g2, g3, g4, w, g5⟩ := hcol i d h1 h2 hd
      exact ⟨g1, g2, g3, _, _, g4, g5⟩⟩
  have hwid : ∀ c ∈ cs, ∃ w, BinWidth c.format w := by
    intro c hc
    obtain ⟨j, hj, rfl⟩ := List.getElem_of_mem hc
    exact (b4 j cs[j] (List.getElem?_eq_getElem hj)).2.2.2.2
  have hws : ∃ ws, Widths BinWidth (cs.map (·.format)) ws := by
    clear b4 b1 hcol b3
    induction cs with
    | nil => exact ⟨[], trivial⟩
    | cons c cs ih =>
      obtain ⟨w, hw⟩ := hwid c (by simp)
      obtain ⟨ws, hws⟩ := ih fun c hc => hwid c (by simp [hc])
      exact ⟨w :: ws, hw, hws⟩
  obtain ⟨ws, hws⟩ := hws
  have hwl : ws.length = t.tfields := by rw [widths_length hws, List.length_map, b3]
  rw [b1]
  simp only [bind, Except.bind]
  by_cases hbuf : buf = []
  · rw [if_pos (by simp [hbuf])]
    exact ⟨⟨fun _ => ⟨_, hcards, .inl hbuf⟩, fun _ => ⟨_, rfl⟩⟩, fun _ _ => .inl ⟨_, rfl⟩⟩
  rw [if_neg (by simpa using hbuf)]
  have hnax : h2.naxis = h.naxis := (a7.trans b2).naxis
  rcases naxisAt_two h2 with ⟨rl, rows, more, n1, n2, n3⟩ | ⟨n1, n2⟩
  swap
  · rw [n2]
    rw [hnax] at n1
    refine ⟨⟨fun ⟨t, ht⟩ => (by cases ht), ?_⟩, fun _ _ => .inr rfl⟩
    rintro ⟨n, _, hb | ⟨rl, rows, more, ws', hx, _⟩⟩
    · exact absurd hb hbuf
    · exact absurd hx (n1 _ _ _)
  rw [n2, n3]
  rw [hnax] at n1
  simp only
  refine ⟨?_, ?_⟩
  · refine (bind_pure_ok _ _).trans ⟨?_, ?_⟩
    · rintro ⟨d, hd⟩
      refine ⟨_, hcards, .inr ⟨rl, rows, more, ws, n1, ?_, hwl, ?_, ?_⟩⟩
      · intro h0
        rcases (C38_table _ _ _ _).1 hd with ⟨k1, _⟩ | ⟨_, k1, _⟩
        · exact k1
        · exact absurd (List.length_eq_zero_iff.1 (b3.trans h0)) k1
      · rcases (C38_table _ _ _ _).1 hd with ⟨k1, _⟩ | ⟨_, _, ws', k1, k2, _⟩
        · rw [k1]; omega
        · rw [widths_unique binWidth_unique hws k1]; exact k2
      · intro i d f w h1 hd' hw lf
        obtain ⟨hlt, _⟩ := List.getElem?_eq_some_iff.1 hw
        obtain ⟨c, c1, _, _, _, c3, _⟩ := hcol i d h1 (by omega) hd'
        cases lookup_fun lf c3
        exact widths_get hws (i - 1) c.format w (by rw [List.getElem?_map, c1]; rfl) hw
    · rintro ⟨n, hc, hb | ⟨rl', rows', more', ws', hx, h0, hl, hsum, hw⟩⟩
      · exact absurd hb hbuf
      cases hnn n hc
      rw [n1] at hx
      cases hx
      have hww : Widths BinWidth (cs.map (·.format)) ws' := by
        refine widths_of_get (by rw [hl, List.length_map, b3]) ?_
        intro j f w hf hw'
        rw [List.getElem?_map] at hf
        obtain ⟨c, hc1, rfl⟩ := Option.map_eq_some_iff.1 hf
        have := b4 j c hc1
        exact hw (1 + j) _ _ w (by omega) (showNat_isNat _) (by rw [show 1 + j - 1 = j by omega]; exact hw') this.2.2.2.1
      rcases Nat.eq_zero_or_pos rows with hr | hr
      · exact ⟨[], (C38_table _ _ _ _).2 (.inl ⟨hr, rfl⟩)⟩
      have hne : cs ≠ [] := by
        rintro rfl
        have := h0 b3.symm
        omega
      refine ⟨(List.range rows).map fun r => (List.range cs.length).map fun j => trim ((buf.drop (r * ws'.sum + fieldStart ws' j)).take (ws'.getD j 0)),
        (C38_table _ _ _ _).2 (.inr ⟨hr, hne, ws', hww, hsum, by simp, ?_⟩)⟩
      intro r row hrow
      rw [List.getElem?_map] at hrow
      obtain ⟨r', hr', rfl⟩ := Option.map_eq_some_iff.1 hrow
      obtain ⟨k1, k2⟩ := List.getElem?_eq_some_iff.1 hr'
      rw [List.getElem_range] at k2
      subst k2
      rw [List.length_range] at k1
      refine ⟨by simp, ?_⟩
      intro j w x hw' hx
      rw [List.getElem?_map] at hx
      obtain ⟨j', hj', rfl⟩ := Option.map_eq_some_iff.1 hx
      obtain ⟨k3, k4⟩ := List.getElem?_eq_some_iff.1 hj'
      rw [List.getElem_range] at k4
      subst k4
      have hg : ws'.getD j 0 = w := by simp [List.getD, hw']
      rw [hg]
      refine ⟨_, field_iff.2 ⟨?_, rfl⟩, isTrim_iff.2 rfl⟩
      have e1 := (C41_tiling ws').2.1 j w hw'
      have e2 : fieldStart ws' (j + 1) ≤ ws'.sum := by
        unfold fieldStart
        have := List.sum_append (l₁ := ws'.take (j + 1)) (l₂ := ws'.drop (j + 1))
        rw [List.take_append_drop] at this
        omega
      have e3 : (r + 1) * ws'.sum ≤ rows * ws'.sum := Nat.mul_le_mul_right _ k1
      rw [Nat.succ_mul] at e3
      omega
  · intro n hc
    have : (∃ d, BinTable.tableData buf rows cs = .ok d) ∨ BinTable.tableData buf rows cs = .error .ub := by
      unfold BinTable.tableData
      split
      · exact .inr rfl
      · exact readRows_ub buf cs hwid rows 0
    rcases this with ⟨d, hd⟩ | hd
    · rw [hd]; exact .inl ⟨_, rfl⟩
    · rw [hd]; exact .inr rfl

/-- Building an HDU without SIMPLE card: XTENSION is looked at, then the kind of table it names is built. -/
theorem construct_table (F : FloatText) (fuel : Nat) (s s' : Stream) (h h1 : Header) (hg : s.good = true)
    (e : readHeader F fuel Header.empty s = some (.ok (h, s'))) (hp : ∀ k, HeaderKey h k → ¬ Absent (h.cards.map (·.raw)) k)
    (name : Str) (en : h.getHduName F = (h1, .ok name)) (hs : Absent (h.cards.map (·.raw)) b!"SIMPLE") (buf : Str) {x : Str} (hx : Lookup F (h.cards.map (·.raw)) b!"XTENSION" .string (.ok (.string x))) :
    ∃ h2, PlainT F h2 ∧ h2.cards.map (·.raw) = h.cards.map (·.raw) ∧ h2.naxis = h.naxis ∧
      Hdu.construct F h1 buf =
        (if x = b!"TABLE" then (do return .ascii (← Ascii.make F h2 buf))
        else if x = b!"BINTABLE" then (do return .binary (← BinTable.make F h2 buf))
        else .ok .blank) := by
  obtain ⟨hp1, n1, n3, n4⟩ := plain_name (plain_of_read hg e hp) en
  have hp2 : PlainT F h1 := by
    refine hp1.mono ?_
    rintro k t (⟨rfl, rfl⟩ | ⟨rfl, rfl⟩)
    · simp [keyTy]
    · simp [keyTy]
  have hc : h1.containsKeyword b!"SIMPLE" = false := by
    rw [Bool.eq_false_iff]
    intro hc
    obtain ⟨c, hc, hk⟩ := (C28_contains _ _).1 hc
    exact hs c.raw (by rw [← n1]; exact List.mem_map.2 ⟨c, hc, rfl⟩) hk
  rw [← n1] at hx
  have hax : ¬ AxisKey b!"XTENSION" := by rintro (h | ⟨d, h⟩) <;> simp at h
  rcases out_str hp2 hax (by simp [keyTy]) with ⟨h2, y, a1, a2, a3, a4⟩ | ⟨er, a1, a2⟩
  · cases lookup_fun hx a2
    refine ⟨h2, a4, a3.raws.trans n1, a3.naxis.trans n3, ?_⟩
    unfold Hdu.construct Hdu.generateExtension
    rw [hc, a1]
    rfl
  · cases lookup_fun hx a2

end Astro
