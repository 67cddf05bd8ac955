import Verif.Lemmas.Column

/-
Property C139: column metadata.  Setters and getters; what the table classes put into the metadata, also when the data are replaced; and that unit,
scale, zero, display format, dimensions and comment never influence a cell.
-/

namespace Astro

open Spec

theorem get_set (o : ColObj) (c : ColSet) (f : ColField) :
    (o.set c).get f = if (assigns c).1 = f then .ok (assigns c).2 else o.get f := by
  cases c <;> cases f <;> rfl

theorem get_untouched (f : ColField) : ∀ (calls : List ColSet) (o : ColObj), (∀ c ∈ calls, (assigns c).1 ≠ f) → (calls.foldl ColObj.set o).get f = o.get f := by
  intro calls
  induction calls with
  | nil => intro o _; rfl
  | cons c calls ih =>
    intro o h
    rw [List.foldl_cons, ih _ (fun d hd => h d (List.mem_cons_of_mem _ hd)), get_set, if_neg (h c List.mem_cons_self)]

/-- **C139** After any sequence of setter calls every getter returns the value of the last call of its own setter; if there was none, what it returned
before. -/
theorem C139_history (o : ColObj) (calls : List ColSet) (f : ColField) :
    (∀ v, LastAssigned calls f v → (calls.foldl ColObj.set o).get f = .ok v) ∧
    ((∀ c ∈ calls, (assigns c).1 ≠ f) → (calls.foldl ColObj.set o).get f = o.get f) := by
  refine ⟨?_, get_untouched f calls o⟩
  rintro v ⟨a, c, b, rfl, hc, hb⟩
  rw [List.foldl_append, List.foldl_cons, get_untouched f b _ hb, get_set, hc, if_pos rfl]

/-- Scale set twice, unit once: the getters see the last scale, the unit, and the -1 the constructor chose for zero. -/
example : let o := [ColSet.tscal 5, .tunit b!"'m'", .tscal 7].foldl ColObj.set (ColObj.ofForm b!"'I4'")
    o.get .tscal = .ok (.real 7) ∧ o.get .tunit = .ok (.text b!"'m'") ∧ o.get .tzero = .ok (.real 0xBFF0000000000000#64) ∧ o.get .total = .error .ub := by
  decide +kernel

/-- **C139** What a new object gives: the default constructor leaves the five numbers indeterminate, the other two only the number of elements; they set scale
and zero to -1 and numbers that are not given to `2^64 - 1`. -/
theorem C139_constructed (n : Nat) (s : Str) (f : ColField) :
    ColObj.default.get f = (if f ∈ [.index, .tbcol, .tscal, .tzero, .total] then .error .ub else .ok (.text [])) ∧
    (ColObj.ofPlace n s).get f =
      (match f with
       | .tbcol => .ok (.size n) | .tform => .ok (.text s) | .index => .ok (.size 18446744073709551615)
       | .tscal | .tzero => .ok (.real 0xBFF0000000000000#64) | .total => .error .ub | _ => .ok (.text [])) ∧
    (ColObj.ofForm s).get f =
      (match f with
       | .tform => .ok (.text s) | .index | .tbcol => .ok (.size 18446744073709551615)
       | .tscal | .tzero => .ok (.real 0xBFF0000000000000#64) | .total => .error .ub | _ => .ok (.text [])) := by
  cases f <;> exact ⟨rfl, rfl, rfl⟩

/-! ### what the table classes store -/

theorem populateName_eq (F : FloatText) (h : Header) (i : Nat) (o : ColObj) (ho : o.name = [] ∧ o.comment = []) :
    Table.populateName F h i o = (Table.columnName F h i).map fun r => (r.1, { o with name := r.2.1, comment := r.2.2 }) := by
  obtain ⟨index, name, start, format, unit, scale, zero, display, dimension, comment, total⟩ := o
  obtain ⟨rfl, rfl⟩ : name = [] ∧ comment = [] := ho
  unfold Table.populateName Table.columnName
  cases h.getStr F (b!"TTYPE" ++ showNat i) with
  | error e => cases e <;> rfl
  | ok r =>
    obtain ⟨h1, n⟩ := r
    simp only [ColObj.set]
    cases h1.getStr F n with
    | error e => cases e <;> rfl
    | ok r => rfl

/-- **C139** The setter calls of populate_column_data on a new object produce exactly the record Model/Table describes, or the same exception. -/
theorem C139_populate (F : FloatText) (h : Header) (i start : Nat) :
    Ascii.populate F h i ColObj.default = (Ascii.column F h i).map (fun r => (r.1, r.2.toObj)) ∧
    BinTable.populate F h i start ColObj.default = (BinTable.column F h i start).map (fun r => (r.1, r.2.1.toObj, r.2.2)) := by
  constructor
  · unfold Ascii.populate Ascii.column
    simp only [bind, Except.bind, pure, Except.pure]
    cases h.getStr F (b!"TFORM" ++ showNat i) with
    | error e => rfl
    | ok r1 =>
      simp only
      cases r1.1.getSize F (b!"TBCOL" ++ showNat i) with
      | error e => rfl
      | ok r2 =>
        simp only
        rw [populateName_eq _ _ _ _ ⟨rfl, rfl⟩]
        cases Table.columnName F r2.1 i with
        | error e => rfl
        | ok r3 =>
          simp only [Except.map]
          cases r3.1.optional (r3.1.getStr F (b!"TUNIT" ++ showNat i)) with
          | error e => rfl
          | ok r4 =>
            simp only
            cases r4.1.optional (r4.1.getDouble F (b!"TSCAL" ++ showNat i)) with
            | error e => rfl
            | ok r5 =>
              simp only
              cases r5.1.optional (r5.1.getDouble F (b!"TZERO" ++ showNat i)) with
              | error e => rfl
              | ok r6 => rcases r4 with ⟨_, _ | _⟩ <;> rcases r5 with ⟨_, _ | _⟩ <;> rcases r6 with ⟨_, _ | _⟩ <;> rfl
  · unfold BinTable.populate BinTable.column
    simp only [bind, Except.bind, pure, Except.pure]
    cases h.getStr F (b!"TFORM" ++ showNat i) with
    | error e => rfl
    | ok r1 =>
      simp only [ColObj.set]
      cases BinTable.columnSize r1.2 with
      | error e => rfl
      | ok w =>
        simp only
        rw [populateName_eq _ _ _ _ ⟨rfl, rfl⟩]
        cases Table.columnName F r1.1 i with
        | error e => rfl
        | ok r3 =>
          simp only [Except.map]
          cases r3.1.optional (r3.1.getStr F (b!"TUNIT" ++ showNat i)) with
          | error e => rfl
          | ok r4 =>
            simp only
            cases r4.1.optional (r4.1.getDouble F (b!"TSCAL" ++ showNat i)) with
            | error e => rfl
            | ok r5 =>
              simp only
              cases r5.1.optional (r5.1.getDouble F (b!"TZERO" ++ showNat i)) with
              | error e => rfl
              | ok r6 =>
                simp only
                cases r6.1.optional (r6.1.getStr F (b!"TDISP" ++ showNat i)) with
                | error e => rfl
                | ok r7 =>
                  simp only
                  cases r7.1.optional (r7.1.getStr F (b!"TDIM" ++ showNat i)) with
                  | error e => rfl
                  | ok r8 =>
                    simp only
                    have hf : (((((ColObj.setIf (ColObj.setIf (ColObj.setIf (ColObj.setIf (ColObj.setIf
                        { index := some i, name := r3.2.1, start := some start, format := r1.2, unit := ColObj.default.unit, scale := ColObj.default.scale, zero := ColObj.default.zero, display := ColObj.default.display, dimension := ColObj.default.dimension, comment := r3.2.2, total := ColObj.default.total }
                        ColSet.tunit r4.2) ColSet.tscal r5.2) ColSet.tzero r6.2) ColSet.tdisp r7.2) ColSet.tdim r8.2))))).format = r1.2 := by
                      rcases r4 with ⟨_, _ | _⟩ <;> rcases r5 with ⟨_, _ | _⟩ <;> rcases r6 with ⟨_, _ | _⟩ <;> rcases r7 with ⟨_, _ | _⟩ <;>
                        rcases r8 with ⟨_, _ | _⟩ <;> rfl
                    rw [hf]
                    cases Bin.elementCount r1.2 with
                    | error e => rfl
                    | ok n =>
                      rcases r4 with ⟨_, _ | _⟩ <;> rcases r5 with ⟨_, _ | _⟩ <;> rcases r6 with ⟨_, _ | _⟩ <;> rcases r7 with ⟨_, _ | _⟩ <;>
                        rcases r8 with ⟨_, _ | _⟩ <;> rfl

/-- Scale and zero of a column of a table made from a header: the numbers on the cards TSCALn and TZEROn.  Without the card the getter reads a number nobody
has set (it does not give the 1 and 0 the FITS standard prescribes). -/
def ScaleIs (F : FloatText) (raws : List Str) (key : Str) (r : Res ColVal) : Prop :=
  (∃ x, Declares F raws key .double (.double x) ∧ r = .ok (.real x)) ∨ (Absent raws key ∧ r = .error .ub)

theorem scaleIs_of_opt {F : FloatText} {raws : List Str} {k : Str} {v : Option (BitVec 64)} (h : OptDouble F raws k v) :
    ScaleIs F raws k (ColObj.number .real v) := by
  rcases h with ⟨x, rfl, hx⟩ | ⟨ha, rfl⟩
  · exact Or.inl ⟨x, hx, rfl⟩
  · exact Or.inr ⟨ha, rfl⟩

/-- **C139** What TSCAL() and TZERO() of the metadata of a table give. -/
theorem C139_scale (F : FloatText) (fuel : Nat) (s s' : Stream) (h : Header) (hg : s.good = true)
    (e : Header.readHeader F fuel Header.empty s = some (.ok (h, s'))) (buf : Str) (hbuf : buf ≠ []) (t : Table)
    (hm : Ascii.make F h buf = .ok t ∨ BinTable.make F h buf = .ok t) (j : Nat) (c : Column) (hc : t.cols[j]? = some c) :
    ScaleIs F (h.cards.map (·.raw)) (b!"TSCAL" ++ showNat (j + 1)) (c.toObj.get .tscal) ∧
    ScaleIs F (h.cards.map (·.raw)) (b!"TZERO" ++ showNat (j + 1)) (c.toObj.get .tzero) := by
  rcases hm with hm | hm
  · have := (C36_make F fuel s s' h hg e buf hbuf t hm).2.2.1 j c hc
    exact ⟨scaleIs_of_opt this.scale, scaleIs_of_opt this.zero⟩
  · have := (C41_make F fuel s s' h hg e buf hbuf t hm).2.2.1 j c hc
    exact ⟨scaleIs_of_opt this.scale, scaleIs_of_opt this.zero⟩

/-- **C139** set_data leaves the metadata of the columns as the constructor made them. -/
theorem C139_set_data (F : FloatText) (h : Header) (hw : ∀ c ∈ h.cards, c.raw.length = 80) (buf buf' : Str) (t t' : Table) :
    (Ascii.make F h buf = .ok t → Ascii.setInfo F t buf' = .ok t' → t'.cols = t.cols ∧ t'.header = t.header) ∧
    (BinTable.make F h buf = .ok t → BinTable.setInfo F t buf' = .ok t' → t'.cols = t.cols ∧ t'.header = t.header) := by
  have hbase : ∀ t0, Table.base F h = .ok t0 → Wide t0.header := by
    intro t0 e0
    unfold Table.base at e0
    obtain ⟨⟨h1, g⟩, e1, e0⟩ := bind_ok e0
    obtain ⟨⟨h2, p⟩, e2, e0⟩ := bind_ok e0
    obtain ⟨⟨h3, x⟩, e3, e0⟩ := bind_ok e0
    obtain ⟨⟨h4, n⟩, e4, e0⟩ := bind_ok e0
    simp only at e1 e2 e3 e4 e0
    cases e0
    have hw' : Wide h := by
      intro r hr
      obtain ⟨c, hc, rfl⟩ := List.mem_map.1 hr
      exact hw c hc
    exact hw'.keeps ((((get_again (getInt_ok e1)).1.trans (get_again (getInt_ok e2)).1).trans (getStr_again e3).1).trans (getSize_again e4).1)
  constructor
  · intro hm hs
    unfold Ascii.make at hm
    obtain ⟨t0, e0, hm⟩ := bind_ok hm
    unfold Ascii.setInfo at hm hs
    obtain ⟨⟨h1, cs⟩, e1, hm⟩ := bind_ok hm
    obtain ⟨_, r1⟩ := ascii_columns_again _ 1 (hbase t0 e0) e1
    have key : t.cols = cs ∧ t.header = h1 ∧ t.tfields = t0.tfields := by
      simp only at hm
      split at hm
      · cases hm; exact ⟨rfl, rfl, rfl⟩
      · obtain ⟨rows, _, hm⟩ := bind_ok hm
        obtain ⟨rowLen, _, hm⟩ := bind_ok hm
        obtain ⟨d, _, hm⟩ := bind_ok hm
        cases hm; exact ⟨rfl, rfl, rfl⟩
    obtain ⟨⟨h2, cs2⟩, e2, hs⟩ := bind_ok hs
    rw [key.2.1, key.2.2, r1 h1 (Retains.refl _)] at e2
    cases e2
    simp only at hs
    split at hs
    · cases hs; exact ⟨key.1.symm, key.2.1.symm⟩
    · obtain ⟨rows, _, hs⟩ := bind_ok hs
      obtain ⟨rowLen, _, hs⟩ := bind_ok hs
      obtain ⟨d, _, hs⟩ := bind_ok hs
      cases hs; exact ⟨key.1.symm, key.2.1.symm⟩
  · intro hm hs
    unfold BinTable.make at hm
    obtain ⟨t0, e0, hm⟩ := bind_ok hm
    unfold BinTable.setInfo at hm hs
    obtain ⟨⟨h1, cs⟩, e1, hm⟩ := bind_ok hm
    obtain ⟨_, r1⟩ := bin_columns_again _ 1 0 (hbase t0 e0) e1
    have key : t.cols = cs ∧ t.header = h1 ∧ t.tfields = t0.tfields := by
      simp only at hm
      split at hm
      · cases hm; exact ⟨rfl, rfl, rfl⟩
      · obtain ⟨rows, _, hm⟩ := bind_ok hm
        obtain ⟨rowLen, _, hm⟩ := bind_ok hm
        obtain ⟨d, _, hm⟩ := bind_ok hm
        cases hm; exact ⟨rfl, rfl, rfl⟩
    obtain ⟨⟨h2, cs2⟩, e2, hs⟩ := bind_ok hs
    rw [key.2.1, key.2.2, r1 h1 (Retains.refl _)] at e2
    cases e2
    simp only at hs
    split at hs
    · cases hs; exact ⟨key.1.symm, key.2.1.symm⟩
    · obtain ⟨rows, _, hs⟩ := bind_ok hs
      obtain ⟨rowLen, _, hs⟩ := bind_ok hs
      obtain ⟨d, _, hs⟩ := bind_ok hs
      cases hs; exact ⟨key.1.symm, key.2.1.symm⟩

/-- The table of Props/TableNames, which has no TSCAL1 card: TSCAL() is undefined, before and after set_data, which replaces the cells. -/
example : (match Header.readHeader exNoFloats 14 Header.empty (Stream.openRead (exTableCards b!"COUNT").flatten) with
    | some (.ok (h, _)) =>
      match Ascii.make exNoFloats h b!" 12  7" with
      | .ok t =>
        match Ascii.setInfo exNoFloats t b!"300  5" with
        | .ok t' => decide (t'.data = [[b!"300"], [b!"5"]] ∧ t'.cols = t.cols ∧ t.cols.length = 1 ∧ t.cols.map (fun c => c.toObj.get .tscal) = [.error .ub] ∧
            t.cols.map (fun c => c.toObj.get .ttype) = [.ok (.text b!"COUNT")])
        | .error _ => false
      | .error _ => false
    | _ => false) = true := by decide +kernel

/-! ### what does not matter -/

/-- **C139** Columns that differ only in unit, scale, zero, display format, dimensions and comment: the same buffer is cut into the same cells, cells are
written as the same bytes, and no program that works with columns of any element type sees a difference. -/
theorem C139_unscaled (cs cs' : List Column) (h : List.Forall₂ SamePlace cs cs') :
    (∀ buf rowLen rows, Ascii.tableData buf rowLen rows cs = Ascii.tableData buf rowLen rows cs') ∧
    (∀ buf rows, BinTable.tableData buf rows cs = BinTable.tableData buf rows cs') ∧
    (∀ row, Ascii.rowBytes cs row 0 = Ascii.rowBytes cs' row 0) ∧
    (∀ (Φ : Family) (data : List (List Str)) (uses : List (Use Φ)), program (Obj.fresh cs data) uses = program (Obj.fresh cs' data) uses) :=
  ⟨ascii_data_alike h, bin_data_alike h, fun row => rowBytes_alike h row 0, fun _ _ uses => program_alike uses ⟨h, rfl, rfl⟩⟩

/-- What both lists of cards say about keyword `k` is the same. -/
def SaySame (F : FloatText) (raws raws' : List Str) (k : Str) (t : Ty) : Prop :=
  (Absent raws k ↔ Absent raws' k) ∧ ∀ v, Declares F raws k t v ↔ Declares F raws' k t v

theorem declares_not_absent {F : FloatText} {raws : List Str} {k : Str} {t : Ty} {v : Val} (h : Declares F raws k t v) : ¬ Absent raws k := by
  obtain ⟨i, r, ⟨hl, hk, _⟩, hr, _⟩ := h
  exact fun ha => ha _ (List.getElem_mem hl) hk

theorem optStr_same {F : FloatText} {raws raws' : List Str} {k s s' : Str} (hs : SaySame F raws raws' k .string) (h : OptStr F raws k s)
    (h' : OptStr F raws' k s') : s = s' := by
  rcases h with h | ⟨ha, rfl⟩
  · rcases h' with h' | ⟨ha', rfl⟩
    · have := declares_fun ((hs.2 _).1 h) h'; cases this; rfl
    · exact absurd (hs.1.2 ha') (declares_not_absent h)
  · rcases h' with h' | ⟨ha', rfl⟩
    · exact absurd (hs.1.1 ha) (declares_not_absent h')
    · rfl

theorem forall₂_of_get {cs cs' : List Column} (hl : cs.length = cs'.length) (h : ∀ (j : Nat) (c c' : Column), cs[j]? = some c → cs'[j]? = some c' → SamePlace c c') :
    List.Forall₂ SamePlace cs cs' := by
  rw [List.forall₂_iff_get]
  refine ⟨hl, fun i h1 h2 => ?_⟩
  exact h i _ _ (List.getElem?_eq_getElem h1) (List.getElem?_eq_getElem h2)

/-- **C139** Two ASCII tables with the same data whose headers say the same about TFIELDS, TFORMn, TBCOLn, TTYPEn and the axes, whatever they say about units,
scales and zeros: all cells are the same, and every program sees the same. -/
theorem C139_ascii (F : FloatText) (fuel fuel' : Nat) (s₁ s₂ s₁' s₂' : Stream) (h h' : Header) (hg : s₁.good = true) (hg' : s₁'.good = true)
    (e : Header.readHeader F fuel Header.empty s₁ = some (.ok (h, s₂))) (e' : Header.readHeader F fuel' Header.empty s₁' = some (.ok (h', s₂')))
    (buf : Str) (hbuf : buf ≠ []) (t t' : Table) (hm : Ascii.make F h buf = .ok t) (hm' : Ascii.make F h' buf = .ok t') (hax : h.naxis = h'.naxis)
    (hf : SaySame F (h.cards.map (·.raw)) (h'.cards.map (·.raw)) b!"TFIELDS" .sizeT)
    (hc : ∀ n, SaySame F (h.cards.map (·.raw)) (h'.cards.map (·.raw)) (b!"TFORM" ++ showNat n) .string ∧
      SaySame F (h.cards.map (·.raw)) (h'.cards.map (·.raw)) (b!"TBCOL" ++ showNat n) .sizeT ∧
      SaySame F (h.cards.map (·.raw)) (h'.cards.map (·.raw)) (b!"TTYPE" ++ showNat n) .string) :
    t.data = t'.data ∧ ∀ (G : StreamText) (uses : List (Use (asciiFamily F G))), program (Obj.fresh t.cols t.data) uses = program (Obj.fresh t'.cols t'.data) uses := by
  obtain ⟨_, ⟨v, hv, hd⟩, hcols, _⟩ := C36_make F fuel _ _ h hg e buf hbuf t hm
  obtain ⟨_, ⟨v', hv', hd'⟩, hcols', _⟩ := C36_make F fuel' _ _ h' hg' e' buf hbuf t' hm'
  have hlen : t.cols.length = t'.cols.length := by
    have := declares_fun ((hf.2 _).1 hd) hd'
    cases this
    rw [← hv, ← hv']
  have hall : List.Forall₂ SamePlace t.cols t'.cols := by
    refine forall₂_of_get hlen fun j c c' h1 h2 => ?_
    have a := hcols j c h1
    have b := hcols' j c' h2
    obtain ⟨x1, x2, x3⟩ := hc (j + 1)
    have y1 := declares_fun ((x1.2 _).1 a.format) b.format
    obtain ⟨w, hw, a2⟩ := a.start
    obtain ⟨w', hw', b2⟩ := b.start
    have y2 := declares_fun ((x2.2 _).1 a2) b2
    cases y2
    exact ⟨a.index.trans b.index.symm, optStr_same x3 a.name b.name, by rw [← hw, ← hw'], Val.string.inj y1, a.total.trans b.total.symm⟩
  have hdata : t.data = t'.data := by
    have key : ∀ (fuel : Nat) (s s' : Stream) (h : Header) (t : Table), s.good = true → Header.readHeader F fuel Header.empty s = some (.ok (h, s')) →
        Ascii.make F h buf = .ok t → ∃ rowLen rows, h.naxis[1]? = some rows ∧ h.naxis[0]? = some rowLen ∧ Ascii.tableData buf rowLen rows t.cols = .ok t.data := by
      intro fuel s s' h t hg e hm
      have hs := sound_of_read hg e
      unfold Ascii.make at hm
      obtain ⟨t0, e0, hm⟩ := bind_ok hm
      obtain ⟨s0, d0, _⟩ := base_ok hs e0
      unfold Ascii.setInfo at hm
      obtain ⟨⟨h1, cs⟩, e1, hm⟩ := bind_ok hm
      obtain ⟨s1, d1, l1, p1⟩ := ascii_columns_ok _ 1 d0 e1
      simp only at hm
      rw [if_neg (by simpa using hbuf)] at hm
      obtain ⟨rows, e2, hm⟩ := bind_ok hm
      obtain ⟨rowLen, e3, hm⟩ := bind_ok hm
      obtain ⟨d, e4, hm⟩ := bind_ok hm
      cases hm
      obtain ⟨_, e2⟩ := naxisAt_ok e2
      obtain ⟨_, e3⟩ := naxisAt_ok e3
      rw [(s0.trans s1).naxis] at e2 e3
      exact ⟨rowLen, rows, e2, e3, e4⟩
    obtain ⟨l, r, k1, k2, k3⟩ := key _ _ _ _ _ hg e hm
    obtain ⟨l', r', k1', k2', k3'⟩ := key _ _ _ _ _ hg' e' hm'
    rw [hax, k1'] at k1
    rw [hax, k2'] at k2
    cases k1; cases k2
    rw [ascii_data_alike hall, k3'] at k3
    exact (Except.ok.inj k3).symm
  exact ⟨hdata, fun G uses => program_alike uses ⟨hall, hdata, rfl⟩⟩

/-- **C139** Two binary tables with the same data whose headers say the same about TFIELDS, TFORMn, TTYPEn and the axes, whatever they say about units, scales,
zeros, display formats and dimensions: all cells are the same, and every program sees the same. -/
theorem C139_binary (F : FloatText) (fuel fuel' : Nat) (s₁ s₂ s₁' s₂' : Stream) (h h' : Header) (hg : s₁.good = true) (hg' : s₁'.good = true)
    (e : Header.readHeader F fuel Header.empty s₁ = some (.ok (h, s₂))) (e' : Header.readHeader F fuel' Header.empty s₁' = some (.ok (h', s₂')))
    (buf : Str) (hbuf : buf ≠ []) (t t' : Table) (hm : BinTable.make F h buf = .ok t) (hm' : BinTable.make F h' buf = .ok t') (hax : h.naxis = h'.naxis)
    (hf : SaySame F (h.cards.map (·.raw)) (h'.cards.map (·.raw)) b!"TFIELDS" .sizeT)
    (hc : ∀ n, SaySame F (h.cards.map (·.raw)) (h'.cards.map (·.raw)) (b!"TFORM" ++ showNat n) .string ∧
      SaySame F (h.cards.map (·.raw)) (h'.cards.map (·.raw)) (b!"TTYPE" ++ showNat n) .string) :
    t.data = t'.data ∧ ∀ (uses : List (Use binFamily)), program (Obj.fresh t.cols t.data) uses = program (Obj.fresh t'.cols t'.data) uses := by
  obtain ⟨_, ⟨v, hv, hd⟩, hcols, ws, hws, hst, _⟩ := C41_make F fuel _ _ h hg e buf hbuf t hm
  obtain ⟨_, ⟨v', hv', hd'⟩, hcols', ws', hws', hst', _⟩ := C41_make F fuel' _ _ h' hg' e' buf hbuf t' hm'
  have hlen : t.cols.length = t'.cols.length := by
    have := declares_fun ((hf.2 _).1 hd) hd'
    cases this
    rw [← hv, ← hv']
  have hfmt : ∀ (j : Nat) (c c' : Column), t.cols[j]? = some c → t'.cols[j]? = some c' → c.format = c'.format := by
    intro j c c' h1 h2
    have := declares_fun (((hc (j + 1)).1.2 _).1 (hcols j c h1).format) (hcols' j c' h2).format
    exact Val.string.inj this
  have hfs : t.cols.map (·.format) = t'.cols.map (·.format) := by
    apply List.ext_getElem (by simp [hlen])
    intro j h1 h2
    simp only [List.getElem_map]
    simp only [List.length_map] at h1 h2
    exact hfmt j _ _ (List.getElem?_eq_getElem h1) (List.getElem?_eq_getElem h2)
  have hww : ws = ws' := by
    rw [← hfs] at hws'
    exact widths_unique binWidth_unique hws hws'
  have hall : List.Forall₂ SamePlace t.cols t'.cols := by
    refine forall₂_of_get hlen fun j c c' h1 h2 => ?_
    have a := hcols j c h1
    have b := hcols' j c' h2
    have y1 := hfmt j c c' h1 h2
    refine ⟨a.index.trans b.index.symm, optStr_same (hc (j + 1)).2 a.name b.name, ?_, y1, ?_⟩
    · rw [hst j c h1, hst' j c' h2, hww]
    · have := a.total
      rw [y1, b.total] at this
      exact (Except.ok.inj this).symm
  have hdata : t.data = t'.data := by
    have key : ∀ (fuel : Nat) (s s' : Stream) (h : Header) (t : Table), s.good = true → Header.readHeader F fuel Header.empty s = some (.ok (h, s')) →
        BinTable.make F h buf = .ok t → ∃ rows, h.naxis[1]? = some rows ∧ BinTable.tableData buf rows t.cols = .ok t.data := by
      intro fuel s s' h t hg e hm
      have hs := sound_of_read hg e
      unfold BinTable.make at hm
      obtain ⟨t0, e0, hm⟩ := bind_ok hm
      obtain ⟨s0, d0, _⟩ := base_ok hs e0
      unfold BinTable.setInfo at hm
      obtain ⟨⟨h1, cs⟩, e1, hm⟩ := bind_ok hm
      obtain ⟨s1, d1, l1, p1⟩ := bin_columns_ok _ 1 0 d0 (by decide) e1
      simp only at hm
      rw [if_neg (by simpa using hbuf)] at hm
      obtain ⟨rows, e2, hm⟩ := bind_ok hm
      obtain ⟨rowLen, e3, hm⟩ := bind_ok hm
      obtain ⟨d, e4, hm⟩ := bind_ok hm
      cases hm
      obtain ⟨_, e2⟩ := naxisAt_ok e2
      rw [(s0.trans s1).naxis] at e2
      exact ⟨rows, e2, e4⟩
    obtain ⟨r, k1, k3⟩ := key _ _ _ _ _ hg e hm
    obtain ⟨r', k1', k3'⟩ := key _ _ _ _ _ hg' e' hm'
    rw [hax, k1'] at k1
    cases k1
    rw [bin_data_alike hall, k3'] at k3
    exact (Except.ok.inj k3).symm
  exact ⟨hdata, fun uses => program_alike uses ⟨hall, hdata, rfl⟩⟩

/-- A column of 16-bit numbers stored with TSCAL 2.5 and TZERO 1000: reading the cell with bytes 0, 7 gives the stored 7, as without scale. -/
example : let c : Column := ⟨1, b!"N", 0, b!"1I", [], some 0x4004000000000000#64, some 0x408F400000000000#64, [], [], [], 1⟩
    let c' : Column := ⟨1, b!"N", 0, b!"1I", [], none, none, [], [], [], 1⟩
    SamePlace c c' ∧ BinTable.tableData [0, 7] 1 [c] = .ok [[[0, 7]]] ∧ BinTable.tableData [0, 7] 1 [c'] = .ok [[[0, 7]]] ∧
    ((Obj.fresh [c] [[[0, 7]]] : Obj binFamily).read b!"N" ⟨.int16, false⟩ 0).2 = .ok (7#16 : BitVec (8 * 2)) := by
  exact ⟨⟨rfl, rfl, rfl, rfl, rfl⟩, by decide +kernel, by decide +kernel, rfl⟩

end Astro
