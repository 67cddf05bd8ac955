import Verif.Props.FitsRoundTrip
import Verif.Spec.FitsCopy

/-
Helper lemmas about copies of files.
-/

namespace Astro

open Spec Header Reader Bin

/-- The cards of a header are the bytes of the file. -/
theorem headerAt_raws {F : FloatText} {content : Str} {loc : Nat} {h : Header} (hh : HeaderAt F content loc h) :
    h.cards.map (·.raw) = pieces content loc 0 h.cards.length := by
  obtain ⟨fuel, s', e⟩ := hh
  unfold readHeader at e
  cases hc : readCards fuel Header.empty { Stream.openRead content with pos := loc } with
  | none => rw [hc] at e; cases e
  | some x =>
    rw [hc] at e
    cases x with
    | error er => cases e
    | ok y =>
      obtain ⟨h1, s2⟩ := y
      simp only at e
      cases hi : h1.interpret F with
      | error er => rw [hi] at e; cases e
      | ok h2 =>
        rw [hi] at e
        simp only [Option.some.injEq, Except.ok.injEq, Prod.mk.injEq] at e
        obtain ⟨rfl, rfl⟩ := e
        obtain ⟨n, i1, _, i3⟩ := readCards_some (streamAt_zero rfl) hc
        rcases i3 with ⟨j1, s', j2, j3⟩ | ⟨_, j3⟩
        · cases j3
          obtain ⟨b, hread, _⟩ := interpret_ok hi
          have hr : h2.cards.map (·.raw) = pieces content loc 0 (n + 1) := by
            rw [hread.raws, addCards_cards]; simp [Header.empty, Function.comp_def, Stream.openRead]
          have hl : h2.cards.length = n + 1 := by
            have := congrArg List.length hr
            simpa [pieces] using this
          rw [hl]; exact hr
        · cases j3

theorem pieces_flatten (c : Str) (p : Nat) : ∀ n k, (pieces c p k n).flatten = window c (p + 80 * k) (80 * n)
  | 0, k => rfl
  | n + 1, k => by
    rw [pieces_succ, List.flatten_cons, pieces_flatten c p n (k + 1)]
    unfold piece
    apply List.ext_getElem?
    intro i
    unfold window
    by_cases hi : i < 80
    · rw [List.getElem?_append_left (by simpa using hi), List.getElem?_map, List.getElem?_map, List.getElem?_range hi, List.getElem?_range (by omega)]
    · rw [List.getElem?_append_right (by simp; omega)]
      simp only [List.length_map, List.length_range, List.getElem?_map]
      by_cases hj : i < 80 * (n + 1)
      · rw [List.getElem?_range hj, List.getElem?_range (by omega)]
        simp only [Option.map_some]
        congr 2; omega
      · rw [List.getElem?_eq_none (by simp; omega), List.getElem?_eq_none (by simp; omega)]; rfl

theorem window_append {c : Str} {p n : Nat} (t : Str) (h : p + n ≤ c.length) : window (c ++ t) p n = window c p n := by
  unfold window
  apply List.map_congr_left
  intro i hi
  have := List.mem_range.1 hi
  rw [List.getD_eq_getElem?_getD, List.getD_eq_getElem?_getD, List.getElem?_append_left (by omega)]

theorem window_at (a d b : Str) : window (a ++ d ++ b) a.length d.length = d := by
  rw [window_inside (by simp), List.append_assoc, List.drop_left, List.take_left]

theorem window_get {c c' : Str} {p n : Nat} (h : window c p n = window c' p n) {i : Nat} (h1 : p ≤ i) (h2 : i < p + n) : c.getD i 32 = c'.getD i 32 := by
  have := congrArg (fun l => l[i - p]?) h
  unfold window at this
  simp only [List.getElem?_map] at this
  rw [List.getElem?_range (by omega)] at this
  simp only [Option.map_some, Option.some.injEq] at this
  have e : p + (i - p) = i := by omega
  rwa [e] at this

theorem boundary_unique {p a b : Nat} (ha : NextBoundary p a) (hb : NextBoundary p b) : a = b := by
  obtain ⟨⟨x, rfl⟩, _, _⟩ := ha
  obtain ⟨⟨y, rfl⟩, _, _⟩ := hb
  omega

/-- Where the parts of an HDU lie follows from its place and its header. -/
theorem placed_unique {F : FloatText} {c c' : Str} {e e' : Entry} (h : Placed F c e) (h' : Placed F c' e') (hl : e.loc = e'.loc)
    (hh : e.header = e'.header) : e.dataLoc = e'.dataLoc ∧ e.bytes = e'.bytes ∧ e.next = e'.next := by
  have h1 := h.dataLoc
  have h2 := h'.dataLoc
  rw [← hl, ← hh] at h2
  have hd := boundary_unique h1 h2
  refine ⟨hd, ?_⟩
  by_cases hz : e.header.dataSize = 0
  · obtain ⟨a1, a2⟩ := h.noData hz
    obtain ⟨b1, b2⟩ := h'.noData (by rw [← hh]; exact hz)
    exact ⟨by rw [a1, b1], by rw [a2, b2, hd]⟩
  · obtain ⟨⟨b, a1, a2⟩, a3⟩ := h.data hz
    obtain ⟨⟨b', b1, b2⟩, b3⟩ := h'.data (by rw [← hh]; exact hz)
    rw [← hh] at b1 b2
    rw [a1] at b1
    cases b1
    have hb : e.bytes = e'.bytes := by rw [a2, b2]
    refine ⟨hb, ?_⟩
    rw [← hb, ← hd] at b3
    exact boundary_unique a3 b3

theorem complete_unique {F : FloatText} {c c' : Str} {e e' : Entry} (h : Complete F c e) (h' : Complete F c' e') (hl : e.loc = e'.loc)
    (hh : e.header = e'.header) (hx : e.hdu = e'.hdu) : e = e' := by
  obtain ⟨a1, a2, a3⟩ := placed_unique h.toPlaced h'.toPlaced hl hh
  obtain ⟨h1, b1, _⟩ := h.built
  obtain ⟨h2, c1, _⟩ := h'.built
  rw [← hh, b1] at c1
  have hn : e.name = e'.name := by
    have := (Prod.mk.inj c1).2
    exact Except.ok.inj this
  cases e; cases e'
  simp only at *
  subst hl hh a1 a2 a3 hn hx
  rfl

/-- An HDU found in a file is ready to be written. -/
theorem ready_of_complete {F : FloatText} {content : Str} {e : Entry} (hc : Complete F content e) (hf : DataFits e.header e.hdu) :
    Ready F e.header e.hdu := by
  obtain ⟨fuel, s', hh⟩ := hc.header
  obtain ⟨h1, hn, hcon⟩ := hc.built
  refine ⟨⟨fuel, _, s', rfl, hh⟩, ⟨h1, e.name, _, e.hdu, hn, hcon, ?_⟩, hf⟩
  cases hx : e.hdu with
  | blank => rw [hx] at hf; exact absurd hf id
  | primary p => exact ⟨p.data.img.data, rfl⟩
  | ascii t => exact ⟨t.data, rfl⟩
  | binary t => exact ⟨t.data, rfl⟩

/-! ### what determines the data bytes -/

/-- What belongs to an HDU is determined by it. -/
theorem rightJustified_unique {w : Nat} {x f g : Str} (hf : rightJustified w x f) (hg : rightJustified w x g) : f = g := by
  obtain ⟨p, rfl, p1, p2⟩ := hf
  obtain ⟨q, rfl, q1, q2⟩ := hg
  rw [List.length_append] at p2 q2
  congr 1
  rw [List.eq_replicate_of_mem p1, List.eq_replicate_of_mem q1]
  congr 1; omega

theorem holds_ascii_unique {t : Table} {c c' : List Str} {d d' : Str} (h : Holds (.ascii t) c d) (h' : Holds (.ascii t) c' d') : d = d' := by
  obtain ⟨_, f, rfl, f1, f2⟩ := h
  obtain ⟨_, g, rfl, g1, g2⟩ := h'
  congr 2
  apply List.ext_getElem (by rw [f1, g1])
  intro r h1 h2
  have hr : r < t.data.length := by omega
  obtain ⟨a1, a2⟩ := f2 r _ _ (List.getElem?_eq_getElem hr) (List.getElem?_eq_getElem h1)
  obtain ⟨b1, b2⟩ := g2 r _ _ (List.getElem?_eq_getElem hr) (List.getElem?_eq_getElem h2)
  apply List.ext_getElem (by rw [a1, b1])
  intro j h3 h4
  have hj : j < (t.data[r]).length := by omega
  obtain ⟨c1, w1, e1, e2, e3⟩ := a2 j _ _ (List.getElem?_eq_getElem hj) (List.getElem?_eq_getElem h3)
  obtain ⟨c2, w2, k1, k2, k3⟩ := b2 j _ _ (List.getElem?_eq_getElem hj) (List.getElem?_eq_getElem h4)
  rw [e1] at k1
  cases k1
  have := asciiWidth_unique _ _ _ e2 k2
  subst this
  exact rightJustified_unique e3 k3

/-- Pixels tell the bytes they were read from. -/
theorem readImage_inj {b : Bitpix} (hb : b ≠ .B8) {im x : Image b} {u v : Str} (hl : u.length = v.length) (hd : b.size ∣ u.length) (hu : u ≠ [])
    (e : im.readImage u = .ok x) (e' : im.readImage v = .ok x) : u = v := by
  have hv : v ≠ [] := by rintro rfl; exact hu (List.length_eq_zero_iff.1 hl)
  have h1 := (C20_read_write hb im u hu).2.2 hd
  have h2 := (C20_read_write hb im v hv).2.2 (by rw [← hl]; exact hd)
  rw [e] at h1
  rw [e'] at h2
  exact Except.ok.inj (h1.symm.trans h2)

theorem trim_full {f x : Str} (h : IsTrim f x) (hl : f.length = x.length) : f = x := by
  obtain ⟨a, b, rfl, _⟩ := h
  simp only [List.length_append] at hl
  have ha : a = [] := List.length_eq_zero_iff.1 (by omega)
  have hb : b = [] := List.length_eq_zero_iff.1 (by omega)
  rw [ha, hb]; simp

theorem field_take {buf s : Str} {off w : Nat} (h : Field buf off w s) : (buf.drop off).take w = s := by
  obtain ⟨a, b, rfl, rfl, rfl⟩ := h
  rw [List.append_assoc, List.drop_left, List.take_left]

/-- Cells that fill their columns tell the bytes they were read from. -/
theorem tableData_bytes {buf : Str} {rows : Nat} {cols : List Column} {d : List (List Str)} (e : BinTable.tableData buf rows cols = .ok d)
    {ws : List Nat} (hw : Widths BinWidth (cols.map (·.format)) ws) (hr : ∀ row ∈ d, row.map List.length = ws) (hd : d ≠ [])
    (hl : buf.length = d.length * ws.sum) : d.flatten.flatten = buf := by
  rcases (C38_table buf rows cols d).1 e with ⟨_, h0⟩ | ⟨_, _, ws', g1, _, g3, g4⟩
  · exact absurd h0 hd
  · have := widths_unique binWidth_unique hw g1
    subst this
    have hrow : ∀ (r : Nat) (row : List Str), d[r]? = some row → row.flatten = (buf.drop (r * ws.sum)).take ws.sum := by
      intro r row h
      have hm := hr row (List.mem_of_getElem? h)
      obtain ⟨k1, k2⟩ := g4 r row h
      rw [← pieces'_flatten buf ws (r * ws.sum)]
      congr 1
      have hlen : row.length = ws.length := by rw [← hm, List.length_map]
      apply List.ext_getElem?
      intro j
      rcases Nat.lt_or_ge j ws.length with hj | hj
      · rw [pieces'_get buf ws _ j _ (List.getElem?_eq_getElem hj), List.getElem?_eq_getElem (by omega)]
        obtain ⟨f, f1, f2⟩ := k2 j _ _ (List.getElem?_eq_getElem hj) (List.getElem?_eq_getElem (by omega))
        have hx : row[j].length = ws[j] := by
          have := congrArg (fun l => l[j]?) hm
          simp only [List.getElem?_map] at this
          rw [List.getElem?_eq_getElem (by omega), List.getElem?_eq_getElem hj] at this
          simpa using this
        have hfl : f.length = ws[j] := by obtain ⟨_, _, _, _, q⟩ := f1; exact q
        rw [field_take f1, trim_full f2 (by rw [hfl, hx])]
      · rw [List.getElem?_eq_none (by omega), List.getElem?_eq_none (by rw [pieces'_length]; omega)]
    rw [List.flatten_flatten]
    have : d.map List.flatten = pieces' buf 0 (List.replicate d.length ws.sum) := by
      apply List.ext_getElem?
      intro r
      rcases Nat.lt_or_ge r d.length with hj | hj
      · rw [pieces'_get buf _ 0 r ws.sum (by rw [List.getElem?_replicate, if_pos hj]), List.getElem?_map, List.getElem?_eq_getElem hj]
        have hfs : fieldStart (List.replicate d.length ws.sum) r = r * ws.sum := by
          unfold fieldStart
          rw [List.take_replicate, List.sum_replicate_nat, Nat.min_eq_left (by omega)]
        rw [hfs, Nat.zero_add, Option.map_some, hrow r _ (List.getElem?_eq_getElem hj)]
      · rw [List.getElem?_eq_none (by simpa using hj), List.getElem?_eq_none (by rw [pieces'_length]; simpa using hj)]
    rw [this, pieces'_flatten, List.sum_replicate_nat, ← hl, List.drop_zero, List.take_length]

/-- Images and binary tables tell the bytes they were read from. -/
theorem construct_inj {F : FloatText} {h h1 : Header} {x : Hdu} (hb : h1.bitpix = h.bitpix) (hf : DataFits h x)
    (ha : ∀ t, x ≠ .ascii t) {u v : Str} (hl : u.length = v.length) {b : Bitpix} (hbp : h.bitpix = some b)
    (hu : u.length = h.naxis.foldr (· * ·) 1 * b.size) (hne : u ≠ [])
    (eu : Hdu.construct F h1 u = .ok x) (ev : Hdu.construct F h1 v = .ok x) : u = v := by
  have hne' : v ≠ [] := by rintro rfl; exact hne (List.length_eq_zero_iff.1 hl)
  unfold Hdu.construct at eu ev
  split at eu
  next hc =>
    rw [if_pos hc] at ev
    obtain ⟨p, e1, eu⟩ := bind_ok eu
    obtain ⟨p', e2, ev⟩ := bind_ok ev
    cases eu; cases ev
    unfold Primary.make at e1 e2
    rw [hb, hbp] at e1 e2
    simp only at e1 e2
    obtain ⟨img, i1, e1⟩ := bind_ok e1
    obtain ⟨⟨h2, sv⟩, e3, e1⟩ := bind_ok e1
    obtain ⟨⟨h3, ev⟩, e4, e1⟩ := bind_ok e1
    obtain ⟨img', i2, e2⟩ := bind_ok e2
    obtain ⟨⟨h2', sv'⟩, e3', e2⟩ := bind_ok e2
    obtain ⟨⟨h3', ev'⟩, e4', e2⟩ := bind_ok e2
    have e1 := Except.ok.inj e1
    have e2 := Except.ok.inj e2
    rw [← e1] at e2
    have him : img' = img := by
      have := congrArg Primary.data e2
      exact this
    subst him
    obtain ⟨k1, _⟩ := hf
    rw [← e1] at k1
    simp only at k1
    unfold AnyImage.make at i1 i2
    obtain ⟨im, j1, i1⟩ := bind_ok i1
    obtain ⟨im', j2, i2⟩ := bind_ok i2
    have i1 := Except.ok.inj i1
    have i2 := Except.ok.inj i2
    rw [← i1] at i2 k1
    simp only [AnyImage.mk.injEq, heq_eq_eq, true_and] at i2
    subst i2
    exact readImage_inj k1 hl (by rw [hu]; exact Nat.dvd_mul_left _ _) hne j1 j2
  next hc =>
    rw [if_neg hc] at ev
    have key : ∀ (t : Table) (w : Str), w.length = u.length → w ≠ [] → Hdu.generateExtension F h1 w = .ok (.binary t) → DataFits h (.binary t) →
        t.data.flatten.flatten = w := by
      intro t w hw hwn ew hft
      obtain ⟨ws, f1, f2, f3, f4, f5, f6⟩ := hft
      unfold Hdu.generateExtension at ew
      obtain ⟨⟨h2, k⟩, _, ew⟩ := bind_ok ew
      simp only at ew
      split at ew
      · obtain ⟨_, _, ew⟩ := bind_ok ew
        cases ew
      · split at ew
        · obtain ⟨t0, e3, ew⟩ := bind_ok ew
          cases ew
          unfold BinTable.make at e3
          obtain ⟨tb, e4, e3⟩ := bind_ok e3
          unfold BinTable.setInfo at e3
          obtain ⟨⟨h5, cs⟩, e5, e3⟩ := bind_ok e3
          simp only at e3
          split at e3
          next h0 => exact absurd (List.isEmpty_iff.1 h0) hwn
          next h0 =>
            obtain ⟨_, _, e3⟩ := bind_ok e3
            obtain ⟨_, _, e3⟩ := bind_ok e3
            obtain ⟨d, e6, e3⟩ := bind_ok e3
            cases e3
            refine tableData_bytes e6 f1 (fun row hr => (f6 row hr).1) f5 ?_
            rw [f2] at hbp
            cases hbp
            rw [hw, hu, f3]
            simp only [List.foldr_cons, List.foldr_nil, Bitpix.size, Nat.mul_one]
            rw [Nat.mul_comm]
        · cases ew
    cases x with
    | blank => exact absurd hf id
    | ascii t => exact absurd rfl (ha t)
    | primary p =>
      exfalso
      unfold Hdu.generateExtension at eu
      obtain ⟨⟨h2, k⟩, _, eu⟩ := bind_ok eu
      simp only at eu
      split at eu
      · obtain ⟨_, _, eu⟩ := bind_ok eu; cases eu
      · split at eu
        · obtain ⟨_, _, eu⟩ := bind_ok eu; cases eu
        · cases eu
    | binary t => exact (key t u rfl hne eu hf).symm.trans (key t v hl.symm hne' ev hf)

/-! ### one HDU in the copy -/

theorem entry_order {F : FloatText} {content : Str} {e : Entry} (h : Placed F content e) :
    e.loc + 80 * e.header.cards.length < e.dataLoc ∧ e.dataLoc + e.bytes ≤ e.next := by
  refine ⟨h.dataLoc.2.1, ?_⟩
  by_cases hz : e.header.dataSize = 0
  · obtain ⟨h1, h2⟩ := h.noData hz; omega
  · exact Nat.le_of_lt (h.data hz).2.2.1

theorem cardsOf_payload {x : Hdu} {c : List Str} {d : Res Str} (h : x.payload = some (c, d)) : cardsOf x = c := by
  cases x <;> simp only [Hdu.payload, reduceCtorEq, Option.some.injEq, Prod.mk.injEq] at h <;> exact h.1

/-- What is the same in the copy, for one HDU. -/
structure Copied (F : FloatText) (content copy : Str) (e : Entry) : Prop where
  complete : Complete F copy e
  cards : window copy e.loc (80 * e.header.cards.length) = window content e.loc (80 * e.header.cards.length)
  holds : Holds e.hdu (cardsOf e.hdu) (dataOf copy e)
  data : (∀ t, e.hdu ≠ .ascii t) → dataOf copy e = dataOf content e
  filled : ∀ i, e.loc ≤ i → i < e.next → ¬ InCards e i → ¬ InData e i → copy[i]? = some 32

theorem copy_entry {F : FloatText} {content : Str} {e : Entry} (hc : Complete F content e) (hf : DataFits e.header e.hdu) {s : Stream} (hs : AtEnd s)
    (hl : s.content.length = e.loc) :
    ∃ s', Hdu.writeTo s e.hdu = .ok s' ∧ AtEnd s' ∧ (∃ t, s'.content = s.content ++ t) ∧ (s'.content.length + 5760 < 2 ^ 63 →
      s'.content.length = e.next ∧ ∀ rest, Copied F content (s'.content ++ rest) e) := by
  have hr := ready_of_complete hc hf
  obtain ⟨s', w1, w2, w3, w4⟩ := writeTo_complete hr hs
  refine ⟨s', w1, w2, w3, fun hb => ?_⟩
  have hcomp : ∀ rest, Complete F (s'.content ++ rest) e ∧ e.next = s'.content.length := by
    intro rest
    obtain ⟨e', a1, a2, a3, a4, a5⟩ := w4 hb rest
    have : e = e' := complete_unique hc a1 (by rw [a2, hl]) a5.symm a4.symm
    subst this
    exact ⟨a1, a3⟩
  have hnext := (hcomp []).2
  refine ⟨hnext.symm, fun rest => ?_⟩
  obtain ⟨h1, name, d, b, r1, r2, r3, r4, r5, r6, r7⟩ := rebuild hr
  have hw := Hdu.writeTo_eq hs e.hdu
  rw [r2] at hw
  simp only at hw
  rw [w1] at hw
  have hw := Except.ok.inj hw
  obtain ⟨_, k1, k2, c, hk⟩ := hduStream_atEnd hs (e.header.cards.map (·.raw)) d
  rw [← hw] at c hk
  obtain ⟨b1, b2, b3, b4, b5, b6⟩ := hk (by omega)
  obtain ⟨fuel, s1, hh⟩ := hc.header
  have h80 := (sound_of_read rfl hh).size
  have hfl := flatten_length80 _ h80
  rw [List.length_map] at hfl
  rw [hl, hfl] at b3
  have hdl : e.dataLoc = e.loc + 80 * e.header.cards.length + k1 :=
    boundary_unique hc.dataLoc ⟨b3, by omega, by omega⟩
  have hcl := congrArg List.length c
  simp only [List.length_append, List.length_replicate, hfl, hl] at hcl
  have hd64 : d.length < 2 ^ 64 := by omega
  have hmul : e.header.naxis.foldr (· * ·) 1 ≤ d.length := by
    rw [r6]; exact Nat.le_mul_of_pos_right _ (size_pos b)
  have hds : e.header.dataSize = e.header.naxis.foldr (· * ·) 1 := by
    rw [C29_data_size, if_neg r5, Nat.mod_eq_of_lt (by omega)]
  have hds0 : e.header.dataSize ≠ 0 := by
    rw [hds]; intro h0
    rw [h0, Nat.zero_mul] at r6
    exact r3 (List.length_eq_zero_iff.1 r6)
  have hbytes : e.bytes = d.length := by
    obtain ⟨⟨b', q1, q2⟩, _⟩ := hc.data hds0
    rw [r4] at q1
    cases q1
    rw [q2, hds, ← r6, Nat.mod_eq_of_lt hd64]
  have hdata : dataOf (s'.content ++ rest) e = d := by
    unfold dataOf
    have e1 : e.dataLoc = (s.content ++ (e.header.cards.map Card.raw).flatten ++ List.replicate k1 32).length := by
      simp only [List.length_append, List.length_replicate, hfl, hl, hdl]
    have e2 : s'.content ++ rest = s.content ++ (e.header.cards.map Card.raw).flatten ++ List.replicate k1 32 ++ d ++ (List.replicate k2 32 ++ rest) := by
      rw [c]; simp only [List.append_assoc]
    rw [e2, e1, hbytes, window_at]
  refine ⟨(hcomp rest).1, ?_, ?_, ?_, ?_⟩
  · have e1 := headerAt_raws (hcomp rest).1.header
    have e2 := headerAt_raws hc.header
    have := congrArg List.flatten (e1.symm.trans e2)
    rw [pieces_flatten, pieces_flatten] at this
    exact this
  · rw [hdata, cardsOf_payload r2]
    exact payload_holds r2
  · intro hna
    rw [hdata]
    obtain ⟨h1', n1, n2⟩ := hc.built
    rw [r1] at n1
    obtain ⟨rfl, _⟩ := Prod.mk.inj n1
    obtain ⟨_, _, _, m4, _⟩ := getHduName_ok (sound_of_read rfl hh) r1
    exact construct_inj (h := e.header) m4 hf hna (by unfold dataOf; rw [window_length, hbytes]) r4 r6 r3 (r7 hd64) n2
  · intro i i1 i2 i3 i4
    have q1 : e.loc + 80 * e.header.cards.length ≤ i := by
      rcases Nat.lt_or_ge i (e.loc + 80 * e.header.cards.length) with h | h
      · exact absurd ⟨i1, h⟩ i3
      · exact h
    rw [hnext] at i2
    rw [List.getElem?_append_left i2, c]
    rcases Nat.lt_or_ge i e.dataLoc with h | h
    · rw [List.getElem?_append_left (by simp only [List.length_append, List.length_replicate, hfl, hl]; omega),
        List.getElem?_append_left (by simp only [List.length_append, List.length_replicate, hfl, hl]; omega),
        List.getElem?_append_right (by simp only [List.length_append, hfl, hl]; omega), List.getElem?_replicate,
        if_pos (by simp only [List.length_append, hfl, hl]; omega)]
    · have q2 : e.dataLoc + e.bytes ≤ i := by
        rcases Nat.lt_or_ge i (e.dataLoc + e.bytes) with h' | h'
        · exact absurd ⟨h, h'⟩ i4
        · exact h'
      rw [List.getElem?_append_right (by simp only [List.length_append, List.length_replicate, hfl, hl]; omega), List.getElem?_replicate,
        if_pos (by simp only [List.length_append, List.length_replicate, hfl, hl]; omega)]

/-! ### all HDUs -/

theorem chain_le {F : FloatText} {content : Str} : ∀ {es : List Entry} {p q : Nat}, Chain (Complete F content) p es q → p ≤ q
  | [], _, _, h => Nat.le_of_eq h
  | e :: es, p, q, h => by
    obtain ⟨h1, h2, h3⟩ := h
    have := chain_le h3
    have := entry_order h2.toPlaced
    omega

theorem chain_from {F : FloatText} {content : Str} : ∀ {es : List Entry} {p q : Nat}, Chain (Complete F content) p es q → ∀ e ∈ es, p ≤ e.loc
  | [], _, _, _, e, he => by cases he
  | a :: es, p, q, h, e, he => by
    obtain ⟨h1, h2, h3⟩ := h
    rcases List.mem_cons.1 he with rfl | he
    · omega
    · have := chain_from h3 e he
      have := entry_order h2.toPlaced
      omega

theorem copy_chain {F : FloatText} {content : Str} : ∀ (es : List Entry) {p q : Nat}, Chain (Complete F content) p es q →
    (∀ e ∈ es, DataFits e.header e.hdu) → ∀ {s : Stream}, AtEnd s → s.content.length = p →
    ∃ s', (es.map (·.hdu)).foldlM Hdu.writeTo s = .ok s' ∧ AtEnd s' ∧ (∃ t, s'.content = s.content ++ t) ∧ (s'.content.length + 5760 < 2 ^ 63 →
      s'.content.length = q ∧ ∀ rest, Chain (Copied F content (s'.content ++ rest)) p es q ∧
        ∀ i, p ≤ i → i < q → Filler es i → (s'.content ++ rest)[i]? = some 32)
  | [], p, q, h, _, s, hs, hl => ⟨s, rfl, hs, ⟨[], by simp⟩, fun _ => ⟨by rw [hl]; exact h, fun rest => ⟨h, fun i h1 h2 _ => by
      have : p = q := h
      omega⟩⟩⟩
  | e :: es, p, q, h, hf, s, hs, hl => by
    obtain ⟨h1, h2, h3⟩ := h
    obtain ⟨s1, a1, a2, ⟨t1, a3⟩, a4⟩ := copy_entry h2 (hf e List.mem_cons_self) hs (by rw [hl, h1])
    by_cases hb1 : s1.content.length + 5760 < 2 ^ 63
    · obtain ⟨b1, b2⟩ := a4 hb1
      obtain ⟨s2, c1, c2, ⟨t2, c3⟩, c4⟩ := copy_chain es h3 (fun e' he => hf e' (List.mem_cons_of_mem _ he)) a2 b1
      refine ⟨s2, by rw [List.map_cons, foldlM_cons, a1]; exact c1, c2, ⟨t1 ++ t2, by rw [c3, a3, List.append_assoc]⟩, fun hb => ?_⟩
      obtain ⟨d1, d2⟩ := c4 hb
      refine ⟨d1, fun rest => ?_⟩
      obtain ⟨f1, f2⟩ := d2 rest
      have g := b2 (t2 ++ rest)
      rw [← List.append_assoc, ← c3] at g
      refine ⟨⟨h1, g, f1⟩, fun i i1 i2 i3 => ?_⟩
      rcases Nat.lt_or_ge i e.next with hi | hi
      · obtain ⟨k1, k2⟩ := i3 e List.mem_cons_self
        exact g.filled i (by omega) hi k1 k2
      · exact f2 i hi i2 (fun e' he => i3 e' (List.mem_cons_of_mem _ he))
    · obtain ⟨s2, c1, c2, ⟨t2, c3⟩, _⟩ := foldlM_complete (F := F) (es.map (·.hdu)) (by
        intro x hx
        obtain ⟨e', he, rfl⟩ := List.mem_map.1 hx
        have : ∀ {es : List Entry} {p q : Nat}, Chain (Complete F content) p es q → ∀ e ∈ es, Complete F content e := by
          intro es
          induction es with
          | nil => intro p q _ e he; cases he
          | cons a es ih =>
            intro p q hc e he
            rcases List.mem_cons.1 he with rfl | he
            · exact hc.2.1
            · exact ih hc.2.2 e he
        exact ⟨_, ready_of_complete (this h3 e' he) (hf e' (List.mem_cons_of_mem _ he))⟩) a2
      refine ⟨s2, by rw [List.map_cons, foldlM_cons, a1]; exact c1, c2, ⟨t1 ++ t2, by rw [c3, a3, List.append_assoc]⟩, fun hb => ?_⟩
      rw [c3, List.length_append] at hb
      omega

end Astro
