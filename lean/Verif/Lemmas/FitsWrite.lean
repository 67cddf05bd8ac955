import Verif.Lemmas.Fits
import Verif.Lemmas.TableData
import Verif.Props.Image

/-
Helper lemmas about writing files.
-/

namespace Astro

open Spec Header Bin

/-- A file being written: good, writable, position at the end. -/
structure AtEnd (s : Stream) : Prop where
  good : s.good = true
  writable : s.writable = true
  pos : s.pos = s.content.length

theorem create_atEnd : AtEnd Stream.create := ⟨rfl, rfl, rfl⟩

theorem AtEnd.ext {s s' : Stream} (h : AtEnd s) (h' : AtEnd s') (hc : s.content = s'.content) : s = s' := by
  obtain ⟨a1, a2⟩ := Stream.good_iff.1 h.good
  obtain ⟨b1, b2⟩ := Stream.good_iff.1 h'.good
  have h1 := h.pos; have h2 := h'.pos; have h3 := h.writable; have h4 := h'.writable
  cases s; cases s'
  simp only at *
  subst hc a1 a2 b1 b2 h3 h4 h1 h2
  rfl

theorem write_atEnd {s : Stream} (h : AtEnd s) (d : Str) : AtEnd (s.write d).1 ∧ (s.write d).1.content = s.content ++ d := by
  rw [Stream.write_end h.good h.writable h.pos]
  exact ⟨⟨h.good, h.writable, rfl⟩, rfl⟩

/-- Filling up to the end of the unit. -/
theorem padUnit_atEnd {s : Stream} (h : AtEnd s) : AtEnd (padUnit s) ∧ ∃ k, (padUnit s).content = s.content ++ List.replicate k 32 ∧
    (s.content.length + 2880 < 2 ^ 63 → 0 < k ∧ k ≤ 2880 ∧ 2880 ∣ s.content.length + k) := by
  unfold padUnit
  rw [Stream.tellg_good h.good]
  simp only
  have hs1 : s.findUnitEnd.1 = s := by
    unfold Stream.findUnitEnd
    rw [Stream.tellg_good h.good]
  generalize hx : s.findUnitEnd = x at *
  obtain ⟨s1, e⟩ := x
  simp only at hs1
  subst hs1
  simp only
  obtain ⟨h1, h2⟩ := write_atEnd h (spaces (szSub e s1.pos))
  refine ⟨h1, szSub e s1.pos, h2, ?_⟩
  intro hb
  have hp := h.pos
  obtain ⟨e', g1, g2, g3, g4⟩ := Stream.findUnitEnd_good h.good (by unfold sizeMod; omega)
  rw [hx] at g1
  cases g1
  have : szSub e s1.pos = e - s1.pos := by
    apply szSub_le
    · omega
    · unfold sizeMod; omega
  rw [this, hp] at *
  refine ⟨by omega, by omega, ?_⟩
  have : s1.content.length + (e - s1.content.length) = e := by omega
  rw [this]; exact g2

theorem writeHeader_eq (h : Header) (s : Stream) : h.writeHeader s = padUnit (s.write (h.cards.map (·.raw)).flatten).1 := by
  unfold writeHeader padUnit
  rw [foldl_raw, List.nil_append]

theorem writeHeader_congr {h h' : Header} (e : h.cards.map (·.raw) = h'.cards.map (·.raw)) (s : Stream) : h.writeHeader s = h'.writeHeader s := by
  rw [writeHeader_eq, writeHeader_eq, e]

theorem writeRows_atEnd : ∀ (rows : List Str) {s : Stream}, AtEnd s → AtEnd (writeRows s rows) ∧ (writeRows s rows).content = s.content ++ rows.flatten
  | [], s, h => ⟨h, by simp [writeRows]⟩
  | r :: rows, s, h => by
    obtain ⟨h1, h2⟩ := write_atEnd h r
    obtain ⟨h3, h4⟩ := writeRows_atEnd rows h1
    refine ⟨h3, ?_⟩
    have e : writeRows s (r :: rows) = writeRows (s.write r).1 rows := rfl
    rw [e, h4, h2]; simp

/-- What is written for a header and the data behind it. -/
def hduStream (s : Stream) (cards : List Str) (data : Str) : Stream := padUnit (padUnit (s.write cards.flatten).1 |>.write data).1

theorem hduStream_atEnd {s : Stream} (h : AtEnd s) (cards : List Str) (data : Str) :
    AtEnd (hduStream s cards data) ∧ ∃ k1 k2, (hduStream s cards data).content =
      s.content ++ cards.flatten ++ List.replicate k1 32 ++ data ++ List.replicate k2 32 ∧
      ((hduStream s cards data).content.length + 2880 < 2 ^ 63 → 0 < k1 ∧ k1 ≤ 2880 ∧ 2880 ∣ s.content.length + cards.flatten.length + k1 ∧
        0 < k2 ∧ k2 ≤ 2880 ∧ 2880 ∣ s.content.length + cards.flatten.length + k1 + data.length + k2) := by
  obtain ⟨h1, e1⟩ := write_atEnd h cards.flatten
  obtain ⟨h2, k1, e2, b2⟩ := padUnit_atEnd h1
  obtain ⟨h3, e3⟩ := write_atEnd h2 data
  obtain ⟨h4, k2, e4, b4⟩ := padUnit_atEnd h3
  have e : (hduStream s cards data).content = s.content ++ cards.flatten ++ List.replicate k1 32 ++ data ++ List.replicate k2 32 := by
    unfold hduStream; rw [e4, e3, e2, e1]
  refine ⟨h4, k1, k2, e, ?_⟩
  intro hb
  rw [e] at hb
  simp only [List.length_append, List.length_replicate] at hb
  rw [e1] at b2
  rw [e3, e2, e1] at b4
  simp only [List.length_append, List.length_replicate] at b2 b4
  obtain ⟨c1, c2, c3⟩ := b2 (by omega)
  obtain ⟨d1, d2, d3⟩ := b4 (by omega)
  exact ⟨c1, c2, c3, d1, d2, d3⟩

/-! ### the data of the HDUs -/

/-- The bytes write_to puts behind the header; `none` for an HDU of unknown kind. -/
def Hdu.payload : Hdu → Option (List Str × Res Str)
  | .blank => none
  | .primary p => some (p.header.cards.map (·.raw), .ok p.data.bytes)
  | .binary t => some (t.header.cards.map (·.raw), .ok (BinTable.rowTexts t).flatten)
  | .ascii t => some (t.header.cards.map (·.raw), (Ascii.rowTexts t).map List.flatten)

theorem Hdu.writeTo_eq {s : Stream} (h : AtEnd s) (x : Hdu) : Hdu.writeTo s x = match x.payload with
    | none => .ok s
    | some (_, .error e) => .error e
    | some (cards, .ok d) => .ok (hduStream s cards d) := by
  have hrows : ∀ (hd : Header) (rows : List Str), padUnit (writeRows (hd.writeHeader s) rows) = hduStream s (hd.cards.map (·.raw)) rows.flatten := by
    intro hd rows
    unfold hduStream
    rw [writeHeader_eq]
    obtain ⟨h1, _⟩ := write_atEnd h (hd.cards.map (·.raw)).flatten
    obtain ⟨h2, _⟩ := padUnit_atEnd h1
    obtain ⟨a1, a2⟩ := writeRows_atEnd rows h2
    obtain ⟨b1, b2⟩ := write_atEnd h2 rows.flatten
    rw [AtEnd.ext a1 b1 (by rw [a2, b2])]
  cases x with
  | blank => rfl
  | primary p =>
    simp only [Hdu.writeTo, Hdu.payload, Primary.writeTo]
    rw [writeHeader_eq]; rfl
  | binary t =>
    simp only [Hdu.writeTo, Hdu.payload, BinTable.writeTo]
    rw [hrows]
  | ascii t =>
    simp only [Hdu.writeTo, Hdu.payload, Ascii.writeTo]
    cases hr : Ascii.rowTexts t with
    | error e => rfl
    | ok rows =>
      simp only [bind, Except.bind, pure, Except.pure, Except.map]
      rw [hrows]

theorem binRows_flatten (t : Table) : (BinTable.rowTexts t).flatten = t.data.flatten.flatten := by
  have hfold : ∀ (l : List Str) (a : Str), l.foldl (fun a s => a ++ s) a = a ++ l.flatten := by
    intro l
    induction l with
    | nil => intro a; simp
    | cons x l ih => intro a; rw [List.foldl_cons, ih]; simp
  unfold BinTable.rowTexts
  rw [List.flatten_flatten]
  congr 1
  apply List.map_congr_left
  intro r _
  rw [hfold, List.nil_append]

/-- One written row: every cell right-justified. -/
theorem rowBytes_cells (cols : List Column) : ∀ (row : List Str) (i : Nat) (text : Str), Ascii.rowBytes cols row i = .ok text →
    ∃ frow : List Str, text = frow.flatten ∧ frow.length = row.length ∧ ∀ (j : Nat) (x f : Str), row[j]? = some x → frow[j]? = some f →
      ∃ (c : Column) (w : Nat), cols[i + j]? = some c ∧ AsciiWidth c.format w ∧ rightJustified w x f := by
  intro row
  induction row with
  | nil => intro i text e; cases e; exact ⟨[], rfl, rfl, fun j x f h => by simp at h⟩
  | cons s row ih =>
    intro i text e
    unfold Ascii.rowBytes at e
    cases hc : cols[i]? with
    | none => rw [hc] at e; cases e
    | some c =>
      rw [hc] at e
      simp only at e
      obtain ⟨w, e1, e⟩ := bind_ok e
      obtain ⟨k, e2, e⟩ := bind_ok e
      obtain ⟨rest, e3, e⟩ := bind_ok e
      cases e
      obtain ⟨frow, g1, g2, g3⟩ := ih (i + 1) rest e3
      refine ⟨(spaces k ++ s) :: frow, by rw [g1]; simp, by simp [g2], ?_⟩
      intro j x f hx hf
      cases j with
      | zero =>
        simp only [List.getElem?_cons_zero, Option.some.injEq] at hx hf
        subst hx hf
        refine ⟨c, w, hc, ascii_columnSize_iff.1 e1, spaces k, rfl, fun b hb => List.eq_of_mem_replicate hb, ?_⟩
        unfold padCount at e2
        split at e2
        · cases e2; simp only [List.length_append, spaces, List.length_replicate]; omega
        · cases e2
      | succ j =>
        obtain ⟨c', w', a1, a2, a3⟩ := g3 j x f (by simpa using hx) (by simpa using hf)
        exact ⟨c', w', by rw [← a1]; congr 1; omega, a2, a3⟩

/-- What is written is what belongs to the HDU. -/
theorem payload_holds {x : Hdu} {cards : List Str} {d : Str} (h : x.payload = some (cards, .ok d)) : Holds x cards d := by
  cases x with
  | blank => cases h
  | primary p =>
    cases h
    refine ⟨rfl, p.data.img.data.map (serialize p.data.kind.size), ?_, by simp, ?_⟩
    · unfold AnyImage.bytes
      rw [writeImage_eq]
      generalize p.data.img.data = l
      induction l with
      | nil => rfl
      | cons x l ih => rw [serializeAll_cons, ih]; simp
    · intro i v s hv hs
      rw [List.getElem?_map, hv] at hs
      cases hs
      exact serialize_isBE _ _
  | binary t => cases h; exact ⟨rfl, binRows_flatten t⟩
  | ascii t =>
    simp only [Hdu.payload, Option.some.injEq, Prod.mk.injEq] at h
    obtain ⟨rfl, h⟩ := h
    cases hr : Ascii.rowTexts t with
    | error e => rw [hr] at h; cases h
    | ok rows =>
      rw [hr] at h
      cases h
      refine ⟨rfl, ?_⟩
      unfold Ascii.rowTexts at hr
      obtain ⟨hl, hr⟩ := mapM_ok_iff.1 hr
      have hch : ∀ r : Nat, ∃ frow : List Str, ∀ (text : Str) (row : List Str), rows[r]? = some text → t.data[r]? = some row →
          text = frow.flatten ∧ frow.length = row.length ∧ ∀ (j : Nat) (x f : Str), row[j]? = some x → frow[j]? = some f →
            ∃ (c : Column) (w : Nat), t.cols[j]? = some c ∧ AsciiWidth c.format w ∧ rightJustified w x f := by
        intro r
        rcases Nat.lt_or_ge r t.data.length with hlt | hge
        · obtain ⟨frow, g1, g2, g3⟩ := rowBytes_cells t.cols _ 0 _ (hr r hlt (by omega))
          refine ⟨frow, fun text row h1 h2 => ?_⟩
          rw [List.getElem?_eq_getElem (by omega)] at h1
          rw [List.getElem?_eq_getElem hlt] at h2
          cases h1; cases h2
          refine ⟨g1, g2, fun j x f hx hf => ?_⟩
          have := g3 j x f hx hf
          rwa [Nat.zero_add] at this
        · exact ⟨[], fun text row h1 h2 => by rw [List.getElem?_eq_none hge] at h2; cases h2⟩
      obtain ⟨f, hf⟩ := Classical.axiomOfChoice hch
      refine ⟨(List.range rows.length).map f, ?_, by simp [hl], ?_⟩
      · rw [List.flatten_flatten, List.map_map]
        congr 1
        apply List.ext_getElem
        · simp
        · intro r h1 h2
          simp only [List.getElem_map, List.getElem_range, Function.comp]
          exact (hf r _ _ (List.getElem?_eq_getElem h1) (List.getElem?_eq_getElem (by omega))).1
      · intro r row frow h1 h2
        have hlt := (List.getElem?_eq_some_iff.1 h1).1
        rw [List.getElem?_map, List.getElem?_range (by omega)] at h2
        cases h2
        obtain ⟨_, g2, g3⟩ := hf r _ row (List.getElem?_eq_getElem (by omega)) h1
        exact ⟨g2, g3⟩

end Astro
