import Verif.Props.FitsWrite
import Verif.Props.HduKind

/-
Property C31: a file that is written and opened again.
-/

namespace Astro

open Spec Header Reader Bin

/-! ### rebuilding an HDU from its own bytes -/

theorem getBool_ok {F : FloatText} {h h' : Header} {k : Str} {v : Bool} (e : h.getBool F k = .ok (h', v)) :
    h.get F k .bool = .ok (h', .bool v) := by
  unfold Header.getBool at e
  split at e <;> first | (cases e; assumption) | cases e

theorem prod_pos_of_length {α : Type} {l : List α} {n : Nat} (h : l ≠ []) (e : l.length = n) : 0 < n := by
  rw [← e]; exact List.length_pos_iff.2 h

/-- An HDU with fitting data is rebuilt from the bytes written for it. -/
theorem rebuild {F : FloatText} {h : Header} {x : Hdu} (hr : Ready F h x) : ∃ h1 name d b, h.getHduName F = (h1, .ok name) ∧
    x.payload = some (h.cards.map (·.raw), .ok d) ∧ d ≠ [] ∧ h.bitpix = some b ∧ h.naxis ≠ [] ∧ d.length = h.naxis.foldr (· * ·) 1 * b.size ∧
    (d.length < 2 ^ 64 → Hdu.construct F h1 d = .ok x) := by
  obtain ⟨fuel, s, s', hg, e⟩ := hr.read
  obtain ⟨h1, name, buf, x0, en, ex, ho⟩ := hr.built
  have hs := sound_of_read hg e
  obtain ⟨n1, n2, n3, n4, hs1⟩ := getHduName_ok hs en
  have hfits := hr.fits
  unfold Hdu.construct at ex
  by_cases hc : h1.containsKeyword b!"SIMPLE" = true
  · rw [if_pos hc] at ex
    obtain ⟨p0, e1, ex⟩ := bind_ok ex
    cases ex
    cases x with
    | primary p =>
      obtain ⟨px, rfl⟩ := ho
      obtain ⟨f1, f2, f3, f4⟩ := hfits
      unfold Primary.make at e1
      cases hb : h1.bitpix with
      | none => rw [hb] at e1; cases e1
      | some b =>
        rw [hb] at e1
        simp only at e1
        obtain ⟨img, e2, e1⟩ := bind_ok e1
        obtain ⟨⟨h2, sv⟩, e3, e1⟩ := bind_ok e1
        obtain ⟨⟨h3, ev⟩, e4, e1⟩ := bind_ok e1
        cases e1
        simp only at *
        obtain ⟨s2, d2, _⟩ := get_ok hs1 (getBool_ok e3)
        obtain ⟨s3, d3, _⟩ := get_ok d2 (getBool_ok e4)
        unfold AnyImage.make at e2
        obtain ⟨im, e5, e2⟩ := bind_ok e2
        cases e2
        simp only at *
        have him : im.width = some 0 ∧ im.height = some 0 := by
          unfold Image.readImage at e5
          split at e5
          · cases e5; exact ⟨rfl, rfl⟩
          · obtain ⟨_, _, e6⟩ := bind_ok e5
            cases e6; exact ⟨rfl, rfl⟩
        have him' : ({ im with data := px } : Image b) = { (Image.fresh : Image b) with data := px } := by
          cases im; simp only at him; obtain ⟨rfl, rfl⟩ := him; rfl
        have hlen : ({ im with data := px } : Image b).writeImage.length = px.length * b.size := by
          rw [writeImage_eq, serializeAll_length (serialize_length _)]
        refine ⟨h1, name, ({ im with data := px } : Image b).writeImage, b, en, ?_, ?_, by rw [← n4, hb], f3, by rw [hlen, f4], ?_⟩
        · simp only [Hdu.payload, AnyImage.bytes]
          rw [s3.raws, s2.raws, n1]
        · intro h0
          rw [h0] at hlen
          have := Nat.mul_pos (List.length_pos_iff.2 f2) (size_pos b)
          rw [← hlen] at this
          exact absurd this (by simp)
        · intro _
          unfold Hdu.construct
          rw [if_pos hc]
          unfold Primary.make AnyImage.make
          rw [hb]
          simp only
          rw [C20_write_read f1 _ _ f2]
          simp only [bind, Except.bind, pure, Except.pure, e3, e4, him']
    | _ => exact absurd ho id
  · rw [if_neg hc] at ex
    have hmk : ∀ d, Hdu.construct F h1 d = Hdu.generateExtension F h1 d := by
      intro d; unfold Hdu.construct; rw [if_neg hc]
    unfold Hdu.generateExtension at ex
    obtain ⟨⟨h2, k⟩, e1, e2⟩ := bind_ok ex
    obtain ⟨s2, d2, _⟩ := get_ok hs1 (getStr_ok e1)
    simp only at e2
    by_cases hk1 : k = b!"TABLE"
    · rw [if_pos hk1] at e2
      obtain ⟨t0, e3, e2⟩ := bind_ok e2
      cases e2
      cases x with
      | ascii t =>
        obtain ⟨d, rfl⟩ := ho
        obtain ⟨ws, f1, f2, f3, f4, f5, f6, f7, f8⟩ := hfits
        unfold Ascii.make at e3
        obtain ⟨tb, e4, e3⟩ := bind_ok e3
        obtain ⟨s4, d4, _⟩ := base_ok d2 e4
        unfold Ascii.setInfo at e3
        obtain ⟨⟨h5, cs⟩, e5, e3⟩ := bind_ok e3
        obtain ⟨s5, d5, l5, _⟩ := ascii_columns_ok _ 1 d4 e5
        simp only at e3
        have ht0 : t0.header = h5 ∧ t0.cols = cs ∧ t0.gcount = tb.gcount ∧ t0.pcount = tb.pcount ∧ t0.extname = tb.extname ∧ t0.tfields = tb.tfields := by
          split at e3
          · cases e3; exact ⟨rfl, rfl, rfl, rfl, rfl, rfl⟩
          · obtain ⟨_, _, e3⟩ := bind_ok e3
            obtain ⟨_, _, e3⟩ := bind_ok e3
            obtain ⟨_, _, e3⟩ := bind_ok e3
            cases e3; exact ⟨rfl, rfl, rfl, rfl, rfl, rfl⟩
        have hn5 : h5.naxis = [ws.sum, d.length] := by rw [s5.naxis, s4.naxis, s2.naxis, n3, f3]
        have hlen : ws.length = t0.cols.length := by rw [widths_length f1, List.length_map]
        have hne : t0.cols ≠ [] := by intro h0; rw [h0] at hlen; exact f4 (List.length_eq_zero_iff.1 hlen)
        have hrow : ∀ row ∈ d, row.length = t0.cols.length ∧
            ∀ (j : Nat) (s : Str) (w : Nat), row[j]? = some s → ws[j]? = some w → s.length ≤ w :=
          fun row hr => ⟨by rw [← hlen]; exact (f8 row hr).1, (f8 row hr).2.1⟩
        obtain ⟨rows, r1, r2, r3⟩ := C37_rows { t0 with data := d } ws f1 hrow
        have hflat : rows.flatten.length = d.length * ws.sum := by
          rw [List.length_flatten]
          have : rows.map List.length = List.replicate d.length ws.sum := by
            apply List.eq_replicate_iff.2
            refine ⟨by simpa using r2, ?_⟩
            intro l hl
            obtain ⟨r, hr, rfl⟩ := List.mem_map.1 hl
            obtain ⟨i, hi, rfl⟩ := List.getElem_of_mem hr
            exact (r3 i _ _ (List.getElem?_eq_getElem hi) (List.getElem?_eq_getElem (by rw [← r2]; exact hi))).1
          rw [this, List.sum_replicate_nat]
        have hsum : 0 < ws.sum := by
          cases ws with
          | nil => exact absurd rfl f4
          | cons w ws => have := f6 w List.mem_cons_self; rw [List.sum_cons]; omega
        have hpos : 0 < rows.flatten.length := by rw [hflat]; exact Nat.mul_pos (List.length_pos_iff.2 f5) hsum
        refine ⟨h1, name, rows.flatten, .B8, en, ?_, fun h0 => by rw [h0] at hpos; simp at hpos, f2, by rw [f3]; simp, ?_, ?_⟩
        · simp only [Hdu.payload]
          rw [r1, ht0.1, s5.raws, s4.raws, s2.raws, n1]
          rfl
        · rw [f3, hflat]; simp only [List.foldr_cons, List.foldr_nil, Bitpix.size, Nat.mul_one]; rw [Nat.mul_comm]
        · intro hb
          obtain ⟨rows', q1, q2⟩ := C37_same_cells { t0 with data := d } ws f1 hne f6 f7 hrow (by rw [← hflat]; exact hb) [] (fun row hr => (f8 row hr).2.2)
          rw [r1] at q1
          cases q1
          rw [hmk]
          unfold Hdu.generateExtension
          rw [e1]
          simp only [bind, Except.bind, if_pos hk1]
          unfold Ascii.make
          rw [e4]
          simp only [bind, Except.bind]
          unfold Ascii.setInfo
          rw [e5]
          simp only [bind, Except.bind, pure, Except.pure]
          rw [if_neg (by intro h0; rw [List.isEmpty_iff.1 h0] at hpos; simp at hpos)]
          unfold naxisAt
          simp only [hn5, Nat.reduceSub, List.getElem?_cons_zero, List.getElem?_cons_succ, OfNat.ofNat_ne_zero, one_ne_zero, if_false]
          rw [List.append_nil] at q2
          simp only at q2
          rw [ht0.2.1] at q2
          rw [q2]
          simp only [Except.ok.injEq, Hdu.ascii.injEq]
          obtain ⟨t1, t2, t3, t4, t5, t6⟩ := ht0
          cases t0
          simp only at t1 t2 t3 t4 t5 t6
          subst t1 t2 t3 t4 t5 t6
          rfl
      | _ => exact absurd ho id
    · rw [if_neg hk1] at e2
      by_cases hk2 : k = b!"BINTABLE"
      · rw [if_pos hk2] at e2
        obtain ⟨t0, e3, e2⟩ := bind_ok e2
        cases e2
        cases x with
        | binary t =>
          obtain ⟨d, rfl⟩ := ho
          obtain ⟨ws, f1, f2, f3, f4, f5, f6⟩ := hfits
          unfold BinTable.make at e3
          obtain ⟨tb, e4, e3⟩ := bind_ok e3
          obtain ⟨s4, d4, _⟩ := base_ok d2 e4
          unfold BinTable.setInfo at e3
          obtain ⟨⟨h5, cs⟩, e5, e3⟩ := bind_ok e3
          obtain ⟨s5, d5, l5, _⟩ := bin_columns_ok _ 1 0 d4 (by decide) e5
          simp only at e3
          have ht0 : t0.header = h5 ∧ t0.cols = cs ∧ t0.gcount = tb.gcount ∧ t0.pcount = tb.pcount ∧ t0.extname = tb.extname ∧ t0.tfields = tb.tfields := by
            split at e3
            · cases e3; exact ⟨rfl, rfl, rfl, rfl, rfl, rfl⟩
            · obtain ⟨_, _, e3⟩ := bind_ok e3
              obtain ⟨_, _, e3⟩ := bind_ok e3
              obtain ⟨_, _, e3⟩ := bind_ok e3
              cases e3; exact ⟨rfl, rfl, rfl, rfl, rfl, rfl⟩
          have hn5 : h5.naxis = [ws.sum, d.length] := by rw [s5.naxis, s4.naxis, s2.naxis, n3, f3]
          have hlen : ws.length = t0.cols.length := by rw [widths_length f1, List.length_map]
          have hne : t0.cols ≠ [] := by
            intro h0; rw [h0] at hlen
            have : ws = [] := List.length_eq_zero_iff.1 hlen
            rw [this] at f4; simp at f4
          have hrowlen : ∀ row ∈ d, row.flatten.length = ws.sum := by
            intro row hr; rw [List.length_flatten, (f6 row hr).1]
          have hall : (d.map List.flatten).map List.length = List.replicate d.length ws.sum := by
            apply List.eq_replicate_iff.2
            refine ⟨by simp, ?_⟩
            intro l hl
            simp only [List.mem_map] at hl
            obtain ⟨_, ⟨row, hr, rfl⟩, rfl⟩ := hl
            exact hrowlen row hr
          have hff : d.flatten.flatten = (d.map List.flatten).flatten := by rw [List.flatten_flatten]
          have hflat : d.flatten.flatten.length = d.length * ws.sum := by
            rw [hff, List.length_flatten, hall, List.sum_replicate_nat]
          have hpos : 0 < d.flatten.flatten.length := by rw [hflat]; exact Nat.mul_pos (List.length_pos_iff.2 f5) f4
          have hdata : BinTable.tableData d.flatten.flatten d.length t0.cols = .ok d := by
            rw [C38_table]
            refine .inr ⟨List.length_pos_iff.2 f5, hne, ws, f1, by rw [hflat], rfl, ?_⟩
            intro r row hrow
            have hmem := List.mem_of_getElem? hrow
            obtain ⟨g1, g2⟩ := f6 row hmem
            refine ⟨by rw [← hlen, ← g1, List.length_map], ?_⟩
            intro j w y hw hy
            refine ⟨y, ?_, isTrim_iff.2 (trim_eq_iff.2 (g2 y (List.mem_of_getElem? hy)))⟩
            have hrowf := field_flatten (d.map List.flatten) r row.flatten [] [] (by rw [List.getElem?_map, hrow]; rfl)
            have hrlt := (List.getElem?_eq_some_iff.1 hrow).1
            have hfsr : fieldStart (List.replicate d.length ws.sum) r = r * ws.sum := by
              unfold fieldStart
              rw [List.take_replicate, List.sum_replicate_nat, Nat.min_eq_left (by omega)]
            rw [hall, hfsr] at hrowf
            simp only [List.nil_append, List.append_nil, List.length_nil, Nat.zero_add] at hrowf
            have hcell := field_flatten row j y [] [] hy
            rw [g1] at hcell
            simp only [List.nil_append, List.append_nil, List.length_nil, Nat.zero_add] at hcell
            have hyw : y.length = w := by
              rw [← g1, List.getElem?_map, hy] at hw
              simpa using hw
            obtain ⟨a, b, c1, c2, _⟩ := hrowf
            obtain ⟨a', b', c3, c4, c5⟩ := hcell
            refine ⟨a ++ a', b' ++ b, ?_, by rw [List.length_append, c2, c4], by rw [hyw]⟩
            rw [hff, c1]
            conv => lhs; rw [c3]
            simp only [List.append_assoc]
          refine ⟨h1, name, d.flatten.flatten, .B8, en, ?_, fun h0 => by rw [h0] at hpos; simp at hpos, f2, by rw [f3]; simp, ?_, ?_⟩
          · simp only [Hdu.payload, ht0.1]
            rw [binRows_flatten, s5.raws, s4.raws, s2.raws, n1]
          · rw [f3, hflat]; simp only [List.foldr_cons, List.foldr_nil, Bitpix.size, Nat.mul_one]; rw [Nat.mul_comm]
          · intro hb
            rw [hmk]
            unfold Hdu.generateExtension
            rw [e1]
            simp only [bind, Except.bind, if_neg hk1, if_pos hk2]
            unfold BinTable.make
            rw [e4]
            simp only [bind, Except.bind]
            unfold BinTable.setInfo
            rw [e5]
            simp only [bind, Except.bind, pure, Except.pure]
            rw [if_neg (by intro h0; rw [List.isEmpty_iff.1 h0] at hpos; simp at hpos)]
            unfold naxisAt
            simp only [hn5, Nat.reduceSub, List.getElem?_cons_zero, List.getElem?_cons_succ, OfNat.ofNat_ne_zero, one_ne_zero, if_false]
            rw [ht0.2.1] at hdata
            rw [hdata]
            simp only [Except.ok.injEq, Hdu.binary.injEq]
            obtain ⟨t1, t2, t3, t4, t5, t6⟩ := ht0
            cases t0
            simp only at t1 t2 t3 t4 t5 t6
            subst t1 t2 t3 t4 t5 t6
            rfl
        | _ => exact absurd ho id
      · rw [if_neg hk2] at e2
        cases e2
        cases x <;> exact absurd ho id

/-! ### one HDU in the written file -/

theorem writeTo_complete {F : FloatText} {h : Header} {x : Hdu} (hr : Ready F h x) {s : Stream} (hs : AtEnd s) :
    ∃ s', Hdu.writeTo s x = .ok s' ∧ AtEnd s' ∧ (∃ t, s'.content = s.content ++ t) ∧
      (s'.content.length + 5760 < 2 ^ 63 → ∀ rest, ∃ e : Entry, Complete F (s'.content ++ rest) e ∧ e.loc = s.content.length ∧
        e.next = s'.content.length ∧ e.hdu = x ∧ e.header = h) := by
  obtain ⟨h1, name, d, b, r1, r2, r3, r4, r5, r6, r7⟩ := rebuild hr
  obtain ⟨fuel, s0, s1, hg, e⟩ := hr.read
  refine ⟨hduStream s (h.cards.map (·.raw)) d, ?_, (hduStream_atEnd hs _ _).1, ?_, ?_⟩
  · rw [Hdu.writeTo_eq hs, r2]
  · obtain ⟨_, k1, k2, c, _⟩ := hduStream_atEnd hs (h.cards.map (·.raw)) d
    exact ⟨(h.cards.map (·.raw)).flatten ++ (List.replicate k1 32 ++ (d ++ List.replicate k2 32)), by rw [c]; simp only [List.append_assoc]⟩
  · obtain ⟨_, k1, k2, c, hb⟩ := hduStream_atEnd hs (h.cards.map (·.raw)) d
    generalize hduStream s (h.cards.map (·.raw)) d = s' at *
    intro hlen rest
    obtain ⟨b1, b2, b3, b4, b5, b6⟩ := hb (by omega)
    have h80 : ∀ r ∈ h.cards.map (·.raw), r.length = 80 := (sound_of_read hg e).size
    have hfl := flatten_length80 _ h80
    rw [List.length_map] at hfl
    have hcl := congrArg List.length c
    simp only [List.length_append, List.length_replicate, hfl] at hcl
    rw [hfl] at b3 b6
    have hd64 : d.length < 2 ^ 64 := by omega
    -- the header comes first
    obtain ⟨q1, q2⟩ := write_atEnd hs (h.cards.map (·.raw)).flatten
    have hwh : h.writeHeader s = padUnit (s.write (h.cards.map (·.raw)).flatten).1 := writeHeader_eq h s
    obtain ⟨q3, k1', q4, q5⟩ := padUnit_atEnd q1
    rw [← hwh] at q3 q4
    rw [q2, List.length_append, hfl] at q5
    obtain ⟨q6, q7, q8⟩ := q5 (by omega)
    have hk : k1' = k1 := by omega
    subst hk
    have hrest : s'.content ++ rest = (h.writeHeader s).content ++ (d ++ List.replicate k2 32 ++ rest) := by
      rw [c, q4, q2]; simp only [List.append_assoc]
    have hdsize : h.dataSize = h.naxis.foldr (· * ·) 1 ∧ h.dataSize ≠ 0 := by
      have hmul : h.naxis.foldr (· * ·) 1 ≤ d.length := by
        rw [r6]; exact Nat.le_mul_of_pos_right _ (size_pos b)
      have : h.dataSize = h.naxis.foldr (· * ·) 1 := by
        rw [C29_data_size, if_neg r5, Nat.mod_eq_of_lt (by omega)]
      refine ⟨this, ?_⟩
      rw [this]
      intro h0
      rw [h0, Nat.zero_mul] at r6
      exact r3 (List.length_eq_zero_iff.1 r6)
    obtain ⟨r', g1, g2⟩ := C27_reread F h s0 s1 hg fuel e s hs.good hs.writable hs.pos (by omega) (d ++ List.replicate k2 32 ++ rest)
      h.cards.length (Nat.le_refl _)
    have hwindow : window (s'.content ++ rest) (s.content.length + 80 * h.cards.length + k1') d.length = d := by
      rw [window_inside (by rw [List.length_append]; omega), c]
      have e1 : s.content.length + 80 * h.cards.length + k1' = (s.content ++ (h.cards.map Card.raw).flatten ++ List.replicate k1' 32).length := by
        simp only [List.length_append, List.length_replicate, hfl]
      have e2 : s.content ++ (h.cards.map Card.raw).flatten ++ List.replicate k1' 32 ++ d ++ List.replicate k2 32 ++ rest =
          (s.content ++ (h.cards.map Card.raw).flatten ++ List.replicate k1' 32) ++ (d ++ (List.replicate k2 32 ++ rest)) := by
        simp only [List.append_assoc]
      rw [e2, e1, List.drop_left, List.take_left]
    refine ⟨⟨s.content.length, h, s.content.length + 80 * h.cards.length + k1', d.length, s'.content.length, name, x⟩,
      ⟨⟨?_, ?_, ?_, ?_, ?_, ?_⟩, ?_, ?_⟩, rfl, rfl, rfl, rfl⟩
    · refine ⟨h.cards.length, r', ?_⟩
      rw [hrest]
      rw [hs.pos] at g1
      exact g1
    · simp only [List.length_append]; omega
    · simp only [List.length_append]; omega
    · exact ⟨by simp only; omega, by simp only; omega, by simp only; omega⟩
    · intro h0; exact absurd h0 hdsize.2
    · intro _
      refine ⟨⟨b, r4, ?_⟩, ?_⟩
      · simp only
        rw [hdsize.1, ← r6, Nat.mod_eq_of_lt hd64]
      · exact ⟨by simp only; omega, by simp only; omega, by simp only; omega⟩
    · right; simp only [List.length_append]; omega
    · refine ⟨h1, r1, ?_⟩
      simp only
      rw [hwindow]
      exact r7 hd64

theorem foldlM_complete {F : FloatText} : ∀ (xs : List Hdu), (∀ x ∈ xs, ∃ h, Ready F h x) → ∀ {s : Stream}, AtEnd s →
    ∃ s', xs.foldlM Hdu.writeTo s = .ok s' ∧ AtEnd s' ∧ (∃ t, s'.content = s.content ++ t) ∧
      (s'.content.length + 5760 < 2 ^ 63 → ∀ rest, ∃ es : List Entry, Chain (Complete F (s'.content ++ rest)) s.content.length es s'.content.length ∧
        es.map (·.hdu) = xs) := by
  intro xs
  induction xs with
  | nil =>
    intro _ s hs
    exact ⟨s, rfl, hs, ⟨[], by simp⟩, fun _ rest => ⟨[], rfl, rfl⟩⟩
  | cons x xs ih =>
    intro hx s hs
    obtain ⟨h, hr⟩ := hx x List.mem_cons_self
    obtain ⟨s1, e1, a1, ⟨t1, c1⟩, g1⟩ := writeTo_complete hr hs
    obtain ⟨s2, e2, a2, ⟨t2, c2⟩, g2⟩ := ih (fun y hy => hx y (List.mem_cons_of_mem _ hy)) a1
    refine ⟨s2, ?_, a2, ⟨t1 ++ t2, by rw [c2, c1, List.append_assoc]⟩, ?_⟩
    · rw [foldlM_cons, e1]; exact e2
    · intro hb rest
      have hl : s1.content.length ≤ s2.content.length := by rw [c2, List.length_append]; omega
      obtain ⟨e, f1, f2, f3, f4, _⟩ := g1 (by omega) (t2 ++ rest)
      obtain ⟨es, f5, f6⟩ := g2 hb rest
      rw [← List.append_assoc, ← c2] at f1
      exact ⟨e :: es, ⟨f2, f1, by rw [f3]; exact f5⟩, by rw [List.map_cons, f4, f6]⟩

/-! ## C31 -/

/-- **C31** HDUs that carry data can be written, and opening the file gives the same HDUs again: as many, in the same order, with the same headers, the same
columns, the same pixels and cells.  (The file must stay below 2^63 - 5760 bytes.) -/
theorem C31_write_open (F : FloatText) (hdus : List Hdu) (hr : ∀ x ∈ hdus, ∃ h, Ready F h x) :
    ∃ s, writeAll hdus = .ok s ∧ (s.content.length + 5760 < 2 ^ 63 →
      ∃ N r, (∀ fuel n, N ≤ fuel → N ≤ n → readEntire F fuel n (openFile s.content) = some (.ok r)) ∧ r.hdus = hdus) := by
  obtain ⟨s, e, _, _, g⟩ := foldlM_complete hdus hr create_atEnd
  refine ⟨s, e, fun hb => ?_⟩
  obtain ⟨es, h1, h2⟩ := g hb []
  rw [List.append_nil] at h1
  obtain ⟨N, r, h3, h4⟩ := C31_open_total F s.content hb es ⟨_, h1, Nat.le_refl _⟩
  exact ⟨N, r, h3, by rw [h4, h2]⟩

/-- **C31** In particular a file that was opened can be written to a new file, which then opens with the same HDUs, if each of them carries data that fits its
header. -/
theorem C31_copy (F : FloatText) (content : Str) (es : List Entry) (hf : FileOf F content es)
    (hfit : ∀ e ∈ es, DataFits e.header e.hdu) :
    ∃ s, writeAll (es.map (·.hdu)) = .ok s ∧ (s.content.length + 5760 < 2 ^ 63 →
      ∃ N r, (∀ fuel n, N ≤ fuel → N ≤ n → readEntire F fuel n (openFile s.content) = some (.ok r)) ∧ r.hdus = es.map (·.hdu)) := by
  apply C31_write_open
  intro x hx
  obtain ⟨e, he, rfl⟩ := List.mem_map.1 hx
  have hc : Complete F content e := by
    obtain ⟨q, hq, _⟩ := hf
    have : ∀ (es : List Entry) (p q : Nat), Chain (Complete F content) p es q → ∀ e ∈ es, Complete F content e := by
      intro es
      induction es with
      | nil => intro p q _ e he; simp at he
      | cons a es ih =>
        intro p q hc e he
        rcases List.mem_cons.1 he with rfl | he
        · exact hc.2.1
        · exact ih _ _ hc.2.2 e he
    exact this es 0 q hq e he
  obtain ⟨fuel, s', hh⟩ := hc.header
  obtain ⟨h1, hn, hcon⟩ := hc.built
  refine ⟨e.header, ⟨fuel, _, s', ?_, hh⟩, ⟨h1, e.name, _, e.hdu, hn, hcon, ?_⟩, hfit e he⟩
  · rfl
  · have := hfit e he
    cases hx : e.hdu with
    | blank => rw [hx] at this; exact absurd this id
    | primary p => exact ⟨p.data.img.data, rfl⟩
    | ascii t => exact ⟨t.data, rfl⟩
    | binary t => exact ⟨t.data, rfl⟩

/-! ## Examples -/

/-- What is read from the example file is written again as it was, also when HDUs of unknown kind are put around it. -/
example : (match readEntire exNoFloats 6 2 (openFile (exBlock exPrimary.flatten ++ exBlock [0, 1, 255, 254])) with
    | some (.ok r) => (match r.hdus with
      | [x] => (match writeAll [.blank, x, .blank] with
        | .ok s => decide (s.content.length = 5760 ∧ s.content.take 480 = exPrimary.flatten ∧ (s.content.drop 2880).take 6 = [0, 1, 255, 254, 32, 32])
        | _ => false)
      | _ => false)
    | _ => false) = true := by
  decide +kernel

/-- The hypotheses of `C31_write_open` are met by a primary HDU read from the example file whose pixels were replaced. -/
theorem exReady : ∃ h p, Ready exNoFloats h (.primary p) ∧ p.data.bytes = [18, 52, 255, 255] := by
  have hd : (match readHeader exNoFloats 6 Header.empty (Stream.openRead exPrimary.flatten) with
      | some (.ok (h, _)) => decide (h.naxis = [2]) && (match h.getHduName exNoFloats with
        | (h1, .ok _) => (match Hdu.construct exNoFloats h1 [0, 1, 255, 254] with
          | .ok (.primary p) => decide (p.data.kind = .B16)
          | _ => false)
        | _ => false)
      | _ => false) = true := by decide +kernel
  split at hd
  next h s' e =>
    rw [Bool.and_eq_true, decide_eq_true_eq] at hd
    obtain ⟨hn, hd⟩ := hd
    split at hd
    next h1 name en =>
      split at hd
      next p ex =>
        obtain ⟨hh, ⟨kind, img⟩, sm, et⟩ := p
        have hd : kind = .B16 := of_decide_eq_true hd
        subst hd
        refine ⟨h, ⟨hh, ⟨.B16, { img with data := [0x1234#16, 0xffff#16] }⟩, sm, et⟩, ⟨⟨6, _, s', rfl, e⟩, ⟨h1, name, _, _, en, ex, ⟨_, rfl⟩⟩, ?_⟩, ?_⟩
        · exact ⟨nofun, by simp, by rw [hn]; simp, by rw [hn]; rfl⟩
        · simp only [AnyImage.bytes]
          rw [writeImage_eq]
          rfl
      next => cases hd
    next => cases hd
  next => cases hd

example : ∃ x s N r, writeAll [x, x] = .ok s ∧ (s.content.length + 5760 < 2 ^ 63 →
    readEntire exNoFloats N N (openFile s.content) = some (.ok r) ∧ r.hdus = [x, x]) := by
  obtain ⟨h, p, hr, _⟩ := exReady
  obtain ⟨s, h1, h2⟩ := C31_write_open exNoFloats [.primary p, .primary p] (by intro x hx; simp at hx; subst hx; exact ⟨h, hr⟩)
  by_cases hl : s.content.length + 5760 < 2 ^ 63
  · obtain ⟨N, r, h3, h4⟩ := h2 hl
    exact ⟨_, s, N, r, h1, fun _ => ⟨h3 N N (Nat.le_refl _) (Nat.le_refl _), h4⟩⟩
  · exact ⟨_, s, 0, openFile [], h1, fun h => absurd h hl⟩

end Astro
