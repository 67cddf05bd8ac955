import Verif.Spec.Resaved
import Verif.Props.ForeignFiles
import Verif.Props.ForForeign

/-
Property C153: files of other programs opened and saved.
-/

namespace Astro

open Spec Header Reader Bin

theorem window_join (d : Str) (p a b : Nat) : window d p (a + b) = window d p a ++ window d (p + a) b := by
  unfold window
  rw [List.range_add, List.map_append, List.map_map]
  congr 1
  refine List.map_congr_left fun i _ => ?_
  simp only [Function.comp, Nat.add_assoc]

theorem window_whole (d : Str) : window d 0 d.length = d := by
  rw [window_inside (by omega)]; simp

/-- Pieces of a text one behind the other. -/
theorem windows_joined (d : Str) : ∀ (ws : List Nat) (p : Nat) (l : List Str), l.length = ws.length →
    (∀ (j w : Nat) (x : Str), ws[j]? = some w → l[j]? = some x → x = window d (p + (ws.take j).sum) w) → l.flatten = window d p ws.sum
  | [], p, l, hl, _ => by rw [List.length_eq_zero_iff.1 hl]; simp [window]
  | w :: ws, p, [], hl, _ => by simp at hl
  | w :: ws, p, x :: l, hl, h => by
    have h0 := h 0 w x rfl rfl
    have ih := windows_joined d ws (p + w) l (by simpa using hl) fun j w' x' hj hx => by
      have := h (j + 1) w' x' hj hx
      rw [this, List.take_succ_cons, List.sum_cons, Nat.add_assoc]
    rw [List.flatten_cons, ih, h0, List.sum_cons, window_join]
    simp

theorem take_replicate_sum (n L j : Nat) (h : j ≤ n) : ((List.replicate n L).take j).sum = j * L := by
  rw [List.take_replicate, List.sum_replicate_nat, Nat.min_eq_left h]

theorem replicate_get {α : Type} {n i : Nat} {a b : α} (h : (List.replicate n a)[i]? = some b) : i < n ∧ a = b := by
  rw [List.getElem?_replicate] at h
  split at h
  · cases h; exact ⟨‹_›, rfl⟩
  · cases h

/-- The same in rows and columns. -/
theorem rows_joined (d : Str) (L rows : Nat) (ws : List Nat) (cells : List (List Str)) (hw : ws.sum = L) (hd : d.length = L * rows) (hn : cells.length = rows)
    (hr : ∀ (r : Nat) (row : List Str), cells[r]? = some row → row.length = ws.length)
    (hc : ∀ (r j : Nat) (row : List Str) (w : Nat) (x : Str), cells[r]? = some row → ws[j]? = some w → row[j]? = some x → x = window d (r * L + (ws.take j).sum) w) :
    cells.flatten.flatten = d := by
  have h1 := windows_joined d (List.replicate rows L) 0 (cells.map List.flatten) (by simp [hn]) fun r w x hr1 hx => by
    obtain ⟨hr2, rfl⟩ := replicate_get hr1
    rw [List.getElem?_map] at hx
    obtain ⟨row, hrow, rfl⟩ := Option.map_eq_some_iff.1 hx
    rw [take_replicate_sum _ _ _ (by omega), Nat.zero_add, ← hw]
    exact windows_joined d ws _ row (hr r row hrow) fun j w x hj hx => by rw [hw]; exact hc r j row w x hrow hj hx
  rw [List.flatten_flatten, h1, List.sum_replicate_nat, Nat.mul_comm, ← hd, window_whole]

theorem trim_outer {f x : Str} (h : IsTrim f x) : x.length ≤ f.length ∧ (NoOuterWhite f → x = f) ∧ (x.length = f.length → NoOuterWhite f) := by
  obtain ⟨a, b, rfl, h1, h2, h3, h4⟩ := h
  refine ⟨by simp only [List.length_append]; omega, fun hn => ?_, fun hl => ?_⟩
  · have ha : a = [] := by
      cases a with
      | nil => rfl
      | cons c a => exact absurd (h1 c List.mem_cons_self) (hn.1 c rfl)
    subst ha
    have hb : b = [] := by
      rcases List.eq_nil_or_concat b with rfl | ⟨b, c, rfl⟩
      · rfl
      · exact absurd (h2 c (by simp)) (hn.2 c (by simp))
    subst hb
    simp
  · simp only [List.length_append] at hl
    have ha : a = [] := List.length_eq_zero_iff.1 (by omega)
    have hb : b = [] := List.length_eq_zero_iff.1 (by omega)
    subst ha hb
    rw [List.nil_append, List.append_nil]; exact ⟨h3, h4⟩

/-- What an opened HDU is saved as. -/
theorem shows_holds {F : FloatText} {u : ForeignHdu} {x : Hdu} (h : Shows F u x) {cards : List Str} {data : Str} (hx : Holds x cards data) :
    cards = u.cards ∧ Resaved F u data := by
  cases h with
  | @image p b axes ext h1 h2 h3 h4 h5 h6 h7 hl h8 =>
    obtain ⟨rfl, px, rfl, g1, g2⟩ := hx
    refine ⟨h3, ?_⟩
    obtain ⟨k1, k2⟩ := h8
    obtain ⟨ph, ⟨kind, img⟩, _, _⟩ := p
    simp only at h7 g1 g2 k1 k2
    subst h7
    have hs : 0 < kind.size := by cases kind <;> decide
    have hn : u.data.length = kind.size * px.length := by
      rw [g1, k1, hl, Nat.mul_div_cancel _ hs, Nat.mul_comm]
    by_cases hb : kind = .B8
    · subst hb
      have hz : px = List.replicate px.length [0] := List.eq_replicate_iff.2 ⟨rfl, fun s hs => by
        obtain ⟨i, hi⟩ := List.mem_iff_getElem?.1 hs
        have hi' := List.getElem?_eq_getElem (show i < img.data.length by rw [← g1]; exact (List.getElem?_eq_some_iff.1 hi).1)
        have hv := k2 i _ hi'
        simp only [if_true] at hv
        have hq := g2 i _ s hi' hi
        rw [hv] at hq
        exact isBE_unique hq ⟨rfl, rfl⟩⟩
      have : px.flatten = List.replicate u.data.length 0 := by
        rw [hz, hn, List.flatten_replicate_singleton]
        exact congrArg (fun n => List.replicate n (0 : Byte)) (Nat.one_mul _).symm
      rw [this]
      exact .bytes axes h1
    · have : px.flatten = u.data := by
        have := windows_joined u.data (List.replicate px.length kind.size) 0 px (by simp) fun j w x hj hx => by
          obtain ⟨hj1, rfl⟩ := replicate_get hj
          have hi' := List.getElem?_eq_getElem (show j < img.data.length by omega)
          have hv := k2 j _ hi'
          rw [if_neg hb] at hv
          rw [take_replicate_sum _ _ _ (by omega), Nat.zero_add]
          exact isBE_unique (g2 j _ x hi' hx) hv
        rw [this, List.sum_replicate_nat, Nat.mul_comm, ← hn, window_whole]
      rw [this]
      exact .image kind axes h1 hb
  | @binary t rowLen rows cols h1 hl h2 =>
    obtain ⟨rfl, rfl⟩ := hx
    exact ⟨h2.raws, .binary rowLen rows cols _ h1 hl h2.rows h2.row h2.cell⟩
  | @ascii t rowLen rows cols h1 hl h2 =>
    obtain ⟨rfl, fields, rfl, g1, g2⟩ := hx
    refine ⟨h2.raws, .ascii rowLen rows cols fields h1 hl (g1.trans h2.rows) ?_ ?_⟩
    · intro r row hr
      have hr' : r < t.data.length := by rw [← g1]; exact (List.getElem?_eq_some_iff.1 hr).1
      have hr'' := List.getElem?_eq_getElem hr'
      rw [(g2 r _ row hr'' hr).1]
      exact h2.row r _ hr''
    · intro r j row c f hr hj hf
      have hr' : r < t.data.length := by rw [← g1]; exact (List.getElem?_eq_some_iff.1 hr).1
      have hr'' := List.getElem?_eq_getElem hr'
      obtain ⟨q1, q2⟩ := g2 r _ row hr'' hr
      have hj' : j < (t.data[r]).length := by rw [← q1]; exact (List.getElem?_eq_some_iff.1 hf).1
      obtain ⟨col, w, e1, e2, e3⟩ := q2 j _ f (List.getElem?_eq_getElem hj') hf
      have := asciiWidth_unique _ _ _ e2 (h2.widths j col c e1 hj)
      subst this
      exact ⟨_, h2.cell r j _ c _ hr'' hj (List.getElem?_eq_getElem hj'), e3⟩
  | other kind h1 h2 => cases hx

theorem shows_written {F : FloatText} {us : List ForeignHdu} {xs : List Hdu} (h : List.Forall₂ (Shows F) us xs) {texts : List Str} (ht : List.Forall₂ HduText xs texts) :
    ∃ vs, SavedAs F us vs ∧ Written vs texts.flatten := by
  induction h generalizing texts with
  | nil => cases ht; exact ⟨[], .nil, [], rfl, .nil⟩
  | @cons u x us xs hu _ ih =>
    cases ht with
    | @cons _ t _ ts hx hxs =>
      obtain ⟨vs, k1, texts, k2, k3⟩ := ih hxs
      have key : (∃ cards data u1 u2, Holds x cards data ∧ Filled cards.flatten u1 ∧ Filled data u2 ∧ t = u1 ++ u2) →
          ∃ vs, SavedAs F (u :: us) vs ∧ Written vs (t :: ts).flatten := by
        rintro ⟨cards, data, u1, u2, q1, q2, q3, q4⟩
        obtain ⟨r1, r2⟩ := shows_holds hu q1
        exact ⟨⟨cards, data⟩ :: vs, .keep r1 r2 k1, t :: texts, by rw [List.flatten_cons, k2, List.flatten_cons], .cons ⟨u1, u2, q2, q3, q4⟩ k3⟩
      cases x with
      | blank =>
        cases hu with
        | other kind h1 h2 =>
          cases hx
          exact ⟨vs, .drop kind h1 h2 k1, texts, by rw [List.flatten_cons, k2]; rfl, k3⟩
      | primary p => exact key hx
      | ascii p => exact key hx
      | binary p => exact key hx

theorem shows_saved {F : FloatText} {us : List ForeignHdu} {xs : List Hdu} (h2 : List.Forall₂ (Shows F) us xs) :
    ∃ s, writeAll xs = .ok s ∧ (s.content.length + 2880 < 2 ^ 63 → ∃ vs, SavedAs F us vs ∧ Written vs s.content) := by
  have hw : ∃ s, writeAll xs = .ok s := by
    cases e : writeAll xs with
    | ok s => exact ⟨s, rfl⟩
    | error er =>
      obtain ⟨t, row, j, x, g1, g2, g3, g4⟩ := (C35_fails_iff xs).1 ⟨er, e⟩
      obtain ⟨u, _, hu⟩ := forall2_mem_right h2 g1
      cases hu with
      | @ascii _ rowLen rows cols k1 _ k2 =>
        obtain ⟨r, hr⟩ := List.mem_iff_getElem?.1 g2
        have hj : j < cols.length := by rw [← k2.row r row hr]; exact (List.getElem?_eq_some_iff.1 g3).1
        have hj' : j < t.cols.length := by rw [k2.columns]; exact hj
        have w := g4 _ _ (List.getElem?_eq_getElem hj') (k2.widths j _ _ (List.getElem?_eq_getElem hj') (List.getElem?_eq_getElem hj))
        have := (trim_outer (k2.cell r j row _ x hr (List.getElem?_eq_getElem hj) g3)).1
        rw [window_length] at this
        omega
  obtain ⟨s, hs'⟩ := hw
  refine ⟨s, hs', fun hb' => ?_⟩
  obtain ⟨texts, k1, k2⟩ := C35_written xs s hs' hb'
  rw [k1]
  exact shows_written h2 k2

/-- **C153** A file of another program that can be opened (C151) can be saved; the copy has the HDUs with the same cards and with the data that `Resaved` says, without the extensions
that are not tables. -/
theorem C153_saved (F : FloatText) (content : Str) (us : List ForeignHdu) (h : Laid us content) (hs : ∀ u ∈ us, Supported F u)
    (h36 : ∀ u ∈ us, ¬ 36 ∣ u.cards.length) (hd : ∀ u ∈ us.dropLast, u.data = [] ∨ ¬ 2880 ∣ u.data.length) (hb : content.length + 5760 < 2 ^ 63) :
    ∃ xs s, EndsIn (fun cards turns => readEntire F cards turns (openFile content)) (.opened xs) ∧ writeAll xs = .ok s ∧
      (s.content.length + 2880 < 2 ^ 63 → ∃ vs, SavedAs F us vs ∧ Written vs s.content) := by
  obtain ⟨xs, h1, h2⟩ := C151_opened F content us h hs h36 hd hb
  obtain ⟨s, h3, h4⟩ := shows_saved h2
  exact ⟨xs, s, h1, h3, h4⟩

theorem resaved_lossless {F : FloatText} {u : ForeignHdu} (h : Lossless F u) {d : Str} (hd : Resaved F u d) : d = u.data := by
  cases hd with
  | image b axes h1 h2 => rfl
  | bytes axes h1 => exact absurd rfl (h.image _ _ h1)
  | binary rowLen rows cols cells h1 h2 h3 h4 h5 =>
    refine rows_joined u.data rowLen rows (columnBytes cols) cells h1.width.symm h2 h3 (fun r row hr => by rw [h4 r row hr]; simp [columnBytes]) ?_
    intro r j row w x hr hj hx
    unfold columnBytes at hj
    rw [List.getElem?_map] at hj
    obtain ⟨c, hc, rfl⟩ := Option.map_eq_some_iff.1 hj
    have hr' : r < rows := by rw [← h3]; exact (List.getElem?_eq_some_iff.1 hr).1
    exact (trim_outer (h5 r j row c x hr hc hx)).2.1 (h.binary _ _ _ h1 r j c hr' hc)
  | ascii rowLen rows cols fields h1 h2 h3 h4 h5 =>
    obtain ⟨k1, k2⟩ := h.ascii _ _ _ h1
    refine rows_joined u.data rowLen rows (cols.map (·.2)) fields k1 h2 h3 (fun r row hr => by rw [h4 r row hr]; simp) ?_
    intro r j row w x hr hj hx
    rw [List.getElem?_map] at hj
    obtain ⟨c, hc, rfl⟩ := Option.map_eq_some_iff.1 hj
    have hr' : r < rows := by rw [← h3]; exact (List.getElem?_eq_some_iff.1 hr).1
    obtain ⟨y, q1, q2⟩ := h5 r j row c x hr hc hx
    obtain ⟨e, g⟩ := k2 j c hc
    obtain ⟨y', q3, q4⟩ := g r hr'
    have hy : y = y' := (isTrim_iff.1 q1).symm.trans (isTrim_iff.1 q3)
    subst hy
    rw [rightJustified_unique q2 q4]
    unfold asciiField
    rw [e]
    rfl

theorem savedAs_lossless {F : FloatText} {us vs : List ForeignHdu} (h : SavedAs F us vs) (hl : ∀ u ∈ us, Lossless F u) : vs = us := by
  induction h with
  | nil => rfl
  | @keep u v us vs h1 h2 _ ih =>
    obtain ⟨c, d⟩ := v
    simp only at h1 h2
    rw [ih fun w hw => hl w (List.mem_cons_of_mem _ hw), h1, resaved_lossless (hl u List.mem_cons_self) h2]
  | drop kind h1 h2 => exact ((hl _ List.mem_cons_self).other kind h1).elim (fun h => absurd h h2.1) (fun h => absurd h h2.2)

theorem supported_cards80 {F : FloatText} {u : ForeignHdu} (h : Supported F u) : ∀ r ∈ u.cards, r.length = 80 := by
  obtain ⟨_, _, _, h, _⟩ | ⟨_, _, _, _, h, _⟩ | ⟨_, _, _, _, h, _⟩ | ⟨_, _, _, h, _⟩ := h <;>
    exact fun r hr => (h.size r hr).1

/-- **C153** If all HDUs are images of more than one byte to a pixel, binary tables without white space at the ends of fields or ASCII tables without gaps whose fields
are right-justified, and all have data that do not fill their blocks exactly, then other programs find the same HDUs in the copy, with the same cards and data. -/
theorem C153_kept (F : FloatText) (content : Str) (us : List ForeignHdu) (h : Laid us content) (hs : ∀ u ∈ us, Supported F u)
    (h36 : ∀ u ∈ us, ¬ 36 ∣ u.cards.length) (hd : ∀ u ∈ us, ¬ 2880 ∣ u.data.length) (hl : ∀ u ∈ us, Lossless F u) (hb : content.length + 5760 < 2 ^ 63) :
    ∃ xs s, EndsIn (fun cards turns => readEntire F cards turns (openFile content)) (.opened xs) ∧ writeAll xs = .ok s ∧
      (s.content.length + 2880 < 2 ^ 63 → Laid us s.content) := by
  obtain ⟨xs, s, h1, h2, h3⟩ := C153_saved F content us h hs h36 (fun u hu => .inr (hd u (List.dropLast_subset _ hu))) hb
  refine ⟨xs, s, h1, h2, fun hb' => ?_⟩
  obtain ⟨vs, k1, texts, k2, k3⟩ := h3 hb'
  rw [savedAs_lossless k1 hl] at k3
  rw [k2]
  exact written_laid k3 (fun u hu => supported_cards80 (hs u hu)) fun u hu => ⟨h36 u hu, hd u hu⟩

/-! What the cards say they say only once. -/

theorem shape_unique {cards : List Str} {b b' : Bitpix} {axes axes' : List Nat} (h : ShapeCards cards b axes) (h' : ShapeCards cards b' axes') : b = b' ∧ axes = axes' := by
  obtain ⟨x, s, e1, _, e2, e3, _⟩ := shapeCards_read (F := exNoFloats) h [] []
  obtain ⟨y, t, f1, _, f2, f3, _⟩ := shapeCards_read (F := exNoFloats) h' [] []
  rw [e1] at f1
  cases f1
  rw [e2] at f2
  rw [e3] at f3
  exact ⟨Option.some.inj f2, f3⟩

theorem saysInteger_unique {cards : List Str} {key : Str} {a b : Nat} (h : SaysInteger cards key a) (h' : SaysInteger cards key b) (ha : a < 2 ^ 64) (hb : b < 2 ^ 64) : a = b := by
  have g := says_declares (F := exNoFloats) (v := .sizeT (BitVec.ofNat 64 a)) h (size_natCast ha)
  have g' := says_declares (F := exNoFloats) (v := .sizeT (BitVec.ofNat 64 b)) h' (size_natCast hb)
  have := lookup_fun (lookup_ok.2 g) (lookup_ok.2 g')
  simp only [Except.ok.injEq, Val.sizeT.injEq] at this
  have := congrArg BitVec.toNat this
  rwa [BitVec.toNat_ofNat, BitVec.toNat_ofNat, Nat.mod_eq_of_lt ha, Nat.mod_eq_of_lt hb] at this

theorem formatText_unique {f : Str} {n m : Nat} {a b : Byte} (h : FormatText f n a) (h' : FormatText f m b) : n = m ∧ a = b := by
  rcases h with ⟨rfl, rfl⟩ | ⟨ds, h1, rfl, rfl⟩
  · rcases h' with ⟨h2, rfl⟩ | ⟨es, h2, h3, rfl⟩
    · cases h2; exact ⟨rfl, rfl⟩
    · exact absurd (congrArg List.length h3) (by simp [h2.1])
  · rcases h' with ⟨h2, rfl⟩ | ⟨es, h2, h3, rfl⟩
    · exact absurd (congrArg List.length h2) (by simp [h1.1])
    · obtain ⟨rfl, h4⟩ := List.append_inj' h3 rfl
      cases h4; exact ⟨rfl, rfl⟩

theorem binaryCards_unique {F : FloatText} {cards : List Str} {l l' n n' : Nat} {cols cols' : List (Nat × Byte)} (h : BinaryTableCards F cards l n 0 cols)
    (h' : BinaryTableCards F cards l' n' 0 cols') : l = l' ∧ n = n' ∧ cols = cols' := by
  obtain ⟨_, h1⟩ := shape_unique h.toShapeCards h'.toShapeCards
  simp only [List.cons.injEq, and_true] at h1
  have hlen : cols.length = cols'.length := saysInteger_unique h.tfields.1 h'.tfields.1 (by have := h.tfields.2; omega) (by have := h'.tfields.2; omega)
  refine ⟨h1.1, h1.2, List.ext_getElem hlen fun j hj hj' => ?_⟩
  obtain ⟨⟨f, f1, f2⟩, _⟩ := h.column j _ _ (List.getElem?_eq_getElem hj) (showNat_isNat (j + 1))
  obtain ⟨⟨g, g1, g2⟩, _⟩ := h'.column j _ _ (List.getElem?_eq_getElem hj') (showNat_isNat (j + 1))
  have := says_string_fun f1 (says_string (F := exNoFloats) g1)
  subst this
  exact Prod.ext (formatText_unique f2 g2).1 (formatText_unique f2 g2).2

theorem asciiCards_unique {F : FloatText} {cards : List Str} {l l' n n' : Nat} {cols cols' : List (Nat × Nat)} (h : AsciiTableCards F cards l n 0 cols)
    (h' : AsciiTableCards F cards l' n' 0 cols') : l = l' ∧ n = n' ∧ cols = cols' := by
  obtain ⟨_, h1⟩ := shape_unique h.toShapeCards h'.toShapeCards
  simp only [List.cons.injEq, and_true] at h1
  have hlen : cols.length = cols'.length := saysInteger_unique h.tfields.1 h'.tfields.1 (by have := h.tfields.2; omega) (by have := h'.tfields.2; omega)
  refine ⟨h1.1, h1.2, List.ext_getElem hlen fun j hj hj' => ?_⟩
  have e := List.getElem?_eq_getElem hj
  have e' := List.getElem?_eq_getElem hj'
  obtain ⟨⟨f, f1, f2⟩, f3, _⟩ := h.column j _ _ e (showNat_isNat (j + 1))
  obtain ⟨⟨g, g1, g2⟩, g3, _⟩ := h'.column j _ _ e' (showNat_isNat (j + 1))
  have := says_string_fun f1 (says_string (F := exNoFloats) g1)
  subst this
  have b1 := shape_rowLen h.toShapeCards
  have b2 := shape_rowLen h'.toShapeCards
  have i1 := h.inside _ (List.mem_of_getElem? e)
  have i2 := h'.inside _ (List.mem_of_getElem? e')
  exact Prod.ext (saysInteger_unique f3 g3 (by omega) (by omega)) (asciiWidth_unique _ _ _ (asciiFormatText_width f2 (by omega)) (asciiFormatText_width g2 (by omega)))

theorem lengths_le : ∀ (l : List Str) (ws : List Nat), l.length = ws.length → (∀ (j w : Nat) (x : Str), ws[j]? = some w → l[j]? = some x → x.length ≤ w) →
    l.flatten.length ≤ ws.sum ∧ (l.flatten.length = ws.sum → ∀ (j w : Nat) (x : Str), ws[j]? = some w → l[j]? = some x → x.length = w)
  | [], [], _, _ => ⟨by simp, fun _ j w x h => by simp at h⟩
  | [], _ :: _, hl, _ => by simp at hl
  | _ :: _, [], hl, _ => by simp at hl
  | x :: l, w :: ws, hl, h => by
    obtain ⟨i1, i2⟩ := lengths_le l ws (by simpa using hl) fun j w x hj hx => h (j + 1) w x hj hx
    have h0 := h 0 w x rfl rfl
    simp only [List.flatten_cons, List.length_append, List.sum_cons]
    refine ⟨by omega, fun e j w' x' hj hx => ?_⟩
    cases j with
    | zero => cases hj; cases hx; omega
    | succ j => exact i2 (by omega) j w' x' hj hx

/-- **C153** A binary table with white space at the end of a field loses bytes: the data of the copy are shorter than its header announces. -/
theorem C153_binary (F : FloatText) (u : ForeignHdu) (rowLen rows : Nat) (cols : List (Nat × Byte)) (h : BinaryTableCards F u.cards rowLen rows 0 cols) (d : Str)
    (hd : Resaved F u d) : d.length ≤ rowLen * rows ∧
      ((∃ r j c, r < rows ∧ cols[j]? = some c ∧ ¬ NoOuterWhite (binaryField u.data rowLen cols r j c)) → d.length < rowLen * rows) := by
  cases hd with
  | image b axes h1 h2 =>
    obtain ⟨_, _, _, _, g, _⟩ := h1.simple; exact absurd h.noSimple (lastWith_not_absent g)
  | bytes axes h1 =>
    obtain ⟨_, _, _, _, g, _⟩ := h1.simple; exact absurd h.noSimple (lastWith_not_absent g)
  | ascii _ _ _ _ h1 =>
    have := says_string_fun h.xtension (says_string (F := F) h1.xtension)
    exact absurd this (by decide)
  | binary l n cols' cells h1 h2 h3 h4 h5 =>
    obtain ⟨rfl, rfl, rfl⟩ := binaryCards_unique h h1
    have row : ∀ r row, cells[r]? = some row → row.flatten.length ≤ rowLen ∧ (row.flatten.length = rowLen → ∀ j c, cols[j]? = some c →
        NoOuterWhite (binaryField u.data rowLen cols r j c)) := by
      intro r row hr
      have hrow := h4 r row hr
      obtain ⟨k1, k2⟩ := lengths_le row (columnBytes cols) (by rw [hrow]; simp [columnBytes]) fun j w x hj hx => by
        unfold columnBytes at hj
        rw [List.getElem?_map] at hj
        obtain ⟨c, hc, rfl⟩ := Option.map_eq_some_iff.1 hj
        have := (trim_outer (h5 r j row c x hr hc hx)).1
        unfold binaryField at this
        rwa [window_length] at this
      rw [← h.width] at k1 k2
      refine ⟨k1, fun e j c hc => ?_⟩
      have hx := List.getElem?_eq_getElem (show j < row.length by rw [hrow]; exact (List.getElem?_eq_some_iff.1 hc).1)
      refine (trim_outer (h5 r j row c _ hr hc hx)).2.2 ?_
      unfold binaryField
      rw [window_length]
      exact k2 e j _ _ (by unfold columnBytes; rw [List.getElem?_map, hc]; rfl) hx
    obtain ⟨k1, k2⟩ := lengths_le (cells.map List.flatten) (List.replicate rows rowLen) (by simp [h3]) fun r w x hr hx => by
      obtain ⟨_, rfl⟩ := replicate_get hr
      rw [List.getElem?_map] at hx
      obtain ⟨rw', hrow, rfl⟩ := Option.map_eq_some_iff.1 hx
      exact (row r rw' hrow).1
    rw [← List.flatten_flatten, List.sum_replicate_nat, Nat.mul_comm] at k1 k2
    refine ⟨k1, fun ⟨r, j, c, hr, hj, hn⟩ => Nat.lt_of_le_of_ne k1 fun e => hn ?_⟩
    have hrow := List.getElem?_eq_getElem (show r < cells.length by omega)
    refine (row r _ hrow).2 ?_ j c hj
    exact k2 e r rowLen _ (by rw [List.getElem?_replicate, if_pos hr]) (by rw [List.getElem?_map, hrow]; rfl)

/-- **C153** The rows of an ASCII table are saved without the gaps between the columns: they are as long as the columns are wide together, whatever the header announces. -/
theorem C153_ascii (F : FloatText) (u : ForeignHdu) (rowLen rows : Nat) (cols : List (Nat × Nat)) (h : AsciiTableCards F u.cards rowLen rows 0 cols) (d : Str)
    (hd : Resaved F u d) : d.length = (cols.map (·.2)).sum * rows := by
  cases hd with
  | image b axes h1 h2 =>
    obtain ⟨_, _, _, _, g, _⟩ := h1.simple; exact absurd h.noSimple (lastWith_not_absent g)
  | bytes axes h1 =>
    obtain ⟨_, _, _, _, g, _⟩ := h1.simple; exact absurd h.noSimple (lastWith_not_absent g)
  | binary _ _ _ _ h1 =>
    have := says_string_fun h.xtension (says_string (F := F) h1.xtension)
    exact absurd this (by decide)
  | ascii l n cols' fields h1 h2 h3 h4 h5 =>
    obtain ⟨rfl, rfl, rfl⟩ := asciiCards_unique h h1
    have row : ∀ row ∈ fields, row.flatten.length = (cols.map (·.2)).sum := by
      intro row hm
      obtain ⟨r, hr⟩ := List.mem_iff_getElem?.1 hm
      have hrow := h4 r row hr
      rw [List.length_flatten]
      congr 1
      refine List.ext_getElem (by simp [hrow]) fun j hj hj' => ?_
      rw [List.getElem_map, List.getElem_map]
      rw [List.length_map] at hj hj'
      obtain ⟨x, _, _, _, _, q⟩ := h5 r j row _ _ hr (List.getElem?_eq_getElem hj') (List.getElem?_eq_getElem hj)
      exact q
    rw [List.flatten_flatten, flatten_length_const (n := (cols.map (·.2)).sum) (by
      intro x hx
      obtain ⟨r, hr, rfl⟩ := List.mem_map.1 hx
      exact row r hr), List.length_map, h3, Nat.mul_comm]

/-- **C153** All pixels of an image of one byte to a pixel are zero in the copy. -/
theorem C153_bytes (F : FloatText) (u : ForeignHdu) (axes : List Nat) (h : ImageCards u.cards .B8 axes) (d : Str) (hd : Resaved F u d) : d = List.replicate u.data.length 0 := by
  cases hd with
  | image b axes' h1 h2 => exact absurd (shape_unique h1.toShapeCards h.toShapeCards).1 h2
  | bytes axes' h1 => rfl
  | binary _ _ _ _ h1 =>
    obtain ⟨_, _, _, _, g, _⟩ := h.simple; exact absurd h1.noSimple (lastWith_not_absent g)
  | ascii _ _ _ _ h1 =>
    obtain ⟨_, _, _, _, g, _⟩ := h.simple; exact absurd h1.noSimple (lastWith_not_absent g)

theorem noOuter_of (f : Str) (h : f.head?.all (fun c => !isSpace c) ∧ f.getLast?.all (fun c => !isSpace c)) : NoOuterWhite f := by
  obtain ⟨h1, h2⟩ := h
  refine ⟨fun c hc hw => ?_, fun c hc hw => ?_⟩
  · rw [hc] at h1; simp [isSpace_iff.2 hw] at h1
  · rw [hc] at h2; simp [isSpace_iff.2 hw] at h2

/-- Two stars whose fields have no white space at their ends. -/
theorem exStars_lossless (F : FloatText) : Lossless F ⟨exStars, b!"0001AB0002CD"⟩ where
  image b axes h := by
    obtain ⟨_, _, _, _, g, _⟩ := h.simple
    exact absurd (exStars_absent _ (by decide)) (lastWith_not_absent g)
  binary l n cols h r j c hr hj := by
    obtain ⟨rfl, rfl, rfl⟩ := binaryCards_unique h (exStars_binary F)
    have key : ∀ r < 2, ∀ j < 2, ∀ c, ([(1, 74), (2, 65)] : List (Nat × Byte))[j]? = some c →
        (binaryField b!"0001AB0002CD" 6 [(1, 74), (2, 65)] r j c).head?.all (fun c => !isSpace c) ∧
        (binaryField b!"0001AB0002CD" 6 [(1, 74), (2, 65)] r j c).getLast?.all (fun c => !isSpace c) := by
      intro r hr j hj c hc
      have : c ∈ ([(1, 74), (2, 65)] : List (Nat × Byte)) := List.mem_of_getElem? hc
      revert hc
      revert c
      revert r j
      decide
    exact noOuter_of _ (key r hr j (List.getElem?_eq_some_iff.1 hj).1 c hj)
  ascii l n cols h := by
    have := says_string_fun h.xtension (says_string (F := F) (exStars_binary F).xtension)
    exact absurd this (by decide)
  other kind h := .inr (says_string_fun (exStars_binary F).xtension (says_string (F := F) h))

/-- White space at the end of a field: the data of the copy are shorter than the twelve bytes that are announced. -/
example (F : FloatText) (d : Str) (h : Resaved F ⟨exStars, b!"0001A 0002CD"⟩ d) : d.length < 12 :=
  (C153_binary F _ 6 2 _ (exStars_binary F) d h).2 ⟨0, 1, (2, 65), by decide, rfl, fun hn => hn.2 32 (by decide) (.inl rfl)⟩

theorem exForeign_lossless (F : FloatText) (data : Str) : Lossless F ⟨exForeignCards, data⟩ where
  image b axes h := by
    obtain ⟨rfl, _⟩ := shape_unique h.toShapeCards exForeign_image.toShapeCards
    decide
  binary l n cols h := by
    obtain ⟨_, _, _, _, g, _⟩ := exForeign_image.simple
    exact absurd h.noSimple (lastWith_not_absent g)
  ascii l n cols h := by
    obtain ⟨_, _, _, _, g, _⟩ := exForeign_image.simple
    exact absurd h.noSimple (lastWith_not_absent g)
  other kind h := by
    obtain ⟨_, ⟨_, _, _, _, g, _⟩, _⟩ := h
    exact absurd exForeign_image.noXtension (lastWith_not_absent g)

/-- An image of six pixels of two bytes and a table of two stars: other programs find the same in the copy. -/
example (F : FloatText) (content : Str) (h : Laid [⟨exForeignCards, List.replicate 12 7⟩, ⟨exStars, b!"0001AB0002CD"⟩] content) (hb : content.length + 5760 < 2 ^ 63) :
    ∃ xs s, EndsIn (fun cards turns => readEntire F cards turns (openFile content)) (.opened xs) ∧ writeAll xs = .ok s ∧
      (s.content.length + 2880 < 2 ^ 63 → Laid [⟨exForeignCards, List.replicate 12 7⟩, ⟨exStars, b!"0001AB0002CD"⟩] s.content) := by
  refine C153_kept F content _ h ?_ ?_ ?_ ?_ hb <;> intro u hu <;> rcases List.mem_cons.1 hu with rfl | hu
  · exact .image .B16 [3, 2] true exForeign_image (exForeign_says 5 19 50 none rfl (by decide) (by decide) (by decide) (by decide) (by decide) (.inl rfl)) rfl
  · obtain rfl := List.mem_singleton.1 hu; exact exStars_supported F _ rfl
  · decide
  · obtain rfl := List.mem_singleton.1 hu; decide
  · decide
  · obtain rfl := List.mem_singleton.1 hu; decide
  · exact exForeign_lossless F _
  · obtain rfl := List.mem_singleton.1 hu; exact exStars_lossless F

end Astro
