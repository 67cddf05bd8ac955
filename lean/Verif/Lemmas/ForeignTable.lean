import Verif.Lemmas.ForeignFile
import Verif.Spec.ForeignTable
import Verif.Props.ForeignFile
import Verif.Props.Column

namespace Astro

open Spec Header

theorem says_string {F : FloatText} {cards : List Str} {key x : Str} (h : SaysString cards key x) : Declares F cards key .string (.string x) := by
  obtain ⟨n, ⟨j, raw, gap, comment, h1, h2, h3, h4⟩, hp, hs, hq, hh, hl⟩ := h
  refine ⟨j, raw, h1, h2, ?_⟩
  have hp' : PlainText (x ++ List.replicate n 32) := by
    intro c hc
    rcases List.mem_append.1 hc with hc | hc
    · exact hp c hc
    · rw [List.eq_of_mem_replicate hc]; decide
  have hs' : ∀ b : Byte, b ≠ 32 → b ∉ x → b ∉ x ++ List.replicate n 32 := by
    intro b hb hx hc
    rcases List.mem_append.1 hc with hc | hc
    · exact hx hc
    · exact hb (List.eq_of_mem_replicate hc)
  have := ((C148_string F raw _ gap comment h3 hp' (hs' _ (by decide) hs) h4).2 x ⟨n, rfl, hl⟩).2 ⟨hs' _ (by decide) hq, ?_⟩
  · rwa [value_fresh] at this
  · cases x with
    | nil => exact .inl rfl
    | cons c x => right; simpa using hh

theorem says_string_fun {cards : List Str} {key x y : Str} (h : SaysString cards key x) {F : FloatText} (h' : Declares F cards key .string (.string y)) : y = x := by
  have := lookup_fun (lookup_ok.2 (says_string (F := F) h)) (lookup_ok.2 h')
  cases this; rfl

theorem maySay_optional {F : FloatText} {cards : List Str} {key : Str} (h : MaySayString cards key) : Optional F cards key .string := by
  rcases h with h | ⟨x, h⟩
  · exact .inl h
  · exact .inr ⟨_, lookup_ok.2 (says_string h)⟩

theorem nat_int32 {n : Nat} (h : n < 2 ^ 31) : numberOf (.int (BitVec.ofNat 32 n)) = some (n : Int) := by
  simp only [numberOf, Option.some.injEq]
  rw [BitVec.toInt_eq_toNat_of_lt (by rw [BitVec.toNat_ofNat]; omega), BitVec.toNat_ofNat]
  omega

theorem notes_cards {F : FloatText} {cards : List Str} {d f : Str} (h : ColumnNotes F cards d) (hf : SaysString cards (b!"TFORM" ++ d) f) :
    ColumnCards F cards d := by
  refine ⟨⟨_, lookup_ok.2 (says_string hf)⟩, ?_, ?_, maySay_optional h.tunit, h.tscal, h.tzero⟩
  · rcases h.ttype with h | ⟨x, h, _⟩
    · exact .inl h
    · exact .inr ⟨_, lookup_ok.2 (says_string h)⟩
  · intro name hn
    rcases h.ttype with h | ⟨x, h, ha⟩
    · obtain ⟨_, _, g, _⟩ := lookup_ok.1 hn
      exact absurd h (lastWith_not_absent g)
    · cases says_string_fun h (lookup_ok.1 hn)
      exact .inl ha

theorem foreignTable_cards {F : FloatText} {cards : List Str} {kind x : Str} {rowLen rows heap fields : Nat} (h : ForeignTable cards kind rowLen rows heap fields)
    (hx : SaysString cards b!"EXTNAME" x) : TableCards F cards fields := by
  refine ⟨⟨_, lookup_ok.2 (says_declares (v := .int 1) h.gcount rfl)⟩, ⟨_, lookup_ok.2 (says_declares (v := .int _) h.pcount.1 (nat_int32 h.pcount.2))⟩,
    ⟨_, lookup_ok.2 (says_string hx)⟩, BitVec.ofNat 64 fields, lookup_ok.2 (says_declares (v := .sizeT _) h.tfields.1 (size_natCast ?_)), ?_⟩
  · have := h.tfields.2; omega
  · have := h.tfields.2
    rw [BitVec.toNat_ofNat]; omega

theorem allDigits_plain {s : Str} (h : AllDigits s) : ∀ c ∈ s, ¬ (c = 39 ∨ c = 32) := by
  rintro c hc (rfl | rfl) <;> (have := h.2 _ hc; revert this; decide)

/-- The bytes of a field as the code counts them: a byte for every bit. -/
def codeBytes (c : Nat × Byte) : Nat := c.1 * (if c.2 = 88 then 1 else elementBytes c.2)

theorem elementBytes_size : ∀ letter ∈ b!"LXBAIJEDCM", LetterSize letter (if letter = 88 then 1 else elementBytes letter) ∧
    1 ≤ (if letter = 88 then 1 else elementBytes letter) ∧ (if letter = 88 then 1 else elementBytes letter) ≤ 16 ∧ ¬ (letter = 39 ∨ letter = 32) := by
  unfold LetterSize; decide

theorem codeBytes_eq {c : Nat × Byte} (h : c.2 = 88 → c.1 ≤ 1) : codeBytes c = fieldBytes c := by
  unfold codeBytes fieldBytes
  split
  · rename_i h'; have := h h'; omega
  · rfl

theorem fieldBytes_le (c : Nat × Byte) : fieldBytes c ≤ codeBytes c := by
  unfold codeBytes fieldBytes
  split <;> omega

theorem isUnquoted_self {s : Str} (h1 : ∀ c, s.head? = some c → ¬ (c = 39 ∨ c = 32)) (h2 : ∀ c, s.getLast? = some c → ¬ (c = 39 ∨ c = 32)) :
    IsUnquoted s s := ⟨[], [], by simp, by simp, by simp, h1, h2⟩

theorem formatText_width {f : Str} {r : Nat} {letter : Byte} (h : FormatText f r letter) (hl : letter ∈ b!"LXBAIJEDCM")
    (hw : codeBytes (r, letter) < 2 ^ 64) : BinWidth f (codeBytes (r, letter)) := by
  obtain ⟨h1, h2, _, h3⟩ := elementBytes_size letter hl
  unfold codeBytes at hw ⊢
  simp only at hw ⊢
  generalize (if letter = 88 then 1 else elementBytes letter) = size at *
  have hr : r < 2 ^ 64 := Nat.lt_of_le_of_lt (by simpa using Nat.mul_le_mul_left r h2) hw
  rcases h with ⟨rfl, rfl⟩ | ⟨digits, hd, rfl, rfl⟩
  · exact ⟨[letter], [], letter, 1, _, isUnquoted_self (by simpa using h3) (by simpa using h3), rfl, .inl ⟨rfl, rfl⟩, h1, (Nat.mod_eq_of_lt hw).symm⟩
  · refine ⟨_, digits, letter, positional digits, _, isUnquoted_self ?_ (by simpa using h3), rfl, .inr (.inl ⟨hd, hr, rfl⟩), h1, (Nat.mod_eq_of_lt hw).symm⟩
    intro c hc
    obtain ⟨a, t, rfl⟩ := List.exists_cons_of_ne_nil hd.1
    simp only [List.cons_append, List.head?_cons, Option.some.injEq] at hc
    subst hc
    exact allDigits_plain hd _ List.mem_cons_self

theorem formatText_count {f : Str} {r : Nat} {letter : Byte} (h : FormatText f r letter) (hl : letter ∈ b!"LXBAIJEDCM") (hr : r < 2 ^ 59) :
    Bin.elementCount f = .ok r := by
  obtain ⟨h1, h2, _, h3⟩ := elementBytes_size letter hl
  refine (C19_element_count f r).2 ?_
  rcases h with ⟨rfl, rfl⟩ | ⟨digits, hd, rfl, rfl⟩
  · exact ⟨[letter], isUnquoted_self (by simpa using h3) (by simpa using h3), .inl ⟨by simp, rfl⟩⟩
  · refine ⟨_, isUnquoted_self ?_ (by simpa using h3), .inr ⟨digits, letter, rfl, .inl ⟨hd, by omega, rfl⟩⟩⟩
    intro c hc
    obtain ⟨a, t, rfl⟩ := List.exists_cons_of_ne_nil hd.1
    simp only [List.cons_append, List.head?_cons, Option.some.injEq] at hc
    subst hc
    exact allDigits_plain hd _ List.mem_cons_self

theorem asciiFormatText_width {f : Str} {w : Nat} (h : AsciiFormatText f w) (hw : w < 2 ^ 64) : AsciiWidth f w := by
  obtain ⟨letter, digits, tail, hl, hd, rfl, rfl, ht⟩ := h
  have hl' : letter ≠ 46 ∧ ¬ (letter = 39 ∨ letter = 32) := by
    have : ∀ l ∈ b!"AIFED", l ≠ 46 ∧ ¬ (l = 39 ∨ l = 32) := by decide
    exact this letter hl
  refine ⟨_, isUnquoted_self (by simpa using hl'.2) ?_, .inl ⟨letter, digits, tail, rfl, hl'.1, ?_, ?_, .inl ⟨hd, hw, rfl⟩⟩⟩
  · intro c hc
    rw [List.getLast?_cons, Option.some.injEq] at hc
    rcases ht with rfl | ⟨dec, hdec, rfl⟩
    · obtain ⟨t, a, e⟩ : ∃ t a, digits = t ++ [a] := ⟨_, _, (List.dropLast_concat_getLast hd.1).symm⟩
      rw [e] at hc
      simp at hc
      subst hc
      exact allDigits_plain hd _ (by rw [e]; simp)
    · obtain ⟨t, a, e⟩ : ∃ t a, dec = t ++ [a] := ⟨_, _, (List.dropLast_concat_getLast hdec.1).symm⟩
      rw [e] at hc
      have e2 : digits ++ 46 :: (t ++ [a]) = (digits ++ 46 :: t) ++ [a] := by simp
      rw [e2, List.getLast?_concat] at hc
      simp at hc
      subst hc
      exact allDigits_plain hdec _ (by rw [e]; simp)
  · intro hc
    have := hd.2 _ hc
    revert this; decide
  · rcases ht with rfl | ⟨dec, _, rfl⟩
    · exact .inl rfl
    · exact .inr rfl

theorem columnBytes_get {cols : List (Nat × Byte)} {j : Nat} {c : Nat × Byte} (h : cols[j]? = some c) :
    (columnBytes cols)[j]? = some (fieldBytes c) := by
  unfold columnBytes; rw [List.getElem?_map, h]; rfl

theorem codeBytes_lt {F : FloatText} {cards : List Str} {rowLen rows heap : Nat} {cols : List (Nat × Byte)}
    (h : BinaryTableCards F cards rowLen rows heap cols) {c : Nat × Byte} (hc : c ∈ cols) : codeBytes c < 2 ^ 64 := by
  have h1 := h.bound c hc
  obtain ⟨_, _, h2, _⟩ := elementBytes_size c.2 (h.letter c hc)
  unfold codeBytes
  calc _ ≤ c.1 * 16 := Nat.mul_le_mul_left _ h2
    _ < 2 ^ 64 := by omega

theorem le_sum_get : ∀ {l : List Nat} {j a : Nat}, l[j]? = some a → (l.take j).sum + a ≤ l.sum
  | [], _, _, h => by simp at h
  | b :: l, 0, a, h => by simp at h; subst h; simp
  | b :: l, j + 1, a, h => by
    have := le_sum_get (l := l) (j := j) (a := a) (by simpa using h)
    simp only [List.take_succ_cons, List.sum_cons]; omega

theorem shape_rowLen {cards : List Str} {b : Bitpix} {rowLen rows : Nat} (h : ShapeCards cards b [rowLen, rows]) : rowLen < 2 ^ 64 :=
  (h.axis 0 rowLen (showNat 1) rfl (showNat_isNat 1)).2

theorem binaryTable_columns {F : FloatText} {cards : List Str} {rowLen rows heap : Nat} {cols : List (Nat × Byte)} {x : Str}
    (h : BinaryTableCards F cards rowLen rows heap cols) (hx : SaysString cards b!"EXTNAME" x) : BinaryCards F cards cols.length := by
  refine ⟨foreignTable_cards h.toForeignTable hx, ?_⟩
  intro i d hi1 hi2 hd
  obtain ⟨j, rfl⟩ : ∃ j, i = j + 1 := ⟨i - 1, by omega⟩
  have hj : cols[j]? = some cols[j] := List.getElem?_eq_getElem (by omega)
  obtain ⟨⟨f, g1, g2⟩, g3, g4, g5⟩ := h.column j _ d hj hd
  exact ⟨notes_cards g3 g1, maySay_optional g4, maySay_optional g5, f, _, lookup_ok.2 (says_string g1),
    formatText_width g2 (h.letter _ (List.mem_of_getElem? hj)) (codeBytes_lt h (List.mem_of_getElem? hj))⟩

theorem binaryTable_widths {F : FloatText} {cards : List Str} {rowLen rows heap : Nat} {cols : List (Nat × Byte)}
    (h : BinaryTableCards F cards rowLen rows heap cols) {i : Nat} {d f : Str} {w : Nat} (hi : 1 ≤ i) (hd : IsNat d i)
    (hw : (cols.map codeBytes)[i - 1]? = some w) (hf : Lookup F cards (b!"TFORM" ++ d) .string (.ok (.string f))) : BinWidth f w := by
  obtain ⟨j, rfl⟩ : ∃ j, i = j + 1 := ⟨i - 1, by omega⟩
  rw [Nat.add_sub_cancel, List.getElem?_map] at hw
  cases hc : cols[j]? with
  | none => rw [hc] at hw; cases hw
  | some c =>
    rw [hc] at hw; cases hw
    obtain ⟨⟨f', g1, g2⟩, _⟩ := h.column j c d hc hd
    cases says_string_fun g1 (lookup_ok.1 hf)
    exact formatText_width g2 (h.letter _ (List.mem_of_getElem? hc)) (codeBytes_lt h (List.mem_of_getElem? hc))

theorem codeBytes_map {cols : List (Nat × Byte)} (h : ∀ c ∈ cols, c.2 = 88 → c.1 ≤ 1) : cols.map codeBytes = columnBytes cols :=
  List.map_congr_left fun c hc => codeBytes_eq (h c hc)

/-- A column of two or more bits makes the row longer for the code than it is. -/
theorem codeBytes_longer : ∀ {cols : List (Nat × Byte)}, (columnBytes cols).sum ≤ (cols.map codeBytes).sum ∧
    ((∃ c ∈ cols, c.2 = 88 ∧ 2 ≤ c.1) → (columnBytes cols).sum < (cols.map codeBytes).sum)
  | [] => by simp [columnBytes]
  | c :: cols => by
    obtain ⟨h1, h2⟩ := codeBytes_longer (cols := cols)
    have h3 := fieldBytes_le c
    simp only [columnBytes, List.map_cons, List.sum_cons] at h1 h2 ⊢
    refine ⟨by omega, ?_⟩
    rintro ⟨b, hb, hb1, hb2⟩
    rcases List.mem_cons.1 hb with rfl | hb
    · have : fieldBytes b < codeBytes b := by
        unfold fieldBytes codeBytes; rw [if_pos hb1, if_pos hb1]; omega
      omega
    · have := h2 ⟨b, hb, hb1, hb2⟩
      omega

theorem asciiTable_columns {F : FloatText} {cards : List Str} {rowLen rows heap : Nat} {cols : List (Nat × Nat)} {x : Str}
    (h : AsciiTableCards F cards rowLen rows heap cols) (hx : SaysString cards b!"EXTNAME" x) : AsciiCards F cards cols.length := by
  refine ⟨foreignTable_cards h.toForeignTable hx, ?_⟩
  intro i d hi1 hi2 hd
  obtain ⟨j, rfl⟩ : ∃ j, i = j + 1 := ⟨i - 1, by omega⟩
  have hj : cols[j]? = some cols[j] := List.getElem?_eq_getElem (by omega)
  obtain ⟨⟨f, g1, g2⟩, g3, g4⟩ := h.column j _ d hj hd
  have h1 := h.inside _ (List.mem_of_getElem? hj)
  have h2 := shape_rowLen h.toShapeCards
  exact ⟨notes_cards g4 g1, _, lookup_ok.2 (says_declares (v := .sizeT _) g3 (size_natCast (by omega)))⟩

theorem foreignTable_name {F : FloatText} {cards : List Str} {kind : Str} {rowLen rows heap fields : Nat} (hh : ForeignTable cards kind rowLen rows heap fields)
    {fuel : Nat} {s s' : Stream} {h : Header} (hg : s.good = true) (e : readHeader F fuel Header.empty s = some (.ok (h, s')))
    (hr : h.cards.map (·.raw) = cards) (hp : ∀ k, HeaderKey h k → ¬ Absent (h.cards.map (·.raw)) k) : ∃ h1, h.getHduName F = (h1, .ok kind) := by
  have hn := (C34_name F fuel s s' h hg e hp).1 kind (by rw [hr]; exact says_string hh.xtension)
  exact ⟨(h.getHduName F).1, by rw [← hn]⟩

/-- What building a table HDU means, for a header that has been asked for its name. -/
theorem construct_sound {F : FloatText} {h h1 : Header} {name buf : Str} {x : Hdu} (hs : Sound F h) (en : h.getHduName F = (h1, .ok name))
    (hc : Hdu.construct F h1 buf = .ok x) :
    (∃ p, x = .primary p) ∨ x = .blank ∨ ∃ h2, Sound F h2 ∧ h2.cards.map (·.raw) = h.cards.map (·.raw) ∧ h2.naxis = h.naxis ∧
      ∃ t, (x = .ascii t ∧ Ascii.make F h2 buf = .ok t) ∨ (x = .binary t ∧ BinTable.make F h2 buf = .ok t) := by
  obtain ⟨n1, _, n3, _, n5⟩ := getHduName_ok hs en
  unfold Hdu.construct at hc
  split at hc
  · obtain ⟨p, _, hc⟩ := bind_ok hc
    exact .inl ⟨p, (Except.ok.inj hc).symm⟩
  · unfold Hdu.generateExtension at hc
    obtain ⟨⟨h2, k⟩, e2, hc⟩ := bind_ok hc
    obtain ⟨s1, s2, _⟩ := get_ok n5 (getStr_ok e2)
    simp only at hc
    refine .inr ?_
    split at hc
    · obtain ⟨u, hu, hc⟩ := bind_ok hc
      exact .inr ⟨h2, s2, s1.raws.trans n1, s1.naxis.trans n3, u, .inl ⟨(Except.ok.inj hc).symm, hu⟩⟩
    · split at hc
      · obtain ⟨u, hu, hc⟩ := bind_ok hc
        exact .inr ⟨h2, s2, s1.raws.trans n1, s1.naxis.trans n3, u, .inr ⟨(Except.ok.inj hc).symm, hu⟩⟩
      · exact .inl (Except.ok.inj hc).symm

/-- At one place there is one HDU, and so one place for the next. -/
theorem complete_same {F : FloatText} {content : Str} {a b : Entry} (ha : Complete F content a) (hb : Complete F content b) (hl : a.loc = b.loc) : a.next = b.next := by
  obtain ⟨f, s, h1⟩ := ha.header
  obtain ⟨g, s', h2⟩ := hb.header
  have h1 := readHeader_mono h1 g
  have h2 := readHeader_mono h2 f
  rw [Nat.add_comm, ← hl, h1] at h2
  have hh : a.header = b.header := by
    have := Except.ok.inj (Option.some.inj h2)
    exact congrArg Prod.fst this
  exact (placed_unique ha.toPlaced hb.toPlaced hl hh).2.2

/-- Two ways through a file are the same way. -/
theorem chain_through {F : FloatText} {content : Str} : ∀ {es es' : List Entry} {a p q : Nat}, Chain (Complete F content) a es p → Chain (Complete F content) a es' q →
    p < q → ∃ e, e.loc = p ∧ Complete F content e
  | [], [], _, _, _, h, h', hlt => by cases h; cases h'; omega
  | [], e :: _, _, _, _, h, ⟨h1, h2, _⟩, _ => by cases h; exact ⟨e, h1, h2⟩
  | e :: es, [], a, p, q, h, h', hlt => by
    have := chain_le h
    cases h'; omega
  | e :: es, e' :: es', a, p, q, ⟨h1, h2, h3⟩, ⟨g1, g2, g3⟩, hlt => by
    rw [complete_same g2 h2 (g1.trans h1.symm)] at g3
    exact chain_through h3 g3 hlt

theorem unsignedText_bytes {s : Str} {n : Nat} (h : UnsignedText s n) : ∀ c ∈ s, c.toNat ≤ 57 := by
  rcases h with ⟨h, _⟩ | ⟨t, rfl, h, _⟩ | ⟨t, rfl, h, _⟩
  · exact fun c hc => (h.2 c hc).2
  all_goals
    intro c hc
    rcases List.mem_cons.1 hc with rfl | hc
    · decide
    · exact (h.2 c hc).2

theorem unquoted_eq {f form : Str} (h : IsUnquoted f form) (h1 : ∀ c, f.head? = some c → ¬ (c = 39 ∨ c = 32)) (h2 : ∀ c, f.getLast? = some c → ¬ (c = 39 ∨ c = 32)) :
    form = f := by
  have a := isUnquoted_iff.1 h
  have b := isUnquoted_iff.1 (isUnquoted_self h1 h2)
  exact a.symm.trans b

theorem newerFormat_width {f : Str} {w : Nat} (h : NewerFormat f) : ¬ BinWidth f w := by
  rintro ⟨form, count, letter, n, size, hu, hform, hcount, hsize, _⟩
  obtain ⟨digits, hd, hf⟩ := h
  have headOk : ∀ (x : Byte) (l : Str), ¬ (x = 39 ∨ x = 32) → ∀ c, (digits ++ x :: l).head? = some c → ¬ (c = 39 ∨ c = 32) := by
    intro x l hx c hc
    rcases hd with rfl | hd
    · simp at hc; subst hc; exact hx
    · obtain ⟨a, t, rfl⟩ := List.exists_cons_of_ne_nil hd.1
      simp only [List.cons_append, List.head?_cons, Option.some.injEq] at hc
      subst hc
      exact allDigits_plain hd _ List.mem_cons_self
  have letters : ∀ l ∈ b!"PQ", ¬ (l = 39 ∨ l = 32) ∧ 57 < l.toNat := by decide
  have types : ∀ l ∈ b!"LXBIJKAEDCM", ¬ (l = 39 ∨ l = 32) := by decide
  rcases hf with rfl | ⟨l, hl, ty, hty, rfl | ⟨largest, rfl⟩⟩
  · have e := unquoted_eq hu (headOk 75 [] (by decide)) (by intro c hc; rw [List.getLast?_concat] at hc; cases hc; decide)
    rw [hform] at e
    have := (List.append_inj' e rfl).2
    cases this
    unfold LetterSize at hsize
    revert hsize; simp
  · have e0 : digits ++ [l, ty] = (digits ++ [l]) ++ [ty] := by simp
    have e := unquoted_eq hu (headOk l [ty] (letters l hl).1) (by intro c hc; rw [e0, List.getLast?_concat] at hc; cases hc; exact types _ hty)
    rw [hform, e0] at e
    have := (List.append_inj' e rfl).1
    subst this
    rcases hcount with ⟨h, _⟩ | h
    · simp at h
    · have := unsignedText_bytes h l (by simp)
      have := (letters l hl).2
      omega
  · have e := unquoted_eq hu (by
        have : digits ++ [l, ty, 40] ++ largest ++ [41] = digits ++ l :: ([ty, 40] ++ largest ++ [41]) := by simp
        rw [this]; exact headOk l _ (letters l hl).1) (by intro c hc; rw [List.getLast?_concat] at hc; cases hc; decide)
    rw [hform] at e
    have := (List.append_inj' e rfl).2
    cases this
    unfold LetterSize at hsize
    revert hsize; simp

end Astro
