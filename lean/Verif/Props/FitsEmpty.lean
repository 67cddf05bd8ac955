import Verif.Props.FitsRoundTrip

/-
Property C32: HDUs without data in a written file.
-/

namespace Astro

open Spec Header Reader Bin

theorem readHeader_raws {F : FloatText} {fuel : Nat} {s s' : Stream} {h : Header} (hg : s.good = true)
    (e : readHeader F fuel Header.empty s = some (.ok (h, s'))) :
    (∀ r ∈ h.cards.map (·.raw), r.length = 80 ∧ RawOk r) ∧ ∃ l e, h.cards.map (·.raw) = l ++ [e] ∧ IsEnd e ∧ ∀ r ∈ l, ¬ IsEnd r := by
  unfold readHeader at e
  cases hc : readCards fuel Header.empty s with
  | none => rw [hc] at e; cases e
  | some x =>
    rw [hc] at e
    cases x with
    | error er => cases e
    | ok y =>
      obtain ⟨h1, s2⟩ := y
      simp only at e
      cases hi : h1.interpret F with
      | error er => rw [hi] at e; cases e
      | ok h2 =>
        rw [hi] at e
        simp only [Option.some.injEq, Except.ok.injEq, Prod.mk.injEq] at e
        obtain ⟨rfl, rfl⟩ := e
        obtain ⟨n, i1, _, i3⟩ := readCards_some (streamAt_zero hg) hc
        rcases i3 with ⟨j1, s', j2, j3⟩ | ⟨_, j3⟩
        · cases j3
          obtain ⟨b, hread, _⟩ := interpret_ok hi
          have hr : h2.cards.map (·.raw) = pieces s.content s.pos 0 (n + 1) := by
            rw [hread.raws, addCards_cards]; simp [Header.empty, Function.comp_def]
          rw [hr]
          refine ⟨?_, pieces s.content s.pos 0 n, piece s.content s.pos (0 + n), ?_, j1, ?_⟩
          · intro r hmem
            obtain ⟨j, hj, rfl⟩ := List.mem_map.1 hmem
            have hj := List.mem_range.1 hj
            refine ⟨piece_length _ _ _, ?_⟩
            rcases Nat.lt_or_ge j n with hjn | hjn
            · exact (i1 j hjn).1
            · have : j = n := by omega
              subst this; exact isEnd_rawOk j1
          · unfold pieces; rw [List.range_succ]; simp
          · intro r hmem
            obtain ⟨j, hj, rfl⟩ := List.mem_map.1 hmem
            exact (i1 j (List.mem_range.1 hj)).2
        · cases j3

/-- An HDU keeps the cards it was built from. -/
theorem construct_cards {F : FloatText} {h1 : Header} (hs1 : Sound F h1) {buf : Str} {x : Hdu} (ex : Hdu.construct F h1 buf = .ok x) (hx : x ≠ .blank) :
    cardsOf x = h1.cards.map (·.raw) := by
  unfold Hdu.construct at ex
  split at ex
  · obtain ⟨p0, e1, ex⟩ := bind_ok ex
    cases ex
    unfold Primary.make at e1
    cases hb : h1.bitpix with
    | none => rw [hb] at e1; cases e1
    | some b =>
      rw [hb] at e1
      simp only at e1
      obtain ⟨img, e2, e1⟩ := bind_ok e1
      obtain ⟨⟨h2, sv⟩, e3, e1⟩ := bind_ok e1
      obtain ⟨⟨h3, ev⟩, e4, e1⟩ := bind_ok e1
      cases e1
      obtain ⟨s2, d2, _⟩ := get_ok hs1 (getBool_ok e3)
      obtain ⟨s3, d3, _⟩ := get_ok d2 (getBool_ok e4)
      show h3.cards.map (·.raw) = _
      rw [s3.raws, s2.raws]
  · unfold Hdu.generateExtension at ex
    obtain ⟨⟨h2, k⟩, e1, e2⟩ := bind_ok ex
    obtain ⟨s2, d2, _⟩ := get_ok hs1 (getStr_ok e1)
    simp only at e2
    split at e2
    · obtain ⟨t0, e3, e2⟩ := bind_ok e2
      cases e2
      unfold Ascii.make at e3
      obtain ⟨tb, e4, e3⟩ := bind_ok e3
      obtain ⟨s4, d4, _⟩ := base_ok d2 e4
      unfold Ascii.setInfo at e3
      obtain ⟨⟨h5, cs⟩, e5, e3⟩ := bind_ok e3
      obtain ⟨s5, d5, l5, _⟩ := ascii_columns_ok _ 1 d4 e5
      simp only at e3
      have : t0.header = h5 := by
        split at e3
        · cases e3; rfl
        · obtain ⟨_, _, e3⟩ := bind_ok e3
          obtain ⟨_, _, e3⟩ := bind_ok e3
          obtain ⟨_, _, e3⟩ := bind_ok e3
          cases e3; rfl
      show t0.header.cards.map (·.raw) = _
      rw [this, s5.raws, s4.raws, s2.raws]
    · split at e2
      · obtain ⟨t0, e3, e2⟩ := bind_ok e2
        cases e2
        unfold BinTable.make at e3
        obtain ⟨tb, e4, e3⟩ := bind_ok e3
        obtain ⟨s4, d4, _⟩ := base_ok d2 e4
        unfold BinTable.setInfo at e3
        obtain ⟨⟨h5, cs⟩, e5, e3⟩ := bind_ok e3
        obtain ⟨s5, d5, l5, _⟩ := bin_columns_ok _ 1 0 d4 (by decide) e5
        simp only at e3
        have : t0.header = h5 := by
          split at e3
          · cases e3; rfl
          · obtain ⟨_, _, e3⟩ := bind_ok e3
            obtain ⟨_, _, e3⟩ := bind_ok e3
            obtain ⟨_, _, e3⟩ := bind_ok e3
            cases e3; rfl
        show t0.header.cards.map (·.raw) = _
        rw [this, s5.raws, s4.raws, s2.raws]
      · cases e2; exact absurd rfl hx

/-- Built from no data, an HDU has none. -/
theorem construct_nil_payload {F : FloatText} {h1 : Header} {x : Hdu} (ex : Hdu.construct F h1 [] = .ok x) (hx : x ≠ .blank) :
    x.payload = some (cardsOf x, .ok []) := by
  unfold Hdu.construct at ex
  split at ex
  · obtain ⟨p0, e1, ex⟩ := bind_ok ex
    cases ex
    unfold Primary.make at e1
    cases hb : h1.bitpix with
    | none => rw [hb] at e1; cases e1
    | some b =>
      rw [hb] at e1
      simp only at e1
      obtain ⟨img, e2, e1⟩ := bind_ok e1
      obtain ⟨⟨h2, sv⟩, e3, e1⟩ := bind_ok e1
      obtain ⟨⟨h3, ev⟩, e4, e1⟩ := bind_ok e1
      cases e1
      unfold AnyImage.make Image.readImage at e2
      cases e2
      simp only [Hdu.payload, cardsOf, AnyImage.bytes]
      rw [writeImage_eq]; rfl
  · unfold Hdu.generateExtension at ex
    obtain ⟨⟨h2, k⟩, e1, e2⟩ := bind_ok ex
    simp only at e2
    split at e2
    · obtain ⟨t0, e3, e2⟩ := bind_ok e2
      cases e2
      unfold Ascii.make at e3
      obtain ⟨tb, e4, e3⟩ := bind_ok e3
      have hd : tb.data = [] := by
        unfold Table.base at e4
        obtain ⟨_, _, e4⟩ := bind_ok e4
        obtain ⟨_, _, e4⟩ := bind_ok e4
        obtain ⟨_, _, e4⟩ := bind_ok e4
        obtain ⟨_, _, e4⟩ := bind_ok e4
        cases e4; rfl
      unfold Ascii.setInfo at e3
      obtain ⟨⟨h5, cs⟩, e5, e3⟩ := bind_ok e3
      simp only at e3
      rw [if_pos List.isEmpty_nil] at e3
      cases e3
      simp only [Hdu.payload, cardsOf, Ascii.rowTexts, hd]
      rfl
    · split at e2
      · obtain ⟨t0, e3, e2⟩ := bind_ok e2
        cases e2
        unfold BinTable.make at e3
        obtain ⟨tb, e4, e3⟩ := bind_ok e3
        have hd : tb.data = [] := by
          unfold Table.base at e4
          obtain ⟨_, _, e4⟩ := bind_ok e4
          obtain ⟨_, _, e4⟩ := bind_ok e4
          obtain ⟨_, _, e4⟩ := bind_ok e4
          obtain ⟨_, _, e4⟩ := bind_ok e4
          cases e4; rfl
        unfold BinTable.setInfo at e3
        obtain ⟨⟨h5, cs⟩, e5, e3⟩ := bind_ok e3
        simp only at e3
        rw [if_pos List.isEmpty_nil] at e3
        cases e3
        simp only [Hdu.payload, cardsOf, BinTable.rowTexts, hd]
        rfl
      · cases e2; exact absurd rfl hx

/-- A data-less HDU in a written file is read, but the block written behind it is not skipped. -/
theorem writeTo_dataless {F : FloatText} {h : Header} {x : Hdu} (hr : Dataless F h x) {s : Stream} (hs : AtEnd s) :
    ∃ s' c0, Hdu.writeTo s x = .ok s' ∧ AtEnd s' ∧ (∃ t, c0 = s.content ++ t) ∧
      (s'.content.length + 5760 < 2 ^ 63 → s'.content = c0 ++ List.replicate 2880 32 ∧ ∀ rest, ∃ e : Entry, Complete F (s'.content ++ rest) e ∧
        e.loc = s.content.length ∧ e.next = c0.length ∧ e.hdu = x) := by
  obtain ⟨fuel, s0, s1, hg, e⟩ := hr.read
  obtain ⟨h1, name, en, ex⟩ := hr.built
  have hsd := sound_of_read hg e
  obtain ⟨n1, n2, n3, n4, hs1⟩ := getHduName_ok hsd en
  have hp := construct_nil_payload ex hr.known
  rw [construct_cards hs1 ex hr.known, n1] at hp
  obtain ⟨a1, k1, k2, c, hb⟩ := hduStream_atEnd hs (h.cards.map (·.raw)) []
  have hw : Hdu.writeTo s x = .ok (hduStream s (h.cards.map (·.raw)) []) := by rw [Hdu.writeTo_eq hs, hp]
  refine ⟨_, s.content ++ (h.cards.map Card.raw).flatten ++ List.replicate k1 32, hw, a1,
    ⟨(h.cards.map Card.raw).flatten ++ List.replicate k1 32, by simp only [List.append_assoc]⟩, ?_⟩
  generalize hduStream s (h.cards.map (·.raw)) [] = s' at *
  intro hlen
  obtain ⟨b1, b2, b3, b4, b5, b6⟩ := hb (by omega)
  have h80 : ∀ r ∈ h.cards.map (·.raw), r.length = 80 := (sound_of_read hg e).size
  have hfl := flatten_length80 _ h80
  rw [List.length_map] at hfl
  have hcl := congrArg List.length c
  simp only [List.length_append, List.length_replicate, hfl, List.length_nil] at hcl
  rw [hfl] at b3 b6
  have hk2 : k2 = 2880 := by simp only [List.length_nil] at b6; omega
  subst hk2
  rw [List.append_nil] at c
  refine ⟨c, fun rest => ?_⟩
  obtain ⟨q1, q2⟩ := write_atEnd hs (h.cards.map (·.raw)).flatten
  have hwh : h.writeHeader s = padUnit (s.write (h.cards.map (·.raw)).flatten).1 := writeHeader_eq h s
  obtain ⟨q3, k1', q4, q5⟩ := padUnit_atEnd q1
  rw [← hwh] at q3 q4
  rw [q2, List.length_append, hfl] at q5
  obtain ⟨q6, q7, q8⟩ := q5 (by omega)
  have hk : k1' = k1 := by omega
  subst hk
  have hrest : s'.content ++ rest = (h.writeHeader s).content ++ (List.replicate 2880 32 ++ rest) := by
    rw [c, q4, q2]; simp only [List.append_assoc]
  obtain ⟨r', g1, g2⟩ := C27_reread F h s0 s1 hg fuel e s hs.good hs.writable hs.pos (by omega) (List.replicate 2880 32 ++ rest)
    h.cards.length (Nat.le_refl _)
  have hc0 : (s.content ++ (h.cards.map Card.raw).flatten ++ List.replicate k1' 32).length = s.content.length + 80 * h.cards.length + k1' := by
    rw [List.length_append, List.length_append, List.length_replicate]
    show s.content.length + (h.cards.map (·.raw)).flatten.length + k1' = _
    rw [hfl]
  rw [hc0]
  refine ⟨⟨s.content.length, h, s.content.length + 80 * h.cards.length + k1', 0, s.content.length + 80 * h.cards.length + k1', name, x⟩,
    ⟨⟨?_, ?_, ?_, ?_, ?_, ?_⟩, ?_, ?_⟩, rfl, rfl, rfl⟩
  · refine ⟨h.cards.length, r', ?_⟩
    rw [hrest]
    rw [hs.pos] at g1
    exact g1
  · simp only [List.length_append]; omega
  · simp only [List.length_append]; omega
  · exact ⟨by simp only; omega, by simp only; omega, by simp only; omega⟩
  · intro _; exact ⟨rfl, rfl⟩
  · intro h0; exact absurd hr.noData h0
  · left; rfl
  · exact ⟨h1, en, ex⟩

namespace Reader

theorem entireTurn_mono {F : FloatText} {fuel : Nat} {r : Reader} {s : Stream} {x : Res Reader} (e : entireTurn F fuel r s = some x) (g : Nat) :
    entireTurn F (fuel + g) r s = some x := by
  unfold entireTurn extractHeader at *
  simp only at *
  cases hr : readHeader F fuel Header.empty s.tellg.1 with
  | none => rw [hr] at e; cases e
  | some y => rw [hr] at e; rw [readHeader_mono hr g]; exact e

/-- More time does not change a result. -/
theorem readEntire_mono {F : FloatText} {fuel : Nat} : ∀ (n : Nat) {r : Reader} {x : Res Reader}, readEntire F fuel n r = some x → ∀ g k,
    readEntire F (fuel + g) (n + k) r = some x := by
  intro n
  induction n with
  | zero => intro r x e; cases e
  | succ n ih =>
    intro r x e g k
    rw [Nat.succ_add]
    unfold readEntire at e ⊢
    generalize r.file.atEnd = y at e ⊢
    obtain ⟨s, b⟩ := y
    cases b with
    | true => exact e
    | false =>
      simp only at e ⊢
      cases ht : entireTurn F fuel r s with
      | none => rw [ht] at e; cases e
      | some z =>
        rw [ht] at e
        rw [entireTurn_mono ht g]
        cases z with
        | error er => exact e
        | ok r1 => exact ih e g k

/-- A result starts with the complete HDUs that the file starts with. -/
theorem readEntire_prefix {F : FloatText} {content : Str} (hb : content.length + 5760 < 2 ^ 63) {es : List Entry} {q : Nat}
    (hc : Chain (Complete F content) 0 es q) {fuel n : Nat} {x : Res Reader} (e : readEntire F fuel n (openFile content) = some x) :
    ∃ fuel' n' r0, r0.file = rd content q ∧ r0.hdus = es.map (·.hdu) ∧ readEntire F fuel' n' r0 = some x := by
  obtain ⟨N, h⟩ := readEntire_chain hb es 0 q hc
  have h1 := readEntire_mono n e N es.length
  rw [h (fuel + N) (by omega) n (openFile content) rfl] at h1
  exact ⟨_, _, _, rfl, by simp [openFile], h1⟩

end Reader

theorem foldlM_append (xs ys : List Hdu) (s : Stream) :
    (xs ++ ys).foldlM Hdu.writeTo s = (xs.foldlM Hdu.writeTo s >>= fun s' => ys.foldlM Hdu.writeTo s') := by
  rw [List.foldlM_append]

theorem chain_append {P : Entry → Prop} : ∀ {es fs : List Entry} {p q r : Nat}, Chain P p es q → Chain P q fs r → Chain P p (es ++ fs) r
  | [], _, _, _, _, h1, h2 => by cases h1; exact h2
  | _ :: _, _, _, _, _, h1, h2 => ⟨h1.1, h1.2.1, chain_append h1.2.2 h2⟩

/-- The file up to and including a data-less HDU. -/
theorem dataless_file {F : FloatText} {good : List Hdu} (hr : ∀ x ∈ good, ∃ h, Ready F h x) {h : Header} {d : Hdu} (hd : Dataless F h d) :
    ∃ s c0, writeAll (good ++ [d]) = .ok s ∧ AtEnd s ∧ (s.content.length + 5760 < 2 ^ 63 →
      s.content = c0 ++ List.replicate 2880 32 ∧ ∀ rest, ∃ es, Chain (Complete F (s.content ++ rest)) 0 es c0.length ∧ es.map (·.hdu) = good ++ [d]) := by
  obtain ⟨s1, e1, a1, ⟨t1, c1⟩, g1⟩ := foldlM_complete good hr create_atEnd
  obtain ⟨s2, c0, e2, a2, ⟨t2, c2⟩, g2⟩ := writeTo_dataless hd a1
  refine ⟨s2, c0, ?_, a2, ?_⟩
  · unfold writeAll
    rw [foldlM_append, e1]
    show [d].foldlM Hdu.writeTo s1 = _
    rw [foldlM_cons, e2]; rfl
  · intro hb
    obtain ⟨k1, k2⟩ := g2 hb
    refine ⟨k1, fun rest => ?_⟩
    have hle : s1.content.length ≤ s2.content.length := by rw [k1, c2]; simp only [List.length_append]; omega
    obtain ⟨es, f1, f2⟩ := g1 (by omega) (t2 ++ List.replicate 2880 32 ++ rest)
    obtain ⟨e, f3, f4, f5, f6⟩ := k2 rest
    have hcont : s1.content ++ (t2 ++ List.replicate 2880 32 ++ rest) = s2.content ++ rest := by
      rw [k1, c2]; simp only [List.append_assoc]
    rw [hcont] at f1
    refine ⟨es ++ [e], chain_append f1 ⟨f4, f3, ?_⟩, by simp [f2, f6]⟩
    show e.next = _
    exact f5

/-! ## C32 -/

theorem piece_blanks {c0 : Str} {n k : Nat} (rest : Str) (h : 80 * (k + 1) ≤ n) : piece (c0 ++ List.replicate n 32 ++ rest) c0.length k = spaces 80 := by
  unfold piece
  rw [window_inside (by simp only [List.length_append, List.length_replicate]; omega), List.append_assoc, ← List.drop_drop, List.drop_left,
    List.drop_append_of_le_length (by rw [List.length_replicate]; omega), List.drop_replicate,
    List.take_append_of_le_length (by rw [List.length_replicate]; omega), List.take_replicate, Nat.min_eq_left (by omega)]
  rfl

/-- **C32** A file whose last HDU has no data cannot be opened again: the reader does not come to an end.  (The HDUs before carry data; there may be
none.) -/
theorem C32_last_hangs (F : FloatText) (good : List Hdu) (hr : ∀ x ∈ good, ∃ h, Ready F h x) (h : Header) (d : Hdu) (hd : Dataless F h d) :
    ∃ s, writeAll (good ++ [d]) = .ok s ∧ (s.content.length + 5760 < 2 ^ 63 → ∀ fuel n, readEntire F fuel n (openFile s.content) = none) := by
  obtain ⟨s, c0, e, _, g⟩ := dataless_file hr hd
  refine ⟨s, e, fun hb fuel n => ?_⟩
  obtain ⟨k1, k2⟩ := g hb
  obtain ⟨es, f1, f2⟩ := k2 []
  rw [List.append_nil] at f1
  cases hx : readEntire F fuel n (openFile s.content) with
  | none => rfl
  | some x =>
    exfalso
    obtain ⟨fuel', n', r0, h1, h2, h3⟩ := readEntire_prefix hb f1 hx
    cases n' with
    | zero => cases h3
    | succ n' =>
      unfold readEntire at h3
      have hlen : c0.length < s.content.length := by rw [k1, List.length_append, List.length_replicate]; omega
      rw [h1, atEnd_rd_inside hlen] at h3
      simp only at h3
      have : entireTurn F fuel' r0 (rd s.content c0.length) = none := by
        unfold entireTurn
        rw [Stream.tellg_good (rd_good _ _)]
        simp only
        unfold extractHeader
        rw [C30_no_end_hangs F Header.empty (rd s.content c0.length) rfl ?_ fuel']
        intro k hk
        have hk : c0.length + 80 * k < s.content.length := hk
        have hl : s.content.length = c0.length + 2880 := by rw [k1, List.length_append, List.length_replicate]
        show RawOk (piece s.content c0.length k) ∧ ¬ IsEnd (piece s.content c0.length k)
        have := piece_blanks (c0 := c0) (n := 2880) (k := k) [] (by omega)
        rw [List.append_nil, ← k1] at this
        rw [this]
        exact ⟨blank_rawOk, blank_not_end⟩
      rw [this] at h3
      cases h3

/-- **C32** A file in which an HDU without data is followed by another HDU `g` is, if it can be opened at all, opened with something else in the place of
`g`: an HDU of unknown kind, or one with 36 additional blank cards at the beginning of its header. -/
theorem C32_followed (F : FloatText) (good : List Hdu) (hr : ∀ x ∈ good, ∃ h, Ready F h x) (h : Header) (d : Hdu) (hd : Dataless F h d)
    (g : Hdu) (hg : ∃ h', (∃ fuel s s', s.good = true ∧ Header.readHeader F fuel Header.empty s = some (.ok (h', s'))) ∧ cardsOf g = h'.cards.map (·.raw))
    (tail : List Hdu) (s : Stream) (e : writeAll (good ++ d :: g :: tail) = .ok s) (hb : s.content.length + 5760 < 2 ^ 63)
    (fuel n : Nat) (r : Reader) (er : readEntire F fuel n (openFile s.content) = some (.ok r)) :
    (∃ y, r.hdus[good.length + 1]? = some y ∧ (y = .blank ∨ cardsOf y = List.replicate 36 (spaces 80) ++ cardsOf g)) ∧
    r.hdus ≠ good ++ d :: g :: tail := by
  obtain ⟨h', ⟨fuel0, s0, s0', hg0, e0⟩, hcards⟩ := hg
  obtain ⟨raws1, l, eend, raws2, raws3, raws4⟩ := readHeader_raws hg0 e0
  rw [← hcards] at raws1 raws2
  have hne : cardsOf g ≠ [] := by rw [raws2]; simp
  have hgb : g ≠ .blank := by rintro rfl; exact hne rfl
  have key : ∃ y, r.hdus[good.length + 1]? = some y ∧ (y = .blank ∨ cardsOf y = List.replicate 36 (spaces 80) ++ cardsOf g) := by
    obtain ⟨s1, c0, e1, a1, g1⟩ := dataless_file hr hd
    have hsplit : good ++ d :: g :: tail = (good ++ [d]) ++ (g :: tail) := by simp
    unfold writeAll at e e1
    rw [hsplit, foldlM_append, e1] at e
    have e : (g :: tail).foldlM Hdu.writeTo s1 = .ok s := e
    rw [foldlM_cons] at e
    obtain ⟨s2, e2, e3⟩ := bind_ok e
    -- what `g` writes begins with its cards
    have hpl : ∃ rs, g.payload = some (cardsOf g, rs) := by
      cases g with
      | blank => exact absurd rfl hgb
      | _ => exact ⟨_, rfl⟩
    obtain ⟨rs, hpl⟩ := hpl
    rw [Hdu.writeTo_eq a1, hpl] at e2
    cases rs with
    | error er => cases e2
    | ok data =>
      cases e2
      obtain ⟨a2, k1, k2, c2, _⟩ := hduStream_atEnd a1 (cardsOf g) data
      obtain ⟨_, t3, c3⟩ := foldlM_atEnd tail a2 e3
      obtain ⟨b1, b2⟩ := g1 (by rw [c3, c2] at hb; simp only [List.length_append] at hb; omega)
      obtain ⟨es, f1, f2⟩ := b2 ((cardsOf g).flatten ++ (List.replicate k1 32 ++ (data ++ (List.replicate k2 32 ++ t3))))
      have hcont : s1.content ++ ((cardsOf g).flatten ++ (List.replicate k1 32 ++ (data ++ (List.replicate k2 32 ++ t3)))) = s.content := by
        rw [c3, c2]; simp only [List.append_assoc]
      rw [hcont] at f1
      rw [b1] at hcont
      obtain ⟨fuel', n', r0, h1, h2, h3⟩ := readEntire_prefix hb f1 er
      obtain ⟨es2, q, i1, i2, i3⟩ := readEntire_ok hb n' c0.length r0 r h1 h3
      have hlen : s.content.length = c0.length + 2880 + ((cardsOf g).flatten.length + (k1 + (data.length + (k2 + t3.length)))) := by
        rw [← hcont]; simp only [List.length_append, List.length_replicate]
      cases es2 with
      | nil =>
        have : c0.length = q := i1
        omega
      | cons en es2 =>
        obtain ⟨j1, j2, _⟩ := i1
        refine ⟨en.hdu, ?_, ?_⟩
        · rw [i3, h2, f2]
          simp
        · by_cases hblank : en.hdu = .blank
          · exact .inl hblank
          · right
            obtain ⟨h4, hname, hcon⟩ := j2.built
            obtain ⟨fuelh, sh, hhead⟩ := j2.header
            rw [openRead_at] at hhead
            have hs := sound_of_read (rd_good _ _) hhead
            obtain ⟨n1, _, _, _, hs1⟩ := getHduName_ok hs hname
            rw [construct_cards hs1 hcon hblank, n1]
            -- the cards that are read
            have hflat36 : (List.replicate 36 (spaces 80)).flatten = List.replicate 2880 32 := by
              unfold spaces; rw [List.flatten_replicate_replicate]
            have hrd := readCards_list (pre := c0) (raws := List.replicate 36 (spaces 80) ++ cardsOf g)
              (rest := List.replicate k1 32 ++ (data ++ (List.replicate k2 32 ++ t3)))
              (s := rd s.content c0.length) rfl
              (by show s.content = _; rw [← hcont, List.flatten_append, hflat36]; simp only [List.append_assoc]) rfl
              (by intro x hx
                  rcases List.mem_append.1 hx with hx | hx
                  · rw [List.eq_of_mem_replicate hx]; exact ⟨by decide, blank_rawOk⟩
                  · exact raws1 x hx)
              ⟨List.replicate 36 (spaces 80) ++ l, eend, by rw [raws2, List.append_assoc], raws3, by
                intro x hx
                rcases List.mem_append.1 hx with hx | hx
                · rw [List.eq_of_mem_replicate hx]; exact blank_not_end
                · exact raws4 x hx⟩ Header.empty (fuelh + (36 + (cardsOf g).length)) (by rw [List.length_append, List.length_replicate]; omega)
            have hm := readHeader_mono hhead (36 + (cardsOf g).length)
            rw [j1] at hm
            unfold readHeader at hm
            rw [hrd] at hm
            simp only at hm
            split at hm
            · cases hm
            · rename_i h5 hi
              cases hm
              obtain ⟨b, hread, _⟩ := interpret_ok hi
              rw [hread.raws, addCards_cards]
              simp [Header.empty, Function.comp_def]
  refine ⟨key, ?_⟩
  obtain ⟨y, k1, k2⟩ := key
  intro heq
  rw [heq] at k1
  have : (good ++ d :: g :: tail)[good.length + 1]? = some g := by simp
  rw [this] at k1
  cases k1
  rcases k2 with k2 | k2
  · exact hgb k2
  · have := congrArg List.length k2
    rw [List.length_append, List.length_replicate] at this
    omega

/-! ## Example: the usual empty primary HDU -/

def exEmpty : List Str :=
  [exCard b!"SIMPLE  =                    T", exCard b!"BITPIX  =                    8", exCard b!"NAXIS   =                    0",
   exCard b!"EXTEND  =                    T", exCard b!"END"]

theorem exDataless : ∃ h p, Dataless exNoFloats h (.primary p) := by
  have hd : (match readHeader exNoFloats 5 Header.empty (Stream.openRead exEmpty.flatten) with
      | some (.ok (h, _)) => decide (h.dataSize = 0) && (match h.getHduName exNoFloats with
        | (h1, .ok _) => (match Hdu.construct exNoFloats h1 [] with
          | .ok (.primary _) => true
          | _ => false)
        | _ => false)
      | _ => false) = true := by decide +kernel
  split at hd
  next h s' e =>
    rw [Bool.and_eq_true, decide_eq_true_eq] at hd
    obtain ⟨hn, hd⟩ := hd
    split at hd
    next h1 name en =>
      split at hd
      next p ex => exact ⟨h, p, ⟨5, _, s', rfl, e⟩, ⟨h1, name, en, ex⟩, hn, nofun⟩
      next => cases hd
    next => cases hd
  next => cases hd

/-- Opened as the standard has it (no data block), the HDU is read; written, a block is added; written together with the primary HDU of the example file
behind it, the second HDU comes back with 36 + 6 cards. -/
example : (match readEntire exNoFloats 5 2 (openFile (exBlock exEmpty.flatten)), readEntire exNoFloats 6 2 (openFile (exBlock exPrimary.flatten ++ exBlock [0, 1, 255, 254])) with
    | some (.ok r), some (.ok r2) => (match r.hdus, r2.hdus with
      | [d], [g] => (match writeAll [d], writeAll [d, g] with
        | .ok s1, .ok s2 => decide (s1.content.length = 5760 ∧ s2.content.length = 11520) &&
          (match readEntire exNoFloats 43 3 (openFile s2.content) with
          | some (.ok r3) => (match r3.hdus with
            | [_, .primary p] => decide (p.header.cards.length = 42 ∧ p.data.bytes = [0, 1, 255, 254])
            | _ => false)
          | _ => false)
        | _, _ => false)
      | _, _ => false)
    | _, _ => false) = true := by
  decide +kernel

end Astro
