import Verif.Lemmas.Header

/-
Properties C25, C27 - C30 and C71: headers.
-/

namespace Astro

open Spec Header

/-! ## C25 -/

theorem foldl_raw (l : List Card) : ∀ a : Str, l.foldl (fun a c => a ++ c.raw) a = a ++ (l.map (·.raw)).flatten := by
  induction l with
  | nil => intro a; simp
  | cons c l ih => intro a; rw [List.foldl_cons, ih]; simp

theorem flatten_length80 (l : List Str) (h : ∀ r ∈ l, r.length = 80) : l.flatten.length = 80 * l.length := by
  induction l with
  | nil => rfl
  | cons r l ih =>
    rw [List.flatten_cons, List.length_append, ih fun r hr => h r (List.mem_cons_of_mem _ hr), h r List.mem_cons_self,
      List.length_cons]
    omega

theorem flatten_piece (l : List Str) (h : ∀ r ∈ l, r.length = 80) (pre rest : Str) (i : Nat) (hi : i < l.length) :
    piece (pre ++ l.flatten ++ rest) pre.length i = l[i] := by
  have hlen := flatten_length80 l h
  unfold piece
  rw [window_inside (by simp only [List.length_append, hlen]; omega)]
  have e : l = l.take i ++ (l[i] :: l.drop (i + 1)) := by
    rw [← List.drop_eq_getElem_cons hi, List.take_append_drop]
  have h1 : (l.take i).flatten.length = 80 * i := by
    rw [flatten_length80 _ fun r hr => h r (List.mem_of_mem_take hr), List.length_take]
    omega
  have h2 : l[i].length = 80 := h _ (List.getElem_mem hi)
  have e2 : pre ++ l.flatten ++ rest = (pre ++ (l.take i).flatten) ++ (l[i] ++ ((l.drop (i + 1)).flatten ++ rest)) := by
    have : l.flatten = (l.take i).flatten ++ (l[i] ++ (l.drop (i + 1)).flatten) := by
      conv => lhs; rw [e]
      rw [List.flatten_append, List.flatten_cons]
    rw [this]; simp only [List.append_assoc]
  have h3 : pre.length + 80 * i = (pre ++ (l.take i).flatten).length := by rw [List.length_append, h1]
  rw [e2, h3, List.drop_left, ← h2, List.take_left]

/-- **C25** A header written at the end of a file that ends at a block boundary appends its cards in order, then between 1 and 2880 blanks
up to the next block boundary, where the stream is left. -/
theorem C25_write_header (h : Header) (s : Stream) (hg : s.good = true) (hw : s.writable = true) (hp : s.pos = s.content.length)
    (hb : s.content.length + (h.cards.map (·.raw)).flatten.length + 2880 < 2 ^ 63) :
    ∃ k, h.writeHeader s = { s with content := s.content ++ (h.cards.map (·.raw)).flatten ++ List.replicate k 32
                                    pos := s.content.length + (h.cards.map (·.raw)).flatten.length + k } ∧
      2880 ∣ s.content.length + (h.cards.map (·.raw)).flatten.length + k ∧ 0 < k ∧ k ≤ 2880 := by
  unfold writeHeader
  rw [foldl_raw, List.nil_append, Stream.write_end hg hw hp]
  simp only
  generalize hs1 : ({ s with content := s.content ++ (h.cards.map (·.raw)).flatten, pos := (s.content ++ (h.cards.map (·.raw)).flatten).length } : Stream) = s1
  have hg1 : s1.good = true := by rw [← hs1]; exact hg
  have hpos : s1.pos = s.content.length + (h.cards.map (·.raw)).flatten.length := by rw [← hs1]; simp only [List.length_append]
  rw [Stream.tellg_good hg1]
  simp only
  obtain ⟨e, h1, h2, h3, h4⟩ := Stream.findUnitEnd_good hg1 (by rw [hpos]; unfold sizeMod; omega)
  rw [h1]
  simp only
  have hsub : szSub e s1.pos = e - s1.pos := by
    apply szSub_le
    · omega
    · unfold sizeMod; omega
  rw [hsub, Stream.write_end hg1 (by rw [← hs1]; exact hw) (by rw [← hs1])]
  rw [hpos] at *
  refine ⟨e - (s.content.length + (h.cards.map (·.raw)).flatten.length), ?_, ?_, by omega, by omega⟩
  · rw [← hs1]
    simp only [Stream.mk.injEq]
    refine ⟨by rw [hpos]; rfl, ?_, trivial, trivial, trivial⟩
    rw [hpos]
    simp only [List.length_append, spaces, List.length_replicate]
  · have : s.content.length + (h.cards.map (·.raw)).flatten.length + (e - (s.content.length + (h.cards.map (·.raw)).flatten.length)) = e := by
      omega
    rw [this]; exact h2

/-- **C25** If all cards have 80 bytes, card number `i` is found 80·i bytes after the start, and everything behind the last card is blank. -/
theorem C25_card_positions (h : Header) (s : Stream) (hg : s.good = true) (hw : s.writable = true) (hp : s.pos = s.content.length)
    (h80 : ∀ c ∈ h.cards, c.raw.length = 80) (hb : s.content.length + 80 * h.cards.length + 2880 < 2 ^ 63) :
    (∀ i (hi : i < h.cards.length), piece (h.writeHeader s).content s.pos i = h.cards[i].raw) ∧
    (∀ i, h.cards.length ≤ i → piece (h.writeHeader s).content s.pos i = List.replicate 80 32) := by
  have h80' : ∀ r ∈ h.cards.map (·.raw), r.length = 80 := by
    intro r hr
    obtain ⟨c, hc, rfl⟩ := List.mem_map.1 hr
    exact h80 c hc
  have hlen := flatten_length80 _ h80'
  rw [List.length_map] at hlen
  obtain ⟨k, e, _⟩ := C25_write_header h s hg hw hp (by omega)
  rw [e]
  simp only
  constructor
  · intro i hi
    rw [hp, flatten_piece _ h80' _ _ _ (by simpa using hi)]
    simp
  · intro i hi
    unfold piece
    rw [hp]
    generalize hq : (h.cards.map (·.raw)).flatten = q at *
    rw [window_eq, List.drop_append, List.drop_eq_nil_of_le (by simp only [List.length_append, hlen]; omega), List.nil_append,
      List.drop_replicate, List.take_replicate, spaces, List.replicate_append_replicate]
    congr 1
    simp only [List.length_replicate]
    omega

/-! ## C30 -/

/-- **C30** If every card-sized piece of the file (completed by blanks behind its end) is acceptable and none is an END card, reading the header
never finishes. -/
theorem C30_never_terminates (F : FloatText) (h : Header) (s : Stream) (hg : s.good = true)
    (hno : ∀ k, RawOk (piece s.content s.pos k) ∧ ¬ IsEnd (piece s.content s.pos k)) (fuel : Nat) :
    readHeader F fuel h s = none := by
  obtain ⟨s', _, g2⟩ := readCards_skip fuel h 0 (streamAt_zero hg) (fun j _ => by rw [Nat.zero_add]; exact hno j)
  unfold readHeader
  rw [Nat.add_zero] at g2
  rw [g2]; rfl

/-- **C30** In particular a file without an END card hangs the reader: behind the end of the file it keeps seeing blank cards. -/
theorem C30_no_end_hangs (F : FloatText) (h : Header) (s : Stream) (hg : s.good = true)
    (hno : ∀ k, s.pos + 80 * k < s.content.length → RawOk (piece s.content s.pos k) ∧ ¬ IsEnd (piece s.content s.pos k)) (fuel : Nat) :
    readHeader F fuel h s = none := by
  refine C30_never_terminates F h s hg (fun k => ?_) fuel
  rcases Nat.lt_or_ge (s.pos + 80 * k) s.content.length with hk | hk
  · exact hno k hk
  · unfold piece
    rw [window_outside hk]
    exact ⟨blank_rawOk, blank_not_end⟩

/-- **C30** If piece number `n` is the first END card and all before are acceptable, the loop stops there: exactly the pieces `0..n` become
cards and the stream stands right behind them. -/
theorem C30_stops_at_first_end (h : Header) (s : Stream) (hg : s.good = true) (n : Nat)
    (hpre : ∀ k, k < n → RawOk (piece s.content s.pos k) ∧ ¬ IsEnd (piece s.content s.pos k)) (hend : IsEnd (piece s.content s.pos n))
    (fuel : Nat) (hf : n < fuel) :
    ∃ h' s', readCards fuel h s = some (.ok (h', s')) ∧
      h'.cards.map (·.raw) = h.cards.map (·.raw) ++ (List.range (n + 1)).map (piece s.content s.pos) ∧
      s'.content = s.content ∧ (s.pos + 80 * (n + 1) ≤ s.content.length → s' = { s with pos := s.pos + 80 * (n + 1) }) := by
  obtain ⟨s1, g1, g2⟩ := readCards_skip n h (fuel - n - 1 + 1) (streamAt_zero hg) (fun j hj => by rw [Nat.zero_add]; exact hpre j hj)
  rw [Nat.zero_add] at g1
  obtain ⟨s2, g3, g4⟩ := readCards_end (h.addCards (pieces s.content s.pos 0 n)) (fuel - n - 1) g1 hend
  have e : n + (fuel - n - 1 + 1) = fuel := by omega
  rw [e] at g2
  refine ⟨_, s2, g2.trans g4, ?_, g3.1, ?_⟩
  · simp only [addCard, List.map_append, List.map_cons, List.map_nil, addCards_cards, List.map_map]
    rw [List.range_succ, List.map_append, List.append_assoc]
    congr 2
    unfold pieces
    rw [List.map_map]
    apply List.map_congr_left
    intro j _
    simp only [Function.comp, Nat.zero_add]
  · intro hi
    rw [streamAt_inside g3 hi]
    obtain ⟨k1, k2⟩ := Stream.good_iff.1 hg
    cases s
    simp only at k1 k2
    rw [k1, k2]

/-- **C30** Reading a header finishes (with cards or an exception) exactly when some piece is an END card or is not acceptable as a card. -/
theorem C30_terminates_iff (F : FloatText) (h : Header) (s : Stream) (hg : s.good = true) :
    (∃ fuel r, readHeader F fuel h s = some r) ↔ ∃ n, IsEnd (piece s.content s.pos n) ∨ ¬ RawOk (piece s.content s.pos n) := by
  constructor
  · rintro ⟨fuel, r, e⟩
    refine Classical.byContradiction fun hn => ?_
    have := C30_never_terminates F h s hg (fun k => by
      refine ⟨Classical.byContradiction fun hr => hn ⟨k, Or.inr hr⟩, fun he => hn ⟨k, Or.inl he⟩⟩) fuel
    rw [this] at e; cases e
  · rintro ⟨n, hn⟩
    have hmin : ∃ m, (IsEnd (piece s.content s.pos m) ∨ ¬ RawOk (piece s.content s.pos m)) ∧
        ∀ j, j < m → RawOk (piece s.content s.pos j) ∧ ¬ IsEnd (piece s.content s.pos j) := by
      induction n using Nat.strongRecOn with
      | ind n ih =>
        by_cases hall : ∀ j, j < n → RawOk (piece s.content s.pos j) ∧ ¬ IsEnd (piece s.content s.pos j)
        · exact ⟨n, hn, hall⟩
        · have : ∃ j, j < n ∧ ¬ (RawOk (piece s.content s.pos j) ∧ ¬ IsEnd (piece s.content s.pos j)) :=
            Classical.byContradiction fun hc => hall fun j hj => Classical.byContradiction fun hc' => hc ⟨j, hj, hc'⟩
          obtain ⟨j, hj, hj'⟩ := this
          refine ih j hj ?_
          by_cases hr : RawOk (piece s.content s.pos j)
          · exact Or.inl (Classical.byContradiction fun he => hj' ⟨hr, he⟩)
          · exact Or.inr hr
    obtain ⟨m, hm, hpre⟩ := hmin
    obtain ⟨s1, g1, g2⟩ := readCards_skip m h 1 (streamAt_zero hg) (fun j hj => by rw [Nat.zero_add]; exact hpre j hj)
    rw [Nat.zero_add] at g1
    refine ⟨m + 1, ?_⟩
    unfold readHeader
    rw [g2]
    by_cases hr : RawOk (piece s.content s.pos m)
    · obtain ⟨s2, g3, g4⟩ := readCards_end (h.addCards (pieces s.content s.pos 0 m)) 0 g1 (hm.resolve_right (fun hn => hn hr))
      rw [g4]
      simp only
      split
      · exact ⟨_, rfl⟩
      · exact ⟨_, rfl⟩
    · rw [readCards_bad _ 0 g1 hr]
      exact ⟨_, rfl⟩

/-- **C30** A piece that is not acceptable before any END card gives the invalid-card error. -/
theorem C30_invalid_card (F : FloatText) (h : Header) (s : Stream) (hg : s.good = true) (n : Nat)
    (hpre : ∀ k, k < n → RawOk (piece s.content s.pos k) ∧ ¬ IsEnd (piece s.content s.pos k)) (hbad : ¬ RawOk (piece s.content s.pos n))
    (fuel : Nat) (hf : n < fuel) : readHeader F fuel h s = some (.error .invalidCard) := by
  obtain ⟨s1, g1, g2⟩ := readCards_skip n h (fuel - n - 1 + 1) (streamAt_zero hg) (fun j hj => by rw [Nat.zero_add]; exact hpre j hj)
  rw [Nat.zero_add] at g1
  have e : n + (fuel - n - 1 + 1) = fuel := by omega
  rw [e] at g2
  unfold readHeader
  rw [g2, readCards_bad _ _ g1 hbad]

/-- An empty file is a case where the reader hangs. -/
example (F : FloatText) (fuel : Nat) : readHeader F fuel Header.empty (Stream.openRead []) = none :=
  C30_no_end_hangs F _ _ rfl (fun k hk => absurd hk (by simp [Stream.openRead])) fuel

/-- A file consisting of the three bytes "END" is read as one card. -/
example : ∃ h s, readCards 1 Header.empty (Stream.openRead b!"END") = some (.ok (h, s)) ∧
    h.cards.map (·.raw) = [b!"END" ++ List.replicate 77 32] := by
  obtain ⟨h, s, h1, h2, _⟩ := C30_stops_at_first_end Header.empty (Stream.openRead b!"END") rfl 0 (fun k hk => absurd hk (by omega))
    (by unfold IsEnd; decide) 1 (by omega)
  exact ⟨h, s, h1, h2⟩

/-! ## C27 -/

/-- The card a header uses for keyword `k`: the last card that carries it and, if there is none, the very first card. -/
def Selected (raws : List Str) (k : Str) (i : Nat) : Prop := LastWith raws k i ∨ (Absent raws k ∧ i = 0)

/-- The last card with keyword `k` can be read as type `t` with value `v`. -/
def Declares (F : FloatText) (raws : List Str) (k : Str) (t : Ty) (v : Val) : Prop :=
  ∃ i r, LastWith raws k i ∧ raws[i]? = some r ∧ Card.valueImp F r t = .ok v

/-- A card list that can stand in a file: 80-byte acceptable cards, the END card at the end and only there, a supported BITPIX and all
announced axes. -/
structure GoodHeader (F : FloatText) (raws : List Str) : Prop where
  size : ∀ r ∈ raws, r.length = 80 ∧ RawOk r
  last : ∃ l e, raws = l ++ [e] ∧ IsEnd e ∧ ∀ r ∈ l, ¬ IsEnd r
  bitpix : ∃ v b, Declares F raws b!"BITPIX" .int (.int v) ∧ BitpixValue b v.toInt
  axes : ∃ n, Declares F raws b!"NAXIS" .sizeT (.sizeT n) ∧ n.toNat < 2 ^ 60 ∧
    ∀ j d, 1 ≤ j → j ≤ n.toNat → IsNat d j → ∃ v, Declares F raws (b!"NAXIS" ++ d) .sizeT (.sizeT v)

theorem addCards_avail {F : FloatText} {raws : List Str} {k : Str} {t : Ty} {v : Val} (h : Declares F raws k t v) :
    Avail F (Header.empty.addCards raws) k t v := by
  obtain ⟨i, r, h1, h2, h3⟩ := h
  have hc := addCards_cards raws Header.empty
  have hr : (Header.empty.addCards raws).cards.map (·.raw) = raws := by rw [hc]; simp [Header.empty, Function.comp_def]
  refine ⟨i, ⟨r, none⟩, ?_, ?_, rfl, h3⟩
  · rw [addCards_indexed raws empty_indexed, hr]; exact h1
  · rw [hc]; simp [Header.empty, h2]

theorem goodHeader_interpret {F : FloatText} {raws : List Str} (h : GoodHeader F raws) :
    ∃ h', (Header.empty.addCards raws).interpret F = .ok h' := by
  obtain ⟨v, b, h1, h2⟩ := h.bitpix
  obtain ⟨n, h3, h4, h5⟩ := h.axes
  refine interpret_present (addCards_indexed raws empty_indexed).inj (addCards_avail h1) h2 (addCards_avail h3) h4 ?_
  intro j hj
  obtain ⟨v, hv⟩ := h5 (1 + j) (showNat (1 + j)) (by omega) (by omega) (showNat_isNat _)
  exact ⟨v, addCards_avail hv⟩

theorem readCards_list {pre rest : Str} {raws : List Str} {s : Stream} (hg : s.good = true) (hc : s.content = pre ++ raws.flatten ++ rest)
    (hp : s.pos = pre.length) (hsize : ∀ r ∈ raws, r.length = 80 ∧ RawOk r)
    (hlast : ∃ l e, raws = l ++ [e] ∧ IsEnd e ∧ ∀ r ∈ l, ¬ IsEnd r) (h : Header) (fuel : Nat) (hf : raws.length ≤ fuel) :
    readCards fuel h s = some (.ok (h.addCards raws, { s with pos := pre.length + 80 * raws.length })) := by
  have h80 : ∀ r ∈ raws, r.length = 80 := fun r hr => (hsize r hr).1
  obtain ⟨l, e, hle, he, hl⟩ := hlast
  have hlen : raws.length = l.length + 1 := by rw [hle]; simp
  have hpiece : ∀ i (hi : i < raws.length), piece s.content s.pos i = raws[i] := by
    intro i hi
    rw [hc, hp]; exact flatten_piece raws h80 pre rest i hi
  obtain ⟨s1, g1, g2⟩ := readCards_skip l.length h (fuel - l.length - 1 + 1) (streamAt_zero hg) (fun j hj => by
    rw [Nat.zero_add, hpiece j (by omega)]
    refine ⟨(hsize _ (List.getElem_mem _)).2, hl _ ?_⟩
    simp only [hle, List.getElem_append_left hj, List.getElem_mem])
  rw [Nat.zero_add] at g1
  have hpe : piece s.content s.pos l.length = e := by
    rw [hpiece _ (by omega)]; simp [hle]
  obtain ⟨s2, g3, g4⟩ := readCards_end (h.addCards (pieces s.content s.pos 0 l.length)) (fuel - l.length - 1) g1 (by rw [hpe]; exact he)
  have ef : l.length + (fuel - l.length - 1 + 1) = fuel := by omega
  rw [ef] at g2
  have hl2 : pieces s.content s.pos 0 l.length = l := by
    apply List.ext_getElem
    · simp [pieces]
    · intro i h1 h2
      simp only [pieces, List.getElem_map, List.getElem_range, Nat.zero_add]
      rw [hpiece i (by omega)]
      simp [hle, List.getElem_append_left h2]
  rw [g2, g4, hl2, hpe]
  have hflat := flatten_length80 raws h80
  have := streamAt_inside g3 (by rw [hc, hp]; simp only [List.length_append, hflat]; omega)
  rw [this]
  obtain ⟨k1, k2⟩ := Stream.good_iff.1 hg
  have e1 : h.addCards raws = (h.addCards l).addCard e := by rw [hle, addCards_append]; rfl
  rw [e1, hp, hlen]
  cases s
  simp only at k1 k2
  rw [k1, k2]

/-- **C27** A header written by the library at the end of a file that ends at a block boundary, whatever is written behind it, is read back with the
same cards in the same order, and skipping to the end of the unit leaves the reader where the writer stopped. -/
theorem C27_round_trip (F : FloatText) (h : Header) (s : Stream) (hg : s.good = true) (hw : s.writable = true)
    (hp : s.pos = s.content.length) (hgood : GoodHeader F (h.cards.map (·.raw)))
    (hb : s.content.length + 80 * h.cards.length + 2880 < 2 ^ 63) (rest : Str) (fuel : Nat) (hf : h.cards.length ≤ fuel) :
    ∃ h' r', readHeader F fuel Header.empty { Stream.openRead ((h.writeHeader s).content ++ rest) with pos := s.pos } = some (.ok (h', r')) ∧
      h'.cards.map (·.raw) = h.cards.map (·.raw) ∧
      r'.setUnitEnd = { Stream.openRead ((h.writeHeader s).content ++ rest) with pos := (h.writeHeader s).pos } := by
  have h80 : ∀ r ∈ h.cards.map (·.raw), r.length = 80 := fun r hr => (hgood.size r hr).1
  have hflat := flatten_length80 _ h80
  rw [List.length_map] at hflat
  obtain ⟨k, e, hk1, hk2, hk3⟩ := C25_write_header h s hg hw hp (by omega)
  rw [e]
  simp only
  obtain ⟨h', hi⟩ := goodHeader_interpret hgood
  have hr := readCards_list (pre := s.content) (rest := List.replicate k 32 ++ rest) (raws := h.cards.map (·.raw))
    (s := { Stream.openRead (s.content ++ (h.cards.map (·.raw)).flatten ++ List.replicate k 32 ++ rest) with pos := s.pos })
    rfl (by simp [Stream.openRead]) hp hgood.size hgood.last Header.empty fuel (by rw [List.length_map]; exact hf)
  have hraws : h'.cards.map (·.raw) = h.cards.map (·.raw) := by
    obtain ⟨b, hread, _⟩ := interpret_ok hi
    rw [hread.raws, addCards_cards]; simp [Header.empty, Function.comp_def]
  refine ⟨h', { Stream.openRead (s.content ++ (h.cards.map (·.raw)).flatten ++ List.replicate k 32 ++ rest) with pos := s.content.length + 80 * (h.cards.map (·.raw)).length }, ?_, hraws, ?_⟩
  · unfold readHeader
    rw [hr]
    simp only
    rw [hi]
  · obtain ⟨e', g1, g2⟩ := Stream.setUnitEnd_good
      (s := { Stream.openRead (s.content ++ (h.cards.map (·.raw)).flatten ++ List.replicate k 32 ++ rest) with pos := s.content.length + 80 * (h.cards.map (·.raw)).length })
      rfl (by simp only [List.length_map]; omega)
    have : e' = s.content.length + (h.cards.map (·.raw)).flatten.length + k := by
      refine Stream.nextBoundary_unique g2 ⟨hk1, ?_, ?_⟩
      · simp only [List.length_map]; omega
      · simp only [List.length_map]; omega
    rw [this] at g1
    exact g1

/-- **C27** A header that was read from a file is reproduced exactly by writing and reading it again: the second reading gives the very same
header object. -/
theorem C27_reread (F : FloatText) (h : Header) (s0 s1 : Stream) (hg0 : s0.good = true) (f0 : Nat)
    (h0 : readHeader F f0 Header.empty s0 = some (.ok (h, s1)))
    (s : Stream) (hg : s.good = true) (hw : s.writable = true) (hp : s.pos = s.content.length)
    (hb : s.content.length + 80 * h.cards.length + 2880 < 2 ^ 63) (rest : Str) (fuel : Nat) (hf : h.cards.length ≤ fuel) :
    ∃ r', readHeader F fuel Header.empty { Stream.openRead ((h.writeHeader s).content ++ rest) with pos := s.pos } = some (.ok (h, r')) ∧
      r'.setUnitEnd = { Stream.openRead ((h.writeHeader s).content ++ rest) with pos := (h.writeHeader s).pos } := by
  unfold readHeader at h0
  cases hc : readCards f0 Header.empty s0 with
  | none => rw [hc] at h0; cases h0
  | some x =>
    rw [hc] at h0
    cases x with
    | error e => cases h0
    | ok y =>
      obtain ⟨h1, s2⟩ := y
      simp only at h0
      cases hi : h1.interpret F with
      | error e => rw [hi] at h0; cases h0
      | ok h2 =>
        rw [hi] at h0
        simp only [Option.some.injEq, Except.ok.injEq, Prod.mk.injEq] at h0
        obtain ⟨rfl, rfl⟩ := h0
        obtain ⟨n, i1, _, i3⟩ := readCards_some (streamAt_zero hg0) hc
        rcases i3 with ⟨j1, s', j2, j3⟩ | ⟨_, j3⟩
        · cases j3
          obtain ⟨b, hread, _⟩ := interpret_ok hi
          generalize hraws : pieces s0.content s0.pos 0 (n + 1) = raws at *
          have hr : h2.cards.map (·.raw) = raws := by rw [hread.raws, addCards_cards]; simp [Header.empty, Function.comp_def]
          have hrlen : raws.length = h2.cards.length := by rw [← hr, List.length_map]
          have hsize : ∀ r ∈ raws, r.length = 80 ∧ RawOk r := by
            intro r hmem
            rw [← hraws] at hmem
            obtain ⟨j, hj, rfl⟩ := List.mem_map.1 hmem
            have hj := List.mem_range.1 hj
            refine ⟨piece_length _ _ _, ?_⟩
            rcases Nat.lt_or_ge j n with hjn | hjn
            · exact (i1 j hjn).1
            · have : j = n := by omega
              subst this; exact isEnd_rawOk j1
          have hlast : ∃ l e, raws = l ++ [e] ∧ IsEnd e ∧ ∀ r ∈ l, ¬ IsEnd r := by
            refine ⟨pieces s0.content s0.pos 0 n, piece s0.content s0.pos (0 + n), ?_, j1, ?_⟩
            · rw [← hraws]; unfold pieces; rw [List.range_succ]; simp
            · intro r hmem
              obtain ⟨j, hj, rfl⟩ := List.mem_map.1 hmem
              exact (i1 j (List.mem_range.1 hj)).2
          have hflat := flatten_length80 raws fun r hr => (hsize r hr).1
          obtain ⟨k, e, hk1, hk2, hk3⟩ := C25_write_header h2 s hg hw hp (by rw [hr]; omega)
          rw [e, hr]
          rw [hr] at hk1
          simp only
          have hrd := readCards_list (pre := s.content) (rest := List.replicate k 32 ++ rest) (raws := raws)
            (s := { Stream.openRead (s.content ++ raws.flatten ++ List.replicate k 32 ++ rest) with pos := s.pos })
            rfl (by simp [Stream.openRead]) hp hsize hlast Header.empty fuel (by omega)
          refine ⟨{ Stream.openRead (s.content ++ raws.flatten ++ List.replicate k 32 ++ rest) with pos := s.content.length + 80 * raws.length }, ?_, ?_⟩
          · unfold readHeader
            rw [hrd]
            simp only
            rw [hi]
          · obtain ⟨e', g1, g2⟩ := Stream.setUnitEnd_good
              (s := { Stream.openRead (s.content ++ raws.flatten ++ List.replicate k 32 ++ rest) with pos := s.content.length + 80 * raws.length })
              rfl (by simp only; omega)
            have : e' = s.content.length + raws.flatten.length + k := by
              refine Stream.nextBoundary_unique g2 ⟨hk1, ?_, ?_⟩
              · simp only; omega
              · simp only; omega
            rw [this] at g1
            exact g1
        · cases j3

/-! ## C28 -/

/-- What a successfully read header contains. -/
theorem readHeader_facts {F : FloatText} {fuel : Nat} {s s' : Stream} {h : Header} (hg : s.good = true)
    (e : readHeader F fuel Header.empty s = some (.ok (h, s'))) :
    ∃ h1 : Header, Indexed h1 ∧ (∀ c ∈ h1.cards, c.cache = none) ∧ h1.naxis = [] ∧ (∀ r ∈ h1.cards.map (·.raw), r.length = 80) ∧ h1.interpret F = .ok h := by
  unfold readHeader at e
  cases hc : readCards fuel Header.empty s with
  | none => rw [hc] at e; cases e
  | some x =>
    rw [hc] at e
    cases x with
    | error e' => cases e
    | ok y =>
      obtain ⟨h1, s2⟩ := y
      simp only at e
      cases hi : h1.interpret F with
      | error e' => rw [hi] at e; cases e
      | ok h2 =>
        rw [hi] at e
        simp only [Option.some.injEq, Except.ok.injEq, Prod.mk.injEq] at e
        obtain ⟨rfl, rfl⟩ := e
        obtain ⟨n, i1, _, i3⟩ := readCards_some (streamAt_zero hg) hc
        rcases i3 with ⟨j1, s', j2, j3⟩ | ⟨_, j3⟩
        · cases j3
          refine ⟨_, addCards_indexed _ empty_indexed, ?_, (addCards_other _ _).2.1, ?_, hi⟩
          · rw [addCards_cards]
            intro c hc
            simp only [Header.empty, List.nil_append, List.mem_map] at hc
            obtain ⟨r, _, rfl⟩ := hc
            rfl
          · intro r hr
            rw [addCards_cards] at hr
            simp only [Header.empty, List.nil_append, List.map_map, Function.comp_def, List.map_id'] at hr
            obtain ⟨j, _, rfl⟩ := List.mem_map.1 hr
            exact piece_length _ _ _
        · cases j3

/-- The keywords read_header looks for. -/
def HeaderKey (h : Header) (k : Str) : Prop :=
  k = b!"BITPIX" ∨ k = b!"NAXIS" ∨ ∃ j d, 1 ≤ j ∧ j ≤ h.naxis.length ∧ IsNat d j ∧ k = b!"NAXIS" ++ d

theorem mem_axisKeys {k : Str} {n : Nat} : k ∈ axisKeys 1 n ↔ ∃ j d, 1 ≤ j ∧ j ≤ n ∧ IsNat d j ∧ k = b!"NAXIS" ++ d := by
  unfold axisKeys
  simp only [List.mem_map, List.mem_range]
  constructor
  · rintro ⟨j, hj, rfl⟩
    exact ⟨1 + j, showNat (1 + j), by omega, by omega, showNat_isNat _, rfl⟩
  · rintro ⟨j, d, h1, h2, h3, rfl⟩
    refine ⟨j - 1, by omega, ?_⟩
    rw [isNat_iff.1 h3]
    congr 2
    omega

theorem absent_or_last (raws : List Str) (k : Str) : Absent raws k ∨ ∃ i, LastWith raws k i := by
  by_cases ha : Absent raws k
  · exact Or.inl ha
  · right
    have : ∃ i, ∃ h : i < raws.length, KeywordIs raws[i] k := by
      refine Classical.byContradiction fun hn => ha ?_
      intro r hr hk
      obtain ⟨i, hi, rfl⟩ := List.getElem_of_mem hr
      exact hn ⟨i, hi, hk⟩
    obtain ⟨i, hi, hk⟩ := this
    generalize hd : raws.length - i = d
    induction d using Nat.strongRecOn generalizing i with
    | ind d ih =>
      by_cases hl : ∀ j (hj : j < raws.length), i < j → ¬ KeywordIs raws[j] k
      · exact ⟨i, hi, hk, hl⟩
      · have : ∃ j, ∃ hj : j < raws.length, i < j ∧ KeywordIs raws[j] k :=
          Classical.byContradiction fun hc => hl fun j hj hij hkj => hc ⟨j, hj, hij, hkj⟩
        obtain ⟨j, hj, hij, hkj⟩ := this
        exact ih (raws.length - j) (by omega) j hj hkj rfl

theorem lastWith_not_absent {raws : List Str} {k : Str} {i : Nat} (h : LastWith raws k i) : ¬ Absent raws k := by
  obtain ⟨hi, hk, _⟩ := h
  exact fun ha => ha _ (List.getElem_mem hi) hk

/-- **C28** After a successful read the index of a header refers, for every keyword that is present, to the last card carrying it; an absent
keyword has no entry, except BITPIX, NAXIS and NAXISn which are then entered with the first card. -/
theorem C28_index (F : FloatText) (fuel : Nat) (s s' : Stream) (h : Header) (hg : s.good = true)
    (e : readHeader F fuel Header.empty s = some (.ok (h, s'))) (k : Str) (i : Nat) :
    h.keyIndex k = some i ↔ LastWith (h.cards.map (·.raw)) k i ∨ (Absent (h.cards.map (·.raw)) k ∧ HeaderKey h k ∧ i = 0) := by
  obtain ⟨h1, hi, _, hn, _, hint⟩ := readHeader_facts hg e
  obtain ⟨b, hread, _⟩ := interpret_ok hint
  rw [hread.raws, hread.index, hn]
  simp only [List.length_nil, Nat.sub_zero]
  have hkey : (k ∈ b!"BITPIX" :: b!"NAXIS" :: axisKeys 1 h.naxis.length) ↔ HeaderKey h k := by
    rw [List.mem_cons, List.mem_cons, mem_axisKeys]; rfl
  cases hk : h1.keyIndex k with
  | some j =>
    have hl := (hi k j).1 hk
    simp only [Option.some.injEq]
    constructor
    · rintro rfl; exact Or.inl hl
    · rintro (h2 | ⟨h2, _⟩)
      · have := (hi k i).2 h2
        rw [hk] at this; exact Option.some.inj this
      · exact absurd h2 (lastWith_not_absent hl)
  | none =>
    have hno : ∀ i, ¬ LastWith (h1.cards.map (·.raw)) k i := by
      intro i h2
      have := (hi k i).2 h2
      rw [hk] at this; cases this
    have habs : Absent (h1.cards.map (·.raw)) k := (absent_or_last _ k).resolve_right fun ⟨i, h2⟩ => hno i h2
    simp only
    rw [← hkey]
    by_cases hm : k ∈ b!"BITPIX" :: b!"NAXIS" :: axisKeys 1 h.naxis.length
    · rw [if_pos hm]
      constructor
      · intro e; cases e; exact Or.inr ⟨habs, hm, rfl⟩
      · rintro (h2 | ⟨_, _, h2⟩)
        · exact absurd h2 (hno i)
        · rw [h2]
    · rw [if_neg hm]
      constructor
      · intro e; cases e
      · rintro (h2 | ⟨_, h2, _⟩)
        · exact absurd h2 (hno i)
        · exact absurd h2 hm

theorem parseTo_not_oor (F : FloatText) (t : Ty) (x : Str) : Policy.parseTo F t x ≠ .error .outOfRange := by
  have r1 : ∀ {α : Type} {r : Option α}, Policy.recastOpt r ≠ .error .outOfRange := by
    intro α r; cases r <;> simp [Policy.recastOpt]
  have r2 : ∀ w x, Policy.recast (lexSigned w x) ≠ .error .outOfRange := by
    intro w x h; have := recast_error_signed h; cases this
  have r3 : ∀ w x, Policy.recast (lexUnsigned w x) ≠ .error .outOfRange := by
    intro w x h; have := recast_error h; cases this
  have rm : ∀ {α β : Type} {r : Res α} {f : α → β}, r ≠ .error .outOfRange → r.map f ≠ .error .outOfRange := by
    intro α β r f h
    cases r with
    | ok a => simp [Except.map]
    | error e => simp only [Except.map, ne_eq, Except.error.injEq]; intro h2; subst h2; exact h rfl
  have rc : ∀ {α : Type} {p : Str → Res α} x, (∀ x, p x ≠ .error .outOfRange) → Policy.parseComplex p x ≠ .error .outOfRange := by
    intro α p x hp
    unfold Policy.parseComplex
    split
    · rename_i i _
      cases h1 : p (x.take i) with
      | error e => simp only [bind, Except.bind, ne_eq, Except.error.injEq]; intro h2; subst h2; exact hp _ h1
      | ok a =>
        simp only [bind, Except.bind]
        cases h3 : p (x.drop (i + 1)) with
        | error e => simp only [ne_eq, Except.error.injEq]; intro h2; subst h2; exact hp _ h3
        | ok b => simp [pure, Except.pure]
    · simp
  cases t <;> simp only [Policy.parseTo]
  · refine rm ?_
    unfold Policy.parseBool
    split
    · simp
    · split <;> simp
  · exact rm (r2 _ _)
  · exact rm r1
  · exact rm r1
  · exact rm (r3 _ _)
  · exact rm (r2 _ _)
  · exact rm (r3 _ _)
  · simp
  · exact rm (rc _ fun _ => r2 _ _)
  · exact rm (rc _ fun _ => r1)
  · exact rm (rc _ fun _ => r1)
  · exact rm (rc _ fun _ => r3 _ _)

theorem valueImp_not_oor (F : FloatText) (raw : Str) (t : Ty) (hl : 9 ≤ raw.length) : Card.valueImp F raw t ≠ .error .outOfRange := by
  have hx : ∃ x, Policy.extractValue raw = .ok x := by
    unfold Policy.extractValue
    rw [substr_ok hl]
    exact ⟨_, rfl⟩
  obtain ⟨x, hx⟩ := hx
  unfold Card.valueImp
  rw [hx]
  simp only [bind, Except.bind]
  generalize trim x = y
  cases t
  case string =>
    cases y with
    | nil => exact fun h => nomatch h
    | cons c r =>
      simp only
      split
      · split
        · exact fun h => nomatch h
        · exact fun h => nomatch h
      · exact fun h => nomatch h
  all_goals exact parseTo_not_oor F _ _

/-- **C28** Looking up an absent keyword fails with the out-of-range error (BITPIX, NAXIS, NAXISn excepted). -/
theorem C28_absent (F : FloatText) (fuel : Nat) (s s' : Stream) (h : Header) (hg : s.good = true)
    (e : readHeader F fuel Header.empty s = some (.ok (h, s'))) (k : Str) (hk : ¬ HeaderKey h k) (t : Ty) :
    (h.valueOf F k t = (h, .error .outOfRange)) ↔ Absent (h.cards.map (·.raw)) k := by
  constructor
  · intro hv
    refine (absent_or_last _ k).resolve_right ?_
    rintro ⟨i, hl⟩
    have hki := (C28_index F fuel s s' h hg e k i).2 (Or.inl hl)
    obtain ⟨hlt, _⟩ := hl
    unfold valueOf at hv
    rw [hki] at hv
    simp only at hv
    unfold cardValue at hv
    rw [List.length_map] at hlt
    rw [List.getElem?_eq_getElem hlt] at hv
    simp only [Prod.mk.injEq] at hv
    have hv2 := hv.2
    unfold Card.value at hv2
    cases hcache : h.cards[i].cache with
    | some v =>
      rw [hcache] at hv2
      simp only at hv2
      split at hv2 <;> cases hv2
    | none =>
      rw [hcache] at hv2
      simp only at hv2
      cases hvi : Card.valueImp F h.cards[i].raw t with
      | ok v => rw [hvi] at hv2; cases hv2
      | error er =>
        rw [hvi] at hv2
        simp only [Except.error.injEq] at hv2
        subst hv2
        -- a card of 80 bytes never gives out_of_range
        have h80 : h.cards[i].raw.length = 80 := by
          obtain ⟨h1, _, _, _, h80, hint⟩ := readHeader_facts hg e
          obtain ⟨b, hread, _⟩ := interpret_ok hint
          rw [← hread.raws] at h80
          exact h80 _ (List.mem_map_of_mem (List.getElem_mem hlt))
        exact valueImp_not_oor F _ t (by omega) hvi
  · intro ha
    have : h.keyIndex k = none := by
      cases hk' : h.keyIndex k with
      | none => rfl
      | some i =>
        exfalso
        rcases (C28_index F fuel s s' h hg e k i).1 hk' with h2 | ⟨_, h2, _⟩
        · exact lastWith_not_absent h2 ha
        · exact hk h2
    unfold valueOf
    rw [this]

/-- **C28** contains_keyword tells whether some card carries the keyword. -/
theorem C28_contains (h : Header) (k : Str) : h.containsKeyword k = true ↔ ∃ c ∈ h.cards, KeywordIs c.raw k := by
  unfold containsKeyword
  rw [List.any_eq_true]
  constructor
  · rintro ⟨c, hc, hk⟩
    refine ⟨c, hc, ?_⟩
    rw [keywordIs_iff]
    have := eq_of_beq hk
    cases c
    rw [keyword_mk] at this
    exact Except.ok.inj this
  · rintro ⟨c, hc, hk⟩
    refine ⟨c, hc, ?_⟩
    rw [keywordIs_iff] at hk
    cases c
    rw [keyword_mk, hk]
    simp

/-- **C28** A value that is returned for a present keyword is the value of the last card carrying it. -/
theorem C28_value_is_last (F : FloatText) (fuel : Nat) (s s' : Stream) (h : Header) (hg : s.good = true)
    (e : readHeader F fuel Header.empty s = some (.ok (h, s'))) (k : Str) (t : Ty) (v : Val)
    (hp : ¬ Absent (h.cards.map (·.raw)) k) (hv : (h.valueOf F k t).2 = .ok v) : Declares F (h.cards.map (·.raw)) k t v := by
  obtain ⟨i, hl⟩ := (absent_or_last _ k).resolve_left hp
  have hki := (C28_index F fuel s s' h hg e k i).2 (Or.inl hl)
  obtain ⟨h1, hi, hc0, _, _, hint⟩ := readHeader_facts hg e
  obtain ⟨b, hread, _⟩ := interpret_ok hint
  have hok : CacheOk F h := hread.cacheOk (fun c hc v hv => by rw [hc0 c hc] at hv; cases hv)
  have hlt := hl.1
  rw [List.length_map] at hlt
  refine ⟨i, h.cards[i].raw, hl, by rw [List.getElem?_map, List.getElem?_eq_getElem hlt]; rfl, ?_⟩
  unfold valueOf at hv
  rw [hki] at hv
  simp only at hv
  have hread2 := (read_cardValue F h i t).1
  have hok2 := hread2.cacheOk hok
  obtain ⟨hty, c', g1, g2⟩ := cardValue_ok hv
  have := hok2 c' (List.mem_of_getElem? g1) v g2
  rw [hty] at this
  have hraw : c'.raw = h.cards[i].raw := by
    have e1 := congrArg (fun l => l[i]?) hread2.raws
    simp only [List.getElem?_map, g1, List.getElem?_eq_getElem hlt, Option.map_some, Option.some.injEq] at e1
    exact e1
  rw [← hraw]; exact this

/-! ## C29 -/

/-- **C29** A successful read gives the pixel type written on the BITPIX card and the axes written on the NAXIS, NAXIS1, NAXIS2, ... cards, in order. -/
theorem C29_values (F : FloatText) (fuel : Nat) (s s' : Stream) (h : Header) (hg : s.good = true)
    (e : readHeader F fuel Header.empty s = some (.ok (h, s'))) :
    (∃ i r v b, Selected (h.cards.map (·.raw)) b!"BITPIX" i ∧ (h.cards.map (·.raw))[i]? = some r ∧
      Card.valueImp F r .int = .ok (.int v) ∧ h.bitpix = some b ∧ BitpixValue b v.toInt) ∧
    (∃ i r v, Selected (h.cards.map (·.raw)) b!"NAXIS" i ∧ (h.cards.map (·.raw))[i]? = some r ∧
      Card.valueImp F r .sizeT = .ok (.sizeT v) ∧ h.naxis.length = v.toNat) ∧
    (∀ j d (hj : j < h.naxis.length), IsNat d (j + 1) → ∃ i r v, Selected (h.cards.map (·.raw)) (b!"NAXIS" ++ d) i ∧
      (h.cards.map (·.raw))[i]? = some r ∧ Card.valueImp F r .sizeT = .ok (.sizeT v) ∧ h.naxis[j] = v.toNat) := by
  obtain ⟨h1, hi, hc0, hn, _, hint⟩ := readHeader_facts hg e
  obtain ⟨b, hread, _, hb, ⟨cb, vb, b1, b2, b3⟩, vs, hvs, ⟨cn, vn, n1, n2, n3⟩, haxes⟩ := interpret_ok hint
  have hok : CacheOk F h := hread.cacheOk (fun c hc v hv => by rw [hc0 c hc] at hv; cases hv)
  rw [hn, List.nil_append] at hvs
  subst hvs
  have hsel : ∀ k, Selected (h.cards.map (·.raw)) k ((h1.keyIndex k).getD 0) := by
    intro k
    rw [hread.raws]
    cases hk : h1.keyIndex k with
    | some i => exact Or.inl ((hi k i).1 hk)
    | none =>
      refine Or.inr ⟨(absent_or_last _ k).resolve_right ?_, rfl⟩
      rintro ⟨i, hl⟩
      rw [(hi k i).2 hl] at hk; cases hk
  have hval : ∀ {i : Nat} {c : Card} {t : Ty} {v : Val}, h.cards[i]? = some c → c.cache = some v → v.ty = t →
      (h.cards.map (·.raw))[i]? = some c.raw ∧ Card.valueImp F c.raw t = .ok v := by
    intro i c t v h2 h3 h4
    refine ⟨by rw [List.getElem?_map, h2]; rfl, ?_⟩
    rw [← h4]; exact hok c (List.mem_of_getElem? h2) v h3
  refine ⟨⟨_, _, vb, b, hsel _, (hval b1 b2 rfl).1, (hval b1 b2 rfl).2, hb, b3⟩,
    ⟨_, _, vn, hsel _, (hval n1 n2 rfl).1, (hval n1 n2 rfl).2, n3.symm⟩, ?_⟩
  intro j d hj hd
  obtain ⟨c, v, g1, g2, g3⟩ := haxes j hj
  rw [isNat_iff.1 hd]
  rw [Nat.add_comm 1 j] at g1
  exact ⟨_, _, v, hsel _, (hval g1 g2 rfl).1, (hval g1 g2 rfl).2, g3.symm⟩

/-- **C29** data_size() is the product of the axes (modulo 2^64), 0 without axes; it counts elements, not bytes. -/
theorem C29_data_size (h : Header) : h.dataSize = if h.naxis = [] then 0 else h.naxis.foldr (· * ·) 1 % 2 ^ 64 := by
  have key : ∀ (l : List Nat) (a : Nat), a < 2 ^ 64 → l.foldl (fun a b => a * b % sizeMod) a = a * l.foldr (· * ·) 1 % 2 ^ 64 := by
    intro l
    induction l with
    | nil => intro a ha; simp [Nat.mod_eq_of_lt ha]
    | cons x l ih =>
      intro a ha
      rw [List.foldl_cons, ih (a * x % sizeMod) (Nat.mod_lt _ (by decide))]
      simp only [List.foldr_cons]
      rw [← Nat.mul_assoc]
      have : sizeMod = 2 ^ 64 := by decide
      rw [this, Nat.mod_mul_mod]
  unfold dataSize
  cases hn : h.naxis with
  | nil => simp
  | cons x l =>
    simp only [List.isEmpty_cons, Bool.false_eq_true, if_false, reduceCtorEq]
    rw [key _ 1 (by decide), Nat.one_mul]

/-- **C29** If the header's BITPIX card reads as an integer other than 8, 16, 32, -32, -64 the read fails with the FITS error. -/
theorem C29_bad_bitpix (F : FloatText) (fuel : Nat) (s s' : Stream) (h : Header)
    (e : readCards fuel Header.empty s = some (.ok (h, s'))) (hg : s.good = true) (i : Nat) (r : Str) (v : BitVec 32)
    (hsel : Selected (h.cards.map (·.raw)) b!"BITPIX" i) (hr : (h.cards.map (·.raw))[i]? = some r)
    (hv : Card.valueImp F r .int = .ok (.int v)) (hb : ∀ b, ¬ BitpixValue b v.toInt) :
    readHeader F fuel Header.empty s = some (.error .fitsException) := by
  obtain ⟨n, i1, _, i3⟩ := readCards_some (streamAt_zero hg) e
  rcases i3 with ⟨j1, s', j2, j3⟩ | ⟨_, j3⟩
  · cases j3
    generalize hh : Header.empty.addCards (pieces s.content s.pos 0 (n + 1)) = h at *
    have hidx : Indexed h := hh ▸ addCards_indexed _ empty_indexed
    have hcache : ∀ c ∈ h.cards, c.cache = none := by
      rw [← hh, addCards_cards]
      intro c hc
      simp only [Header.empty, List.nil_append, List.mem_map] at hc
      obtain ⟨r, _, rfl⟩ := hc
      rfl
    unfold readHeader
    rw [e]
    simp only
    have hidxOf : (h.indexOf b!"BITPIX").2 = i := by
      rw [(read_indexOf F h _).2.1]
      rcases hsel with hl | ⟨ha, rfl⟩
      · rw [(hidx _ _).2 hl]; rfl
      · cases hk : h.keyIndex b!"BITPIX" with
        | none => rfl
        | some j => exact absurd ha (lastWith_not_absent ((hidx _ _).1 hk))
    have hcards := (read_indexOf F h b!"BITPIX").2.2.1
    rw [List.getElem?_map, Option.map_eq_some_iff] at hr
    obtain ⟨c, hc, rfl⟩ := hr
    have hint : h.interpret F = .error .fitsException := by
      unfold interpret
      generalize hx : h.indexOf b!"BITPIX" = x at *
      obtain ⟨h1, i'⟩ := x
      simp only at *
      subst hidxOf
      rw [cardValue_present (by rw [hcards]; exact hc) (Or.inl (hcache c (List.mem_of_getElem? hc))) hv]
      simp only
      have : bitpixOf v.toInt = none := by
        cases hbo : bitpixOf v.toInt with
        | none => rfl
        | some b => exact absurd (bitpixOf_iff.1 hbo) (hb b)
      rw [this]
    rw [hint]
  · cases j3

/-! ## C71 -/

/-- **C71** After a successful read the BITPIX and NAXIS values are cached: asking for BITPIX as anything but `int`, or for NAXIS or any NAXISn as
anything but `size_t`, fails with bad_get, whatever the card's text is. -/
theorem C71_cached_types (F : FloatText) (fuel : Nat) (s s' : Stream) (h : Header) (hg : s.good = true)
    (e : readHeader F fuel Header.empty s = some (.ok (h, s'))) (t : Ty) :
    (t ≠ .int → (h.valueOf F b!"BITPIX" t).2 = .error .badGet) ∧
    (t ≠ .sizeT → (h.valueOf F b!"NAXIS" t).2 = .error .badGet) ∧
    (t ≠ .sizeT → ∀ j d, 1 ≤ j → j ≤ h.naxis.length → IsNat d j → (h.valueOf F (b!"NAXIS" ++ d) t).2 = .error .badGet) ∧
    (∃ v, (h.valueOf F b!"BITPIX" .int).2 = .ok (.int v)) ∧ (∃ v, (h.valueOf F b!"NAXIS" .sizeT).2 = .ok (.sizeT v)) ∧
    (∀ j d, 1 ≤ j → j ≤ h.naxis.length → IsNat d j →
      ∃ v, (h.valueOf F (b!"NAXIS" ++ d) .sizeT).2 = .ok (.sizeT v) ∧ h.naxis[j - 1]? = some v.toNat) := by
  obtain ⟨h1, hi, hc0, hn, _, hint⟩ := readHeader_facts hg e
  obtain ⟨b, hread, _, hb, ⟨cb, vb, b1, b2, b3⟩, vs, hvs, ⟨cn, vn, n1, n2, n3⟩, haxes⟩ := interpret_ok hint
  rw [hn, List.nil_append] at hvs
  subst hvs
  have hkey : ∀ k, HeaderKey h k → h.keyIndex k = some ((h1.keyIndex k).getD 0) := by
    intro k hk
    rw [hread.index, hn]
    cases h1.keyIndex k with
    | some i => rfl
    | none =>
      simp only [List.length_nil, Nat.sub_zero, Option.getD_none]
      rw [if_pos]
      rw [List.mem_cons, List.mem_cons, mem_axisKeys]; exact hk
  have hval : ∀ {k : Str} {c : Card} {v : Val} {t : Ty}, HeaderKey h k → h.cards[(h1.keyIndex k).getD 0]? = some c → c.cache = some v →
      (h.valueOf F k t).2 = if v.ty = t then .ok v else .error .badGet := by
    intro k c v t hk h2 h3
    unfold valueOf
    rw [hkey k hk]
    simp only
    unfold cardValue
    rw [h2]
    simp only
    unfold Card.value
    rw [h3]
    simp only
    split <;> rfl
  refine ⟨?_, ?_, ?_, ?_, ?_, ?_⟩
  · intro ht; rw [hval (Or.inl rfl) b1 b2, if_neg (fun h => ht h.symm)]
  · intro ht; rw [hval (Or.inr (Or.inl rfl)) n1 n2, if_neg (fun h => ht h.symm)]
  · intro ht j d h2 h3 h4
    obtain ⟨c, v, g1, g2, g3⟩ := haxes (j - 1) (by omega)
    have : 1 + (j - 1) = j := by omega
    rw [this, ← isNat_iff.1 h4] at g1
    rw [hval (Or.inr (Or.inr ⟨j, d, h2, h3, h4, rfl⟩)) g1 g2, if_neg (fun h => ht h.symm)]
  · exact ⟨vb, by rw [hval (Or.inl rfl) b1 b2]; rfl⟩
  · exact ⟨vn, by rw [hval (Or.inr (Or.inl rfl)) n1 n2]; rfl⟩
  · intro j d h2 h3 h4
    obtain ⟨c, v, g1, g2, g3⟩ := haxes (j - 1) (by omega)
    have : 1 + (j - 1) = j := by omega
    rw [this, ← isNat_iff.1 h4] at g1
    exact ⟨v, by rw [hval (Or.inr (Or.inr ⟨j, d, h2, h3, h4, rfl⟩)) g1 g2]; rfl, by rw [g3, List.getElem?_eq_getElem (by omega)]⟩

/-! ## Concrete cases -/

/-- A card image: the given text padded with blanks to 80 bytes. -/
def exCard (t : Str) : Str := t ++ List.replicate (80 - t.length) 32

/-- No decimal text is a floating point number (nothing below reads one). -/
def exNoFloats : FloatText := ⟨fun _ => [], fun _ => none, fun _ => [], fun _ => none⟩

/-- A small header with a repeated keyword. -/
def exHeader : List Str :=
  [exCard b!"SIMPLE  =                    T / standard", exCard b!"BITPIX  =                   16", exCard b!"NAXIS   =                    1",
   exCard b!"NAXIS1  =                  300", exCard b!"OBSERVER= 'first'", exCard b!"OBSERVER= 'second'", exCard b!"END"]

theorem valueImp_int {F : FloatText} {r x : Str} {v : BitVec 32} (h1 : Policy.extractValue r = .ok x)
    (h2 : Policy.recast (lexSigned 32 (trim x)) = .ok v) : Card.valueImp F r .int = .ok (.int v) := by
  unfold Card.valueImp
  rw [h1]
  simp only [bind, Except.bind, Policy.parseTo, h2, Except.map]

theorem valueImp_sizeT {F : FloatText} {r x : Str} {v : BitVec 64} (h1 : Policy.extractValue r = .ok x)
    (h2 : Policy.recast (lexUnsigned 64 (trim x)) = .ok v) : Card.valueImp F r .sizeT = .ok (.sizeT v) := by
  unfold Card.valueImp
  rw [h1]
  simp only [bind, Except.bind, Policy.parseTo, h2, Except.map]

theorem exHeader_good (F : FloatText) : GoodHeader F exHeader := by
  refine ⟨?_, ⟨exHeader.dropLast, exCard b!"END", by decide, by unfold IsEnd; decide, ?_⟩, ?_, ?_⟩
  · intro r hr
    have h1 : r.length = 80 ∧ Card.ofRaw r = .ok ⟨r, none⟩ := by revert r; decide
    refine ⟨h1.1, Classical.byContradiction fun hn => ?_⟩
    rw [ofRaw_piece_bad h1.1 hn] at h1
    exact nomatch h1.2
  · intro r hr
    revert r
    unfold IsEnd
    decide
  · exact ⟨16#32, .B16, ⟨1, _, ⟨by decide, keywordIs_iff.2 (by decide), by
      intro j hj; rw [keywordIs_iff]; revert j; decide⟩, rfl,
      valueImp_int (x := b!"                   16" ++ List.replicate 50 32) (by decide +kernel) (by decide +kernel)⟩, rfl⟩
  · refine ⟨1#64, ⟨2, _, ⟨by decide, keywordIs_iff.2 (by decide), by
      intro j hj; rw [keywordIs_iff]; revert j; decide⟩, rfl,
      valueImp_sizeT (x := b!"                    1" ++ List.replicate 50 32) (by decide +kernel) (by decide +kernel)⟩, by decide, ?_⟩
    intro j d h1 h2 h3
    have : j = 1 := by have : (1#64).toNat = 1 := rfl; omega
    subst this
    have : d = b!"1" := isNat_iff.1 h3
    subst this
    exact ⟨300#64, 3, _, ⟨by decide, keywordIs_iff.2 (by decide), by
      intro j hj; rw [keywordIs_iff]; revert j; decide⟩, rfl,
      valueImp_sizeT (x := b!"                  300" ++ List.replicate 50 32) (by decide +kernel) (by decide +kernel)⟩

/-- C27 applies to it: written behind one block of data and followed by more data, it is found again. -/
example (F : FloatText) (block rest : Str) (hb : block.length = 2880) :
    let h := Header.empty.addCards exHeader
    let s : Stream := { content := block, pos := block.length, eof := false, fail := false, writable := true }
    ∃ h' r', readHeader F 7 Header.empty { Stream.openRead ((h.writeHeader s).content ++ rest) with pos := 2880 } = some (.ok (h', r')) ∧
      h'.cards.map (·.raw) = exHeader := by
  intro h s
  have e : h.cards.map (·.raw) = exHeader := by rfl
  obtain ⟨h', r', h1, h2, _⟩ := C27_round_trip F h s rfl rfl rfl (by rw [e]; exact exHeader_good F)
    (by show block.length + _ + 2880 < _; rw [hb]; decide) rest 7 (by decide)
  have hp : s.pos = 2880 := hb
  rw [hp] at h1
  exact ⟨h', r', h1, h2.trans e⟩

/-- C28, C29, C71 on the same header: the second OBSERVER card counts, the data size is 300 (elements, not the 600 bytes), BITPIX cannot be
read as text, an absent keyword is reported. -/
example : (match readHeader exNoFloats 7 Header.empty (Stream.openRead exHeader.flatten) with
    | some (.ok (h, _)) => decide
      ((h.valueOf exNoFloats b!"OBSERVER" .string).2 = .ok (.string b!"second") ∧ h.naxis = [300] ∧ h.dataSize = 300 ∧ h.bitpix = some .B16 ∧
      (h.valueOf exNoFloats b!"BITPIX" .string).2 = .error .badGet ∧ (h.valueOf exNoFloats b!"EXTEND" .bool).2 = .error .outOfRange)
    | _ => false) = true := by
  decide +kernel

/-- C25 on it: seven cards written behind a block leave the stream at the end of the second block. -/
example (block : Str) (hb : block.length = 2880) (i : Nat) (hi : i < 7) :
    piece ((Header.empty.addCards exHeader).writeHeader { content := block, pos := block.length, eof := false, fail := false, writable := true }).content block.length i =
      exHeader[i]'hi := by
  have h := (C25_card_positions (Header.empty.addCards exHeader) { content := block, pos := block.length, eof := false, fail := false, writable := true } rfl rfl rfl
    (by decide) (by show block.length + _ + 2880 < _; rw [hb]; decide)).1 i hi
  rw [h]
  clear h
  revert i
  decide +kernel

/-- C30: a second card that is neither a value nor a comment stops the reader. -/
example : (match readHeader exNoFloats 3 Header.empty (Stream.openRead (exCard b!"SIMPLE  =                    T" ++ exCard b!"HELLO WORLD" ++ exCard b!"END")) with
    | some (.error e) => decide (e = .invalidCard)
    | _ => false) = true := by
  decide +kernel

/-- C29: BITPIX 17 is refused. -/
example : (match readHeader exNoFloats 4 Header.empty (Stream.openRead (exCard b!"SIMPLE  =                    T" ++ exCard b!"BITPIX  =                   17" ++
      exCard b!"NAXIS   =                    0" ++ exCard b!"END")) with
    | some (.error e) => decide (e = .fitsException)
    | _ => false) = true := by
  decide +kernel

/-- C28: keywords of the small header, and one it does not have. -/
example : (Header.empty.addCards exHeader).containsKeyword b!"OBSERVER" = true ∧ (Header.empty.addCards exHeader).containsKeyword b!"EXTEND" = false := by
  decide +kernel

end Astro
