import Verif.Lemmas.ForeignFile

/-
Property C149: images in files that other programs wrote.
-/

namespace Astro

open Spec Header Reader

/-! ## C149 -/

/-- **C149** An image of another program: if its header does not fill its blocks exactly, and has an EXTEND card, the reader finds a primary HDU there with
the pixel type, the axes and the pixels that the standard says are there (8-bit pixels are read as zeros); but it looks for the next HDU one
block too late if the data fill their blocks exactly. -/
theorem C149_image (F : FloatText) (content pre fill data rest : Str) (cards : List Str) (b : Bitpix) (axes : List Nat) (ext : Bool)
    (hc : content = pre ++ cards.flatten ++ fill ++ data ++ rest) (hpre : 2880 ∣ pre.length) (hh : ImageCards cards b axes)
    (hx : Says cards b!"EXTEND" (if ext then b!"T" else b!"F")) (h36 : ¬ 36 ∣ cards.length)
    (hfill : 80 * cards.length + fill.length = roundUp (80 * cards.length)) (hd : data.length = pixelCount axes * b.size)
    (hb : content.length + 5760 < 2 ^ 63) :
    ∃ e p, Complete F content e ∧ e.hdu = .primary p ∧ e.loc = pre.length ∧ p.header.cards.map (·.raw) = cards ∧
      e.next = pre.length + roundUp (80 * cards.length) + roundUp data.length + (if data ≠ [] ∧ 2880 ∣ data.length then 2880 else 0) ∧
      p.simple = true ∧ p.extend = ext ∧ p.header.naxis = axes ∧ p.data.kind = b ∧ Pixels p.data.kind data p.data.img.data := by
  obtain ⟨h, s', he, hr, hbp, hn, hp⟩ := shapeCards_read (F := F) hh.toShapeCards pre (fill ++ data ++ rest)
  have e0 : pre ++ cards.flatten ++ (fill ++ data ++ rest) = content := by rw [hc]; simp
  rw [e0] at he
  obtain ⟨h1, en⟩ := imageCards_name hh rfl he hr hp
  have hs : ¬ Absent (h.cards.map (·.raw)) b!"SIMPLE" := by
    rw [hr]; obtain ⟨_, _, _, _, g, _⟩ := hh.simple; exact lastWith_not_absent g
  obtain ⟨p, c1, c2, c3, c4, c5, c6, c7, _⟩ := (C85_primary F _ _ _ h h1 rfl he hp _ en hs data).1 true ext (by rw [hr]; exact imageCards_simple hh)
    (by rw [hr]; exact lookup_ok.2 (says_logical hx))
  have h0 : data.length = 0 ↔ data = [] := List.length_eq_zero_iff
  refine ⟨_, p, foreign_entry hc hpre hh.toShapeCards h36 hfill hd hb he hr hbp hn en c1, rfl, rfl, c6.trans hr, ?_, c2, c3, c7.trans hn, ?_, c5⟩
  · simp only [afterForeign, ne_eq, h0]
  · rw [hbp] at c4; exact (Option.some.inj c4).symm

/-- **C149** So a file with one image (or with none: NAXIS = 0) of any of the pixel types is opened, if the number of its cards is no multiple of 36. -/
theorem C149_opened (F : FloatText) (content data : Str) (cards : List Str) (b : Bitpix) (axes : List Nat) (ext : Bool)
    (hc : ImageFile content cards data) (hh : ImageCards cards b axes) (hx : Says cards b!"EXTEND" (if ext then b!"T" else b!"F"))
    (h36 : ¬ 36 ∣ cards.length) (hd : data.length = pixelCount axes * b.size) (hb : content.length + 5760 < 2 ^ 63) :
    ∃ p, EndsIn (fun cards turns => readEntire F cards turns (openFile content)) (.opened [.primary p]) ∧
      p.header.cards.map (·.raw) = cards ∧ p.simple = true ∧ p.extend = ext ∧ p.header.naxis = axes ∧ p.data.kind = b ∧
      Pixels p.data.kind data p.data.img.data := by
  obtain ⟨fill, tail, e1, e2, e3⟩ := hc
  obtain ⟨e, p, h1, h2, h3, h4, h5, h6⟩ := C149_image F content [] fill data tail cards b axes ext (by simpa using e1) (by simp) hh hx h36 e2 hd hb
  refine ⟨p, (C134_entire F content hb _).2 (.inl ⟨[e], ⟨e.next, ⟨by rw [h3]; rfl, h1, rfl⟩, ?_⟩, ?_⟩), h4, h6⟩
  · have hflat : cards.flatten.length = 80 * cards.length := flatten_length80 cards fun r hr => (hh.size r hr).1
    rw [h5, e1]
    simp only [List.length_append, hflat, List.length_nil]
    omega
  · simp [h2]

/-- **C149** The same file with a number of cards that is a multiple of 36 and with an image: the reader looks for the data one block behind their place, and never
returns. -/
theorem C149_full_header (F : FloatText) (content data : Str) (cards : List Str) (b : Bitpix) (axes : List Nat) (ext : Bool)
    (hc : ImageFile content cards data) (hh : ImageCards cards b axes) (hx : Says cards b!"EXTEND" (if ext then b!"T" else b!"F"))
    (h36 : 36 ∣ cards.length) (hd : data.length = pixelCount axes * b.size) (hne : data ≠ []) (hb : content.length + 5760 < 2 ^ 63) :
    EndsIn (fun cards turns => readEntire F cards turns (openFile content)) .forever := by
  obtain ⟨fill, tail, e1, e2, e3⟩ := hc
  obtain ⟨h, s', he, hr, hbp, hn, hp⟩ := shapeCards_read (F := F) hh.toShapeCards [] (fill ++ data ++ tail)
  have e0 : [] ++ cards.flatten ++ (fill ++ data ++ tail) = content := by rw [e1]; simp
  rw [e0] at he
  obtain ⟨h1, en⟩ := imageCards_name hh rfl he hr hp
  have hs : ¬ Absent (h.cards.map (·.raw)) b!"SIMPLE" := by
    rw [hr]; obtain ⟨_, _, _, _, g, _⟩ := hh.simple; exact lastWith_not_absent g
  have hflat : cards.flatten.length = 80 * cards.length := flatten_length80 cards fun r hr => (hh.size r hr).1
  have hlen : content.length = roundUp (80 * cards.length) + roundUp data.length := by
    rw [e1]; simp only [List.length_append, hflat]; omega
  have hcl : h.cards.length = cards.length := by rw [← hr, List.length_map]
  have hpos : 0 < data.length := List.length_pos_iff.2 hne
  have hle : data.length ≤ roundUp data.length ∧ roundUp data.length < data.length + 2880 := by unfold roundUp; omega
  obtain ⟨d1, d2, d3⟩ := announces_image (n := data.length) hbp hn hd (by omega)
  obtain ⟨p, c1, _⟩ := (C85_primary F _ _ _ h h1 rfl he hp _ en hs (window content (roundUp (80 * cards.length) + 2880) data.length)).1 true ext
    (by rw [hr]; exact imageCards_simple hh) (by rw [hr]; exact lookup_ok.2 (says_logical hx))
  refine (C134_entire F content hb _).2 (.inr ⟨[], 0, rfl, by omega, ?_⟩)
  refine .cut (h := h) (d := roundUp (80 * cards.length) + 2880) (n := data.length) ⟨_, s', he⟩ ?_
    ⟨fun hz => d2.1 hz, fun _ => d3⟩ (by omega) ⟨h1, _, _, en, c1⟩ (.inr ⟨by omega, by omega⟩)
  rw [hcl]
  unfold NextBoundary roundUp
  omega

/-- **C149** And without an EXTEND card, which the standard does not ask for, the file is refused with `out_of_range`. -/
theorem C149_no_extend (F : FloatText) (content data : Str) (cards : List Str) (b : Bitpix) (axes : List Nat)
    (hc : ImageFile content cards data) (hh : ImageCards cards b axes) (hx : Absent cards b!"EXTEND")
    (hd : data.length = pixelCount axes * b.size) (hb : content.length + 5760 < 2 ^ 63) :
    EndsIn (fun cards turns => readEntire F cards turns (openFile content)) (.raised .outOfRange) := by
  obtain ⟨fill, tail, e1, e2, e3⟩ := hc
  obtain ⟨h, s', he, hr, hbp, hn, hp⟩ := shapeCards_read (F := F) hh.toShapeCards [] (fill ++ data ++ tail)
  have e0 : [] ++ cards.flatten ++ (fill ++ data ++ tail) = content := by rw [e1]; simp
  rw [e0] at he
  obtain ⟨h1, en⟩ := imageCards_name hh rfl he hr hp
  have hs : ¬ Absent (h.cards.map (·.raw)) b!"SIMPLE" := by
    rw [hr]; obtain ⟨_, _, _, _, g, _⟩ := hh.simple; exact lastWith_not_absent g
  have hflat : cards.flatten.length = 80 * cards.length := flatten_length80 cards fun r hr => (hh.size r hr).1
  have hlen : content.length = roundUp (80 * cards.length) + roundUp data.length := by
    rw [e1]; simp only [List.length_append, hflat]; omega
  have hle : data.length ≤ roundUp data.length := by unfold roundUp; omega
  obtain ⟨d1, d2, d3⟩ := announces_image (n := data.length) hbp hn hd (by omega)
  obtain ⟨d, hnb⟩ := nextBoundary_exists (0 + 80 * h.cards.length)
  have hcards : 0 < cards.length := by
    obtain ⟨l, x, g, _⟩ := hh.last; rw [g]; simp
  have hup : 80 * cards.length ≤ roundUp (80 * cards.length) := by unfold roundUp; omega
  refine (C134_entire F content hb _).2 (.inr ⟨[], 0, rfl, by omega, ?_⟩)
  refine .refused (h := h) (n := data.length) ⟨_, s', he⟩ hnb ⟨fun hz => d2.1 hz, fun _ => d3⟩ (by omega) ⟨h1, .inr ⟨_, en, ?_⟩⟩
  refine (C85_primary F _ _ _ h h1 rfl he hp _ en hs _).2 _ (.later (v := .bool true) (by rw [hr]; exact imageCards_simple hh) (.here ?_))
  rw [hr]
  exact .inl ⟨hx, rfl⟩

/-- A header as another program might write it, with comments, a `+` and values at various places. -/
def exForeignCards : List Str :=
  [exCard b!"SIMPLE  =                    T / conforms to FITS standard", exCard b!"BITPIX  =                  +16 / bits per pixel",
   exCard b!"NAXIS   = 2", exCard b!"NAXIS1  = 0003 / columns", exCard b!"NAXIS2  = 2   / rows", exCard b!"EXTEND  =                    T",
   exCard b!"OBJECT  = 'M 31    '           / name", exCard b!"COMMENT written elsewhere", exCard b!"END"]

theorem exForeign_says {k text raw : Str} (i lead gap : Nat) (comment : Option Str) (hi : exForeignCards[i]? = some raw)
    (hk : trim (raw.take 8) = k) (hl : ∀ j < 9, i < j → trim ((exForeignCards.getD j []).take 8) ≠ k) (hs : slash ∉ raw.take 8)
    (hr : raw = raw.take 8 ++ b!"= " ++ List.replicate lead 32 ++ text ++ List.replicate gap 32 ++ (match comment with | none => [] | some c => slash :: c))
    (h80 : raw.length = 80) (ha : comment = none ∨ 0 < gap) : Says exForeignCards k text := by
  obtain ⟨hlt, hget⟩ := List.getElem?_eq_some_iff.1 hi
  refine ⟨i, raw, gap, comment, ⟨hlt, by rw [hget]; exact keywordIs_iff.2 hk, fun j hj hij => ?_⟩, hi, ⟨_, lead, ?_, hs, h80, hr⟩, ha⟩
  · rw [keywordIs_iff]
    have := hl j hj hij
    rwa [List.getD_eq_getElem?_getD, List.getElem?_eq_getElem hj] at this
  · rw [List.length_take, h80]; rfl

theorem exForeign_image : ImageCards exForeignCards .B16 [3, 2] := by
  refine ⟨⟨?_, ⟨exForeignCards.dropLast, exCard b!"END", by decide, by unfold IsEnd; decide, ?_⟩, ?_, ⟨?_, by decide⟩, ?_⟩, ?_, ?_⟩
  · intro r hr
    have h1 : r.length = 80 ∧ Card.ofRaw r = .ok ⟨r, none⟩ := by revert r; decide
    refine ⟨h1.1, Classical.byContradiction fun hn => ?_⟩
    rw [ofRaw_piece_bad h1.1 hn] at h1
    exact nomatch h1.2
  · intro r hr; revert r; unfold IsEnd; decide
  · exact ⟨16, ⟨b!"+16", b!"16", exForeign_says 1 17 1 (some (b!" bits per pixel" ++ List.replicate 33 32)) rfl (by decide) (by decide) (by decide) (by decide) (by decide)
      (.inr (by decide)), ⟨by decide, by decide⟩, .inr (.inl ⟨rfl, by decide⟩)⟩, rfl⟩
  · exact ⟨b!"2", b!"2", exForeign_says 2 0 69 none rfl (by decide) (by decide) (by decide) (by decide) (by decide) (.inl rfl), ⟨by decide, by decide⟩, .inl ⟨rfl, by decide⟩⟩
  · intro j a d ha hd
    obtain rfl := isNat_iff.1 hd
    match j, ha with
    | 0, ha =>
      cases ha
      exact ⟨⟨b!"0003", b!"0003", exForeign_says 3 0 1 (some (b!" columns" ++ List.replicate 56 32)) rfl (by decide) (by decide) (by decide) (by decide) (by decide)
        (.inr (by decide)), ⟨by decide, by decide⟩, .inl ⟨rfl, by decide⟩⟩, by decide⟩
    | 1, ha =>
      cases ha
      exact ⟨⟨b!"2", b!"2", exForeign_says 4 0 3 (some (b!" rows" ++ List.replicate 60 32)) rfl (by decide) (by decide) (by decide) (by decide) (by decide)
        (.inr (by decide)), ⟨by decide, by decide⟩, .inl ⟨rfl, by decide⟩⟩, by decide⟩
    | j + 2, ha => simp at ha
  · exact exForeign_says 0 19 1 (some (b!" conforms to FITS standard" ++ List.replicate 22 32)) rfl (by decide) (by decide) (by decide) (by decide) (by decide) (.inr (by decide))
  · intro r hr; rw [keywordIs_iff]; revert r; decide

/-- The file with this header, three by two pixels and zeros up to the end of the block is opened, and its first pixel is 258. -/
example (F : FloatText) : ∃ p, EndsIn (fun cards turns => readEntire F cards turns
      (openFile (exForeignCards.flatten ++ List.replicate 2160 32 ++ [1, 2, 0, 1, 0, 2, 0, 3, 0, 4, 255, 255] ++ List.replicate 2868 0)))
      (.opened [.primary p]) ∧ p.data.kind = .B16 ∧ p.header.naxis = [3, 2] ∧ p.data.img.data.map BitVec.toNat = [258, 1, 2, 3, 4, 65535] := by
  have hx : Says exForeignCards b!"EXTEND" (if true then b!"T" else b!"F") :=
    exForeign_says 5 19 50 none rfl (by decide) (by decide) (by decide) (by decide) (by decide) (.inl rfl)
  have hf : exForeignCards.flatten.length = 720 := by decide +kernel
  obtain ⟨p, h1, h2, h3, h4, h5, h6, h7, h8⟩ := C149_opened F _ [1, 2, 0, 1, 0, 2, 0, 3, 0, 4, 255, 255] exForeignCards .B16 [3, 2] true
    ⟨List.replicate 2160 32, List.replicate 2868 0, rfl, by rw [List.length_replicate]; rfl, by rw [List.length_replicate]; rfl⟩ exForeign_image hx (by decide)
    rfl (by simp only [List.length_append, hf, List.length_replicate]; decide)
  refine ⟨p, h1, h6, h5, ?_⟩
  clear h1 h2 h3 h4 h5
  obtain ⟨hdr, ⟨k, img⟩, simple, extend⟩ := p
  simp only at h6 h7 h8 ⊢
  subst h6
  have l := h7
  have hv := h8
  have key : ∀ i (hi : i < img.data.length), (img.data[i]).toNat = bigEndian (window [1, 2, 0, 1, 0, 2, 0, 3, 0, 4, 255, 255] (i * 2) 2) :=
    fun i hi => (hv i _ (List.getElem?_eq_getElem hi)).2.symm
  refine List.ext_getElem (by rw [List.length_map, l]; rfl) fun i hi1 hi2 => ?_
  rw [List.length_map] at hi1
  rw [List.getElem_map, key i hi1]
  have : ∀ i (h : i < 6), bigEndian (window [1, 2, 0, 1, 0, 2, 0, 3, 0, 4, 255, 255] (i * 2) 2) = [258, 1, 2, 3, 4, 65535][i] := by decide
  exact this i hi2

end Astro
