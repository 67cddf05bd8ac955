import Verif.Spec.Physical
import Verif.Props.ForeignCells

/-
Property C158: physical values of integers in files of other programs.
-/

namespace Astro

open Spec Header Reader

/-- Big-endian bytes as a signed number. -/
theorem storedNumber_be {w : Nat} {v : BitVec (8 * w)} {s : Str} (h : IsBE w v s) : storedNumber s = v.toInt := by
  obtain ⟨h1, h2⟩ := h
  unfold storedNumber
  rw [BitVec.toInt_eq_toNat_cond, h2, h1]
  have e : (256 : Nat) ^ w = 2 ^ (8 * w) := by rw [Nat.pow_mul]
  split
  · rename_i hc
    rw [if_pos (by rw [← e]; exact hc)]
  · rename_i hc
    rw [if_neg (by rw [← e]; exact hc), ← e]
    simp

/-- An image of the file, as the caller gets it. -/
theorem shows_image {F : FloatText} {u : ForeignHdu} {x : Hdu} (h : Shows F u x) {b : Bitpix} {axes : List Nat} (hh : ImageCards u.cards b axes) :
    ∃ p img, x = .primary p ∧ p.data.getData b = .ok img ∧ Pixels b u.data img.data ∧ u.data.length = pixelCount axes * b.size := by
  cases h with
  | @image p b' axes' ext h1 h2 h3 h4 h5 h6 h7 hl h8 =>
    obtain ⟨rfl, rfl⟩ := shape_unique hh.toShapeCards h1.toShapeCards
    obtain ⟨ph, ⟨kind, img⟩, ps, pe⟩ := p
    simp only at h7 h8
    subst h7
    exact ⟨_, img, rfl, by simp [AnyImage.getData], h8, hl⟩
  | binary _ _ _ h1 =>
    obtain ⟨_, _, _, _, g, _⟩ := hh.simple
    exact absurd h1.noSimple (lastWith_not_absent g)
  | ascii _ _ _ h1 =>
    obtain ⟨_, _, _, _, g, _⟩ := hh.simple
    exact absurd h1.noSimple (lastWith_not_absent g)
  | other _ h1 =>
    obtain ⟨_, ⟨_, _, _, _, g, _⟩, _⟩ := h1
    exact absurd hh.noXtension (lastWith_not_absent g)

/-- **C158** The pixels of an image of 16 or 32 bits to a pixel in a file of another program come out as the stored numbers, whatever BSCALE and BZERO say: a pixel has the value
it stands for exactly if `BZERO + (BSCALE - 1) × pixel = 0`. -/
theorem C158_image (F : FloatText) (content : Str) (us : List ForeignHdu) (h : Laid us content) (hs : ∀ u ∈ us, Supported F u)
    (h36 : ∀ u ∈ us, ¬ 36 ∣ u.cards.length) (hd : ∀ u ∈ us.dropLast, u.data = [] ∨ ¬ 2880 ∣ u.data.length) (hb : content.length + 5760 < 2 ^ 63)
    (fuel n : Nat) (r : Reader) (e : readEntire F fuel n (openFile content) = some (.ok r)) (k : Nat) (u : ForeignHdu) (hk : us[k]? = some u)
    (b : Bitpix) (axes : List Nat) (hh : ImageCards u.cards b axes) (hi : b = .B16 ∨ b = .B32) :
    ∃ p img, r.hdus[k]? = some (.primary p) ∧ p.data.getData b = .ok img ∧ img.data.length = pixelCount axes ∧ ∀ i v, img.data[i]? = some v →
      v.toInt = storedNumber (window u.data (i * b.size) b.size) ∧
      ∀ s z, SaysOr u.cards b!"BSCALE" 1 s → SaysOr u.cards b!"BZERO" 0 z →
        (v.toInt = z + s * storedNumber (window u.data (i * b.size) b.size) ↔ z + (s - 1) * v.toInt = 0) := by
  obtain ⟨x, hx, hsh⟩ := foreign_hdu h hs h36 hd hb e hk
  obtain ⟨p, img, rfl, g1, ⟨g2, g3⟩, g4⟩ := shows_image hsh hh
  have hpos : 0 < b.size := by rcases hi with rfl | rfl <;> decide
  refine ⟨p, img, hx, g1, by rw [g2, g4, Nat.mul_div_cancel _ hpos], fun i v hv => ?_⟩
  have := g3 i v hv
  rw [if_neg (by rcases hi with rfl | rfl <;> decide)] at this
  rw [storedNumber_be this]
  refine ⟨rfl, fun s z _ _ => ?_⟩
  constructor <;> intro hq <;> linarith

/-- **C158** So without these cards, or with BSCALE = 1 and BZERO = 0, every pixel has the value it stands for; with BSCALE = 1 and any other BZERO none has. -/
theorem C158_offset (F : FloatText) (content : Str) (us : List ForeignHdu) (h : Laid us content) (hs : ∀ u ∈ us, Supported F u)
    (h36 : ∀ u ∈ us, ¬ 36 ∣ u.cards.length) (hd : ∀ u ∈ us.dropLast, u.data = [] ∨ ¬ 2880 ∣ u.data.length) (hb : content.length + 5760 < 2 ^ 63)
    (fuel n : Nat) (r : Reader) (e : readEntire F fuel n (openFile content) = some (.ok r)) (k : Nat) (u : ForeignHdu) (hk : us[k]? = some u)
    (b : Bitpix) (axes : List Nat) (hh : ImageCards u.cards b axes) (hi : b = .B16 ∨ b = .B32) (z : Int)
    (hsc : SaysOr u.cards b!"BSCALE" 1 1) (hz : SaysOr u.cards b!"BZERO" 0 z) :
    ∃ p img, r.hdus[k]? = some (.primary p) ∧ p.data.getData b = .ok img ∧ ∀ i v, img.data[i]? = some v →
      ∃ q, ScaledTo u.cards b!"BSCALE" b!"BZERO" (storedNumber (window u.data (i * b.size) b.size)) q ∧ v.toInt = q - z := by
  obtain ⟨p, img, g1, g2, _, g3⟩ := C158_image F content us h hs h36 hd hb fuel n r e k u hk b axes hh hi
  refine ⟨p, img, g1, g2, fun i v hv => ⟨z + 1 * v.toInt, ⟨1, z, hsc, hz, by rw [(g3 i v hv).1]⟩, by omega⟩⟩

/-- **C158** In particular unsigned images, which are stored with BZERO = 32768 or 2147483648: the pixels stand for the numbers from 0 on, and come out lower by BZERO, dark pixels as
large negative numbers. -/
theorem C158_unsigned (F : FloatText) (content : Str) (us : List ForeignHdu) (h : Laid us content) (hs : ∀ u ∈ us, Supported F u)
    (h36 : ∀ u ∈ us, ¬ 36 ∣ u.cards.length) (hd : ∀ u ∈ us.dropLast, u.data = [] ∨ ¬ 2880 ∣ u.data.length) (hb : content.length + 5760 < 2 ^ 63)
    (fuel n : Nat) (r : Reader) (e : readEntire F fuel n (openFile content) = some (.ok r)) (k : Nat) (u : ForeignHdu) (hk : us[k]? = some u)
    (b : Bitpix) (axes : List Nat) (hh : ImageCards u.cards b axes) (hi : b = .B16 ∨ b = .B32)
    (hsc : SaysOr u.cards b!"BSCALE" 1 1) (hz : SaysInteger u.cards b!"BZERO" (2 ^ (8 * b.size - 1) : Nat)) :
    ∃ p img, r.hdus[k]? = some (.primary p) ∧ p.data.getData b = .ok img ∧ ∀ i v, img.data[i]? = some v →
      ∃ q : Nat, q < 2 ^ (8 * b.size) ∧ ScaledTo u.cards b!"BSCALE" b!"BZERO" (storedNumber (window u.data (i * b.size) b.size)) q ∧
        v.toInt = (q : Int) - 2 ^ (8 * b.size - 1) := by
  obtain ⟨p, img, g1, g2, g3⟩ := C158_offset F content us h hs h36 hd hb fuel n r e k u hk b axes hh hi _ hsc (.inr hz)
  refine ⟨p, img, g1, g2, fun i v hv => ?_⟩
  obtain ⟨q, h1, h2⟩ := g3 i v hv
  have l1 := BitVec.le_toInt v
  have l2 := BitVec.toInt_lt (x := v)
  have hq : 0 ≤ q ∧ q < 2 ^ (8 * b.size) := by
    rcases hi with rfl | rfl <;> (simp only [Bitpix.size] at *; norm_num at *; omega)
  obtain ⟨m, rfl⟩ := Int.eq_ofNat_of_zero_le hq.1
  exact ⟨m, by exact_mod_cast hq.2, h1, by rw [h2]; push_cast; rfl⟩

/-- **C158** The same for the 16-bit and 32-bit integers in the columns of binary tables with TSCAL and TZERO. -/
theorem C158_table (F : FloatText) (content : Str) (us : List ForeignHdu) (h : Laid us content) (hs : ∀ u ∈ us, Supported F u)
    (h36 : ∀ u ∈ us, ¬ 36 ∣ u.cards.length) (hd : ∀ u ∈ us.dropLast, u.data = [] ∨ ¬ 2880 ∣ u.data.length) (hb : content.length + 5760 < 2 ^ 63)
    (fuel n : Nat) (r : Reader) (e : readEntire F fuel n (openFile content) = some (.ok r)) (k : Nat) (u : ForeignHdu) (hk : us[k]? = some u)
    (rowLen rows : Nat) (cols : List (Nat × Byte)) (hh : BinaryTableCards F u.cards rowLen rows 0 cols) :
    ∃ t, r.hdus[k]? = some (.binary t) ∧ ∀ (name : Str) (j : Nat) (row : Nat) (d : Str), FirstCalled u.cards name j → row < rows → IsNat d (j + 1) →
      (cols[j]? = some (1, 73) → NoOuterWhite (binaryField u.data rowLen cols row j (1, 73)) →
        ∃ v : BitVec 16, ((Obj.fresh t.cols t.data : Obj binFamily).read name (⟨.int16, false⟩ : BinTag) row).2 = .ok v ∧
          ∀ s z, SaysOr u.cards (b!"TSCAL" ++ d) 1 s → SaysOr u.cards (b!"TZERO" ++ d) 0 z →
            (v.toInt = z + s * storedNumber (binaryField u.data rowLen cols row j (1, 73)) ↔ z + (s - 1) * v.toInt = 0)) ∧
      (cols[j]? = some (1, 74) → NoOuterWhite (binaryField u.data rowLen cols row j (1, 74)) →
        ∃ v : BitVec 32, ((Obj.fresh t.cols t.data : Obj binFamily).read name (⟨.int32, false⟩ : BinTag) row).2 = .ok v ∧
          ∀ s z, SaysOr u.cards (b!"TSCAL" ++ d) 1 s → SaysOr u.cards (b!"TZERO" ++ d) 0 z →
            (v.toInt = z + s * storedNumber (binaryField u.data rowLen cols row j (1, 74)) ↔ z + (s - 1) * v.toInt = 0)) := by
  obtain ⟨t, h1, h2⟩ := C155_binary F content us h hs h36 hd hb fuel n r e k u hk rowLen rows cols hh
  refine ⟨t, h1, fun name j row d hf hr _ => ⟨fun hj hw => ?_, fun hj hw => ?_⟩⟩
  · have be : IsBE 2 (BitVec.ofNat 16 (bigEndian (binaryField u.data rowLen cols row j (1, 73)))) (binaryField u.data rowLen cols row j (1, 73)) := by
      have hl : (binaryField u.data rowLen cols row j (1, 73)).length = 2 := by unfold binaryField window; rw [List.length_map, List.length_range]; decide
      refine ⟨hl, ?_⟩
      have := Bin.bigEndian_lt (binaryField u.data rowLen cols row j (1, 73))
      rw [hl] at this
      rw [BitVec.toNat_ofNat, Nat.mod_eq_of_lt this]
    refine ⟨_, (h2 name j _ row hj hf hr ⟨.int16, false⟩ _ (by decide) trivial be).2 hw, fun s z _ _ => ?_⟩
    rw [storedNumber_be be]
    constructor <;> intro hq <;> linarith
  · have be : IsBE 4 (BitVec.ofNat 32 (bigEndian (binaryField u.data rowLen cols row j (1, 74)))) (binaryField u.data rowLen cols row j (1, 74)) := by
      have hl : (binaryField u.data rowLen cols row j (1, 74)).length = 4 := by unfold binaryField window; rw [List.length_map, List.length_range]; decide
      refine ⟨hl, ?_⟩
      have := Bin.bigEndian_lt (binaryField u.data rowLen cols row j (1, 74))
      rw [hl] at this
      rw [BitVec.toNat_ofNat, Nat.mod_eq_of_lt this]
    refine ⟨_, (h2 name j _ row hj hf hr ⟨.int32, false⟩ _ (by decide) trivial be).2 hw, fun s z _ _ => ?_⟩
    rw [storedNumber_be be]
    constructor <;> intro hq <;> linarith

/-- The header of an unsigned image of another program. -/
def exUnsigned : List Str :=
  [exCard b!"SIMPLE  = T", exCard b!"BITPIX  = 16", exCard b!"NAXIS   = 1", exCard b!"NAXIS1  = 3", exCard b!"EXTEND  = T", exCard b!"BZERO   = 32768", exCard b!"END"]

theorem exUnsigned_says {k text raw : Str} (i gap : Nat) (hi : exUnsigned[i]? = some raw)
    (hk : trim (raw.take 8) = k) (hl : ∀ j < 7, i < j → trim ((exUnsigned.getD j []).take 8) ≠ k) (hs : slash ∉ raw.take 8)
    (hr : raw = raw.take 8 ++ b!"= " ++ List.replicate 0 32 ++ text ++ List.replicate gap 32 ++ []) (h80 : raw.length = 80) : Says exUnsigned k text := by
  obtain ⟨hlt, hget⟩ := List.getElem?_eq_some_iff.1 hi
  refine ⟨i, raw, gap, none, ⟨hlt, by rw [hget]; exact keywordIs_iff.2 hk, fun j hj hij => ?_⟩, hi, ⟨_, 0, ?_, hs, h80, hr⟩, .inl rfl⟩
  · rw [keywordIs_iff]
    have := hl j hj hij
    rwa [List.getD_eq_getElem?_getD, List.getElem?_eq_getElem hj] at this
  · rw [List.length_take, h80]; rfl

theorem exUnsigned_image : ImageCards exUnsigned .B16 [3] := by
  refine ⟨⟨?_, ⟨exUnsigned.dropLast, exCard b!"END", by decide, by unfold IsEnd; decide, ?_⟩, ?_, ⟨?_, by decide⟩, ?_⟩, ?_, ?_⟩
  · intro r hr
    have h1 : r.length = 80 ∧ Card.ofRaw r = .ok ⟨r, none⟩ := by revert r; decide
    refine ⟨h1.1, Classical.byContradiction fun hn => ?_⟩
    rw [ofRaw_piece_bad h1.1 hn] at h1
    exact nomatch h1.2
  · intro r hr; revert r; unfold IsEnd; decide
  · exact ⟨16, ⟨b!"16", b!"16", exUnsigned_says 1 68 rfl (by decide) (by decide) (by decide) (by decide) (by decide), ⟨by decide, by decide⟩, .inl ⟨rfl, by decide⟩⟩, rfl⟩
  · exact ⟨b!"1", b!"1", exUnsigned_says 2 69 rfl (by decide) (by decide) (by decide) (by decide) (by decide), ⟨by decide, by decide⟩, .inl ⟨rfl, by decide⟩⟩
  · intro j a d ha hd
    match j, ha with
    | 0, ha =>
      cases ha
      obtain rfl := isNat_iff.1 hd
      exact ⟨⟨b!"3", b!"3", exUnsigned_says 3 69 rfl (by decide) (by decide) (by decide) (by decide) (by decide), ⟨by decide, by decide⟩, .inl ⟨rfl, by decide⟩⟩, by decide⟩
    | j + 1, ha => simp at ha
  · exact exUnsigned_says 0 69 rfl (by decide) (by decide) (by decide) (by decide) (by decide)
  · intro r hr
    rw [keywordIs_iff]
    revert r; decide

/-- An unsigned image of the pixels 0, 32773 and 32767: they come out as -32768, 5 and -1. -/
example (F : FloatText) (content : Str) (h : Laid [⟨exUnsigned, [128, 0, 0, 5, 255, 255]⟩] content) (hb : content.length + 5760 < 2 ^ 63)
    (fuel n : Nat) (r : Reader) (e : readEntire F fuel n (openFile content) = some (.ok r)) :
    ∃ p img, r.hdus[0]? = some (.primary p) ∧ p.data.getData .B16 = .ok img ∧ img.data.map BitVec.toInt = [-32768, 5, -1] ∧
      ∀ v, img.data[1]? = some v → ScaledTo exUnsigned b!"BSCALE" b!"BZERO" v.toInt 32773 := by
  have hz : SaysInteger exUnsigned b!"BZERO" 32768 :=
    ⟨b!"32768", b!"32768", exUnsigned_says 5 65 rfl (by decide) (by decide) (by decide) (by decide) (by decide), ⟨by decide, by decide⟩, .inl ⟨rfl, by decide⟩⟩
  have ha : Absent exUnsigned b!"BSCALE" := by
    intro r hr
    rw [keywordIs_iff]
    revert r; decide
  have one : ∀ {P : ForeignHdu → Prop}, P ⟨exUnsigned, [128, 0, 0, 5, 255, 255]⟩ → ∀ u ∈ [(⟨exUnsigned, [128, 0, 0, 5, 255, 255]⟩ : ForeignHdu)], P u := by
    intro P h u hu; rw [List.mem_singleton.1 hu]; exact h
  obtain ⟨p, img, h1, h2, h3, h4⟩ := C158_image F content _ h
    (one (.image .B16 [3] true exUnsigned_image (exUnsigned_says 4 69 rfl (by decide) (by decide) (by decide) (by decide) (by decide)) rfl))
    (one (P := fun u => ¬ 36 ∣ u.cards.length) (by decide)) (by simp) hb fuel n r e 0 _ rfl .B16 [3] exUnsigned_image (.inl rfl)
  have hn : img.data.length = 3 := h3
  refine ⟨p, img, h1, h2, ?_, fun v hv => ?_⟩
  · refine List.ext_getElem (by simp [hn]) fun i hi hi' => ?_
    rw [List.getElem_map]
    have hi3 : i < 3 := by simpa [hn] using hi
    rw [(h4 i _ (List.getElem?_eq_getElem (by omega))).1]
    match i, hi3 with
    | 0, _ => exact (show storedNumber (window [128, 0, 0, 5, 255, 255] 0 2) = -32768 by decide)
    | 1, _ => exact (show storedNumber (window [128, 0, 0, 5, 255, 255] 2 2) = 5 by decide)
    | 2, _ => exact (show storedNumber (window [128, 0, 0, 5, 255, 255] 4 2) = -1 by decide)
  · refine ⟨1, 32768, .inl ⟨ha, rfl⟩, .inr hz, ?_⟩
    rw [(h4 1 v hv).1]
    decide

end Astro
