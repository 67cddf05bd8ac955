import Verif.Spec.PhysicalStats
import Verif.Props.Physical
import Verif.Props.Stats
import Verif.Props.Median

/-
Property C159: statistics of images in files of other programs.
-/

namespace Astro

open Spec Header Reader

theorem intPixel_less {b : Bitpix} (hb : b = .B8 ∨ b = .B16 ∨ b = .B32) (p q : BitVec (8 * b.size)) : PixelLess b p q ↔ p.toInt < q.toInt := by
  rcases hb with rfl | rfl | rfl <;> simp [PixelLess, PixelValue, PixelInfinite, pixelFormat]

theorem intPixel_nan {b : Bitpix} (hb : b = .B8 ∨ b = .B16 ∨ b = .B32) (p : BitVec (8 * b.size)) : ¬ PixelNaN b p := by
  rcases hb with rfl | rfl | rfl <;> simp [PixelNaN, pixelFormat]

theorem firstLargest_bound {b : Bitpix} {less : BitVec (8 * b.size) → BitVec (8 * b.size) → Prop} {nan : BitVec (8 * b.size) → Prop} {l : List (BitVec (8 * b.size))}
    {m : BitVec (8 * b.size)} (h : FirstLargest less nan l m) (hn : ∀ p, ¬ nan p) (ha : ∀ p q, less p q → ¬ less q p) : m ∈ l ∧ ∀ p ∈ l, ¬ less m p := by
  obtain ⟨pre, post, rfl, -, h1, h2⟩ := h
  refine ⟨by simp, fun p hp => ?_⟩
  rcases List.mem_append.1 hp with hp | hp
  · exact ha _ _ ((h1 p hp).resolve_left (hn p))
  · rcases List.mem_cons.1 hp with rfl | hp
    · exact fun hc => ha _ _ hc hc
    · exact h2 p hp

theorem int_max {b : Bitpix} (hb : b = .B8 ∨ b = .B16 ∨ b = .B32) {img : Image b} (hne : img.data ≠ []) :
    ∃ m, img.max = .ok m ∧ m ∈ img.data ∧ ∀ p ∈ img.data, p.toInt ≤ m.toInt := by
  obtain ⟨x, t, e⟩ := List.exists_cons_of_ne_nil hne
  have hm : ∃ m, img.max = .ok m := by simp [Image.max, e]
  obtain ⟨m, hm⟩ := hm
  obtain ⟨g1, g2⟩ := firstLargest_bound (((C103_max img).2.2 x t e (intPixel_nan hb x) m).1 hm) (intPixel_nan hb) (fun p q h => by
    rw [intPixel_less hb] at *; omega)
  exact ⟨m, hm, g1, fun p hp => by have := g2 p hp; rw [intPixel_less hb] at this; omega⟩

theorem int_min {b : Bitpix} (hb : b = .B8 ∨ b = .B16 ∨ b = .B32) {img : Image b} (hne : img.data ≠ []) :
    ∃ m, img.min = .ok m ∧ m ∈ img.data ∧ ∀ p ∈ img.data, m.toInt ≤ p.toInt := by
  obtain ⟨x, t, e⟩ := List.exists_cons_of_ne_nil hne
  have hm : ∃ m, img.min = .ok m := by simp [Image.min, e]
  obtain ⟨m, hm⟩ := hm
  obtain ⟨g1, g2⟩ := firstLargest_bound (((C103_min img).2.2 x t e (intPixel_nan hb x) m).1 hm) (intPixel_nan hb) (fun p q h => by
    rw [intPixel_less hb] at *; omega)
  exact ⟨m, hm, g1, fun p hp => by have := g2 p hp; rw [intPixel_less hb] at this; omega⟩

theorem int_median {b : Bitpix} (hb : b = .B8 ∨ b = .B16 ∨ b = .B32) {img : Image b} (hne : img.data ≠ []) {nth} (hn : NthElement (b := b) nth) :
    ∃ m, img.median nth = .ok m ∧ m ∈ img.data ∧ img.data.countP (fun p => p.toInt < m.toInt) ≤ img.data.length / 2 ∧
      img.data.length / 2 < img.data.countP (fun p => p.toInt ≤ m.toInt) := by
  obtain ⟨m, hm⟩ := (C122_defined img hn).2 ⟨hne, C122_integers _ hb⟩
  obtain ⟨g1, g2, g3⟩ := C122_middle img hn m hm
  refine ⟨m, hm, g1, ?_, ?_⟩
  · convert g2 using 3 with p
    exact decide_eq_decide.2 (intPixel_less hb p m).symm
  · convert g3 using 3 with p
    exact decide_eq_decide.2 (by rw [intPixel_less hb, not_lt])

theorem sum_scaled (s z : Int) : ∀ l : List Int, (l.map fun x => z + s * x).sum = z * l.length + s * l.sum
  | [] => by simp
  | x :: l => by
    rw [List.map_cons, List.sum_cons, sum_scaled s z l, List.sum_cons, List.length_cons]; push_cast; ring

/-- The pixels handed out and the numbers depicted. -/
theorem depicts_pixels {F : FloatText} {content : Str} {us : List ForeignHdu} (h : Laid us content) (hs : ∀ u ∈ us, Supported F u)
    (h36 : ∀ u ∈ us, ¬ 36 ∣ u.cards.length) (hd : ∀ u ∈ us.dropLast, u.data = [] ∨ ¬ 2880 ∣ u.data.length) (hb : content.length + 5760 < 2 ^ 63)
    {fuel n : Nat} {r : Reader} (e : readEntire F fuel n (openFile content) = some (.ok r)) {k : Nat} {u : ForeignHdu} (hk : us[k]? = some u)
    {b : Bitpix} {axes : List Nat} (hh : ImageCards u.cards b axes) (hi : b = .B16 ∨ b = .B32) {s z : Int} {qs : List Int} (hq : Depicts u.cards u.data b.size s z qs) :
    ∃ p img, r.hdus[k]? = some (.primary p) ∧ p.data.getData b = .ok img ∧ qs = (img.data.map BitVec.toInt).map fun x => z + s * x := by
  obtain ⟨x, hx, hsh⟩ := foreign_hdu h hs h36 hd hb e hk
  obtain ⟨p, img, rfl, g1, ⟨g2, g3⟩, g4⟩ := shows_image hsh hh
  have hpos : 0 < b.size := by rcases hi with rfl | rfl <;> decide
  have hlen : img.data.length = qs.length := by rw [g2, hq.count, Nat.mul_div_cancel _ hpos]
  refine ⟨p, img, hx, g1, List.ext_getElem (by simp [hlen]) fun i hi1 hi2 => ?_⟩
  rw [List.getElem_map, List.getElem_map]
  have := g3 i _ (List.getElem?_eq_getElem (by omega))
  rw [if_neg (by rcases hi with rfl | rfl <;> decide)] at this
  rw [← storedNumber_be this]
  exact hq.value i _ (List.getElem?_eq_getElem hi1)

/-- **C159** The mean of an image of 16 or 32 bits to a pixel in a file of another program is the mean of the numbers it depicts, less BZERO and divided by BSCALE, rounded once. -/
theorem C159_mean (F : FloatText) (content : Str) (us : List ForeignHdu) (h : Laid us content) (hs : ∀ u ∈ us, Supported F u)
    (h36 : ∀ u ∈ us, ¬ 36 ∣ u.cards.length) (hd : ∀ u ∈ us.dropLast, u.data = [] ∨ ¬ 2880 ∣ u.data.length) (hb : content.length + 5760 < 2 ^ 63)
    (fuel n : Nat) (r : Reader) (e : readEntire F fuel n (openFile content) = some (.ok r)) (k : Nat) (u : ForeignHdu) (hk : us[k]? = some u)
    (b : Bitpix) (axes : List Nat) (hh : ImageCards u.cards b axes) (hi : b = .B16 ∨ b = .B32) (s z : Int) (qs : List Int) (hq : Depicts u.cards u.data b.size s z qs)
    (hsc : s ≠ 0) (hne : qs ≠ []) (hsz : qs.length * 2 ^ (8 * b.size - 1) ≤ 2 ^ 53) :
    ∃ p img m, r.hdus[k]? = some (.primary p) ∧ p.data.getData b = .ok img ∧ img.mean = .num m ∧ Rounded (((qs.sum : ℚ) / qs.length - z) / s) m := by
  obtain ⟨p, img, g1, g2, rfl⟩ := depicts_pixels h hs h36 hd hb e hk hh hi hq
  have hl : (img.data.map BitVec.toInt) ≠ [] := by simpa using hne
  obtain ⟨m, k1, k2, -⟩ := C100_mean img _ ⟨.inr hi, rfl⟩ hl (by simpa using hsz)
  refine ⟨p, img, m, g1, g2, k1, ?_⟩
  have hpos : ((img.data.map BitVec.toInt).length : ℚ) ≠ 0 := by
    rw [Nat.cast_ne_zero]; exact fun hc => hl (List.length_eq_zero_iff.1 hc)
  have hs' : (s : ℚ) ≠ 0 := by exact_mod_cast hsc
  have : ((((img.data.map BitVec.toInt).map fun x => z + s * x).sum : ℚ) / ((img.data.map BitVec.toInt).map fun x => z + s * x).length - z) / s =
      (img.data.map BitVec.toInt).sum / (img.data.map BitVec.toInt).length := by
    rw [sum_scaled]
    simp only [List.length_map] at hpos ⊢
    generalize img.data.length = a at hpos ⊢
    generalize (img.data.map BitVec.toInt).sum = c
    push_cast
    field_simp
    ring
  rw [this]
  exact k2

/-- **C159** With a positive scale, `max()`, `min()` and `median()` are the stored numbers of the largest, the smallest and a middle one of the numbers depicted; and `std_dev()` of two
or more pixels is zero exactly if all these are the same. -/
theorem C159_order (F : FloatText) (content : Str) (us : List ForeignHdu) (h : Laid us content) (hs : ∀ u ∈ us, Supported F u)
    (h36 : ∀ u ∈ us, ¬ 36 ∣ u.cards.length) (hd : ∀ u ∈ us.dropLast, u.data = [] ∨ ¬ 2880 ∣ u.data.length) (hb : content.length + 5760 < 2 ^ 63)
    (fuel n : Nat) (r : Reader) (e : readEntire F fuel n (openFile content) = some (.ok r)) (k : Nat) (u : ForeignHdu) (hk : us[k]? = some u)
    (b : Bitpix) (axes : List Nat) (hh : ImageCards u.cards b axes) (hi : b = .B16 ∨ b = .B32) (s z : Int) (qs : List Int) (hq : Depicts u.cards u.data b.size s z qs)
    (hsc : 0 < s) (hne : qs ≠ []) :
    ∃ p img, r.hdus[k]? = some (.primary p) ∧ p.data.getData b = .ok img ∧
      (∃ m, img.max = .ok m ∧ z + s * m.toInt ∈ qs ∧ ∀ q ∈ qs, q ≤ z + s * m.toInt) ∧
      (∃ m, img.min = .ok m ∧ z + s * m.toInt ∈ qs ∧ ∀ q ∈ qs, z + s * m.toInt ≤ q) ∧
      (∀ nth, NthElement (b := b) nth → ∃ m, img.median nth = .ok m ∧ z + s * m.toInt ∈ qs ∧ qs.countP (fun q => q < z + s * m.toInt) ≤ qs.length / 2 ∧
        qs.length / 2 < qs.countP (fun q => q ≤ z + s * m.toInt)) ∧
      (2 ≤ qs.length → qs.length * 2 ^ (8 * b.size - 1) ≤ 2 ^ 53 → (img.stdDev = .num 0 ↔ ∀ x ∈ qs, ∀ y ∈ qs, x = y)) := by
  obtain ⟨p, img, g1, g2, rfl⟩ := depicts_pixels h hs h36 hd hb e hk hh hi hq
  have hdat : img.data ≠ [] := by simpa using hne
  have mono : ∀ x y : Int, z + s * x ≤ z + s * y ↔ x ≤ y := fun x y => by
    rw [Int.add_le_add_iff_left]; exact mul_le_mul_iff_right₀ hsc
  have smono : ∀ x y : Int, z + s * x < z + s * y ↔ x < y := fun x y => by
    have := mono y x; omega
  refine ⟨p, img, g1, g2, ?_, ?_, ?_, ?_⟩
  · obtain ⟨m, k1, k2, k3⟩ := int_max (.inr hi) hdat
    refine ⟨m, k1, List.mem_map.2 ⟨_, List.mem_map.2 ⟨m, k2, rfl⟩, rfl⟩, fun q hq => ?_⟩
    obtain ⟨x, hx, rfl⟩ := List.mem_map.1 hq
    obtain ⟨v, hv, rfl⟩ := List.mem_map.1 hx
    exact (mono _ _).2 (k3 v hv)
  · obtain ⟨m, k1, k2, k3⟩ := int_min (.inr hi) hdat
    refine ⟨m, k1, List.mem_map.2 ⟨_, List.mem_map.2 ⟨m, k2, rfl⟩, rfl⟩, fun q hq => ?_⟩
    obtain ⟨x, hx, rfl⟩ := List.mem_map.1 hq
    obtain ⟨v, hv, rfl⟩ := List.mem_map.1 hx
    exact (mono _ _).2 (k3 v hv)
  · intro nth hn
    obtain ⟨m, k1, k2, k3, k4⟩ := int_median (.inr hi) hdat hn
    refine ⟨m, k1, List.mem_map.2 ⟨_, List.mem_map.2 ⟨m, k2, rfl⟩, rfl⟩, ?_, ?_⟩
    · rw [List.countP_map, List.countP_map, List.length_map, List.length_map]
      convert k3 using 2
      funext v
      simp [Function.comp, smono]
    · rw [List.countP_map, List.countP_map, List.length_map, List.length_map]
      convert k4 using 2
      funext v
      simp [Function.comp, mono]
  · intro h2 hsz
    rw [(C100_constant img (img.data.map BitVec.toInt) ⟨.inr hi, rfl⟩ (by simpa using h2) (by simpa using hsz)).1]
    constructor
    · intro hall x hx y hy
      obtain ⟨x', hx', rfl⟩ := List.mem_map.1 hx
      obtain ⟨y', hy', rfl⟩ := List.mem_map.1 hy
      rw [hall x' hx' y' hy']
    · intro hall x hx y hy
      have h1 := hall _ (List.mem_map.2 ⟨x, hx, rfl⟩) _ (List.mem_map.2 ⟨y, hy, rfl⟩)
      have := (mono x y).1 (le_of_eq h1)
      have := (mono y x).1 (le_of_eq h1.symm)
      omega

theorem exUnsigned_depicts : Depicts exUnsigned [128, 0, 0, 5, 255, 255] 2 1 32768 [0, 32773, 32767] where
  scale := by
    refine .inl ⟨fun r hr => ?_, rfl⟩
    rw [keywordIs_iff]
    revert r; decide
  zero := .inr ⟨b!"32768", b!"32768", exUnsigned_says 5 65 rfl (by decide) (by decide) (by decide) (by decide) (by decide), ⟨by decide, by decide⟩, .inl ⟨rfl, by decide⟩⟩
  count := rfl
  value := by
    intro i q hq
    match i, hq with
    | 0, hq => cases hq; exact (show (0 : Int) = 32768 + 1 * storedNumber (window [128, 0, 0, 5, 255, 255] 0 2) by decide)
    | 1, hq => cases hq; exact (show (32773 : Int) = 32768 + 1 * storedNumber (window [128, 0, 0, 5, 255, 255] 2 2) by decide)
    | 2, hq => cases hq; exact (show (32767 : Int) = 32768 + 1 * storedNumber (window [128, 0, 0, 5, 255, 255] 4 2) by decide)
    | j + 3, hq => simp at hq

/-- The unsigned image of the pixels 0, 32773 and 32767: its mean is 65540/3, the library gives -32764/3, rounded. -/
example (F : FloatText) (content : Str) (h : Laid [⟨exUnsigned, [128, 0, 0, 5, 255, 255]⟩] content) (hb : content.length + 5760 < 2 ^ 63)
    (fuel n : Nat) (r : Reader) (e : readEntire F fuel n (openFile content) = some (.ok r)) :
    ∃ p img m, r.hdus[0]? = some (.primary p) ∧ p.data.getData .B16 = .ok img ∧ img.mean = .num m ∧ Rounded (-32764 / 3) m ∧ m ≤ 0 := by
  have one : ∀ {P : ForeignHdu → Prop}, P ⟨exUnsigned, [128, 0, 0, 5, 255, 255]⟩ → ∀ u ∈ [(⟨exUnsigned, [128, 0, 0, 5, 255, 255]⟩ : ForeignHdu)], P u := by
    intro P h u hu; rw [List.mem_singleton.1 hu]; exact h
  obtain ⟨p, img, m, h1, h2, h3, h4⟩ := C159_mean F content _ h
    (one (.image .B16 [3] true exUnsigned_image (exUnsigned_says 4 69 rfl (by decide) (by decide) (by decide) (by decide) (by decide)) rfl))
    (one (P := fun u => ¬ 36 ∣ u.cards.length) (by decide)) (by simp) hb fuel n r e 0 _ rfl .B16 [3] exUnsigned_image (.inl rfl) 1 32768 _ exUnsigned_depicts
    (by decide) (by simp) (by decide)
  have e1 : ((([0, 32773, 32767] : List Int).sum : ℚ) / ([0, 32773, 32767] : List Int).length - ((32768 : Int) : ℚ)) / ((1 : Int) : ℚ) = -32764 / 3 := by norm_num
  rw [e1] at h4
  have h5 := h4
  obtain ⟨_, _, _, _, h6⟩ := h5
  exact ⟨p, img, m, h1, h2, h3, h4, h6 (by norm_num)⟩

end Astro
