import Verif.Model.Image
import Verif.Props.Convert
import Mathlib.Tactic.Linarith
import Mathlib.Tactic.FieldSimp
import Mathlib.Tactic.Ring
import Mathlib.Algebra.BigOperators.Group.List.Basic
import Mathlib.Algebra.Order.BigOperators.Group.List
import Mathlib.Algebra.BigOperators.Ring.List

/-
Properties C20 - C23: images.
-/

namespace Astro

open Spec Bin

/-! ## C20, C21 -/

theorem decode_eq {b : Bitpix} (hb : b ≠ .B8) (s : Str) : b.decode s = elementToNumeric b.size s := by
  cases b <;> first | rfl | exact absurd rfl hb

theorem readLoop_ok {b : Bitpix} (hb : b ≠ .B8) : ∀ (n : Nat) (buf : Str), n * b.size ≤ buf.length →
    ∃ l, Image.readLoop b n buf = .ok l ∧ l.length = n ∧ serializeAll (serialize b.size) l = buf.take (n * b.size) ∧
      ∀ k (hk : k < l.length), bigEndian ((buf.drop (k * b.size)).take b.size) = l[k].toNat := by
  intro n
  induction n with
  | zero => intro buf _; exact ⟨[], rfl, rfl, by simp [serializeAll_nil], fun k hk => absurd hk (by simp)⟩
  | succ n ih =>
    intro buf h
    rw [Nat.succ_mul] at h
    obtain ⟨l, h1, h2, h3, h4⟩ := ih (buf.drop b.size) (by simp; omega)
    have hlen : (buf.take b.size).length = b.size := by simp; omega
    have hdec : b.decode (buf.take b.size) = .ok (swap b.size (loadNative b.size (buf.take b.size))) := by
      rw [decode_eq hb]
      unfold elementToNumeric
      rw [peek_inside (by omega)]
      simp only [List.drop_zero, List.take_of_length_le (Nat.le_of_eq hlen)]; rfl
    refine ⟨swap b.size (loadNative b.size (buf.take b.size)) :: l, ?_, by simp [h2], ?_, ?_⟩
    · simp only [Image.readLoop]
      rw [if_neg (by omega), hdec, h1]; rfl
    · rw [serializeAll_cons, h3, ← isBE_iff_serialize.1 (decode_isBE hlen), Nat.succ_mul, Nat.add_comm, List.take_add]
    · intro k hk
      cases k with
      | zero => simpa using (decode_isBE hlen).2
      | succ k =>
        have := h4 k (by simpa using hk)
        rw [List.drop_drop] at this
        simp only [List.getElem_cons_succ]
        rw [Nat.succ_mul, Nat.add_comm]; exact this

theorem serializeAll_inj {w : Nat} (hw : 0 < w) : ∀ (l l' : List (BitVec (8 * w))), serializeAll (serialize w) l = serializeAll (serialize w) l' → l = l' := by
  intro l
  induction l with
  | nil =>
    intro l' h
    cases l' with
    | nil => rfl
    | cons x l' =>
      have := congrArg List.length h
      rw [serializeAll_length (serialize_length w), serializeAll_length (serialize_length w)] at this
      simp at this
      omega
  | cons x l ih =>
    intro l' h
    cases l' with
    | nil =>
      have := congrArg List.length h
      rw [serializeAll_length (serialize_length w), serializeAll_length (serialize_length w)] at this
      simp at this
      omega
    | cons y l' =>
      rw [serializeAll_cons, serializeAll_cons] at h
      have h1 := List.append_inj h (by rw [serialize_length, serialize_length])
      have hx : x = y := isBE_fun (serialize_isBE w x) (h1.1 ▸ serialize_isBE w y)
      rw [hx, ih _ h1.2]

theorem size_pos (b : Bitpix) : 0 < b.size := by cases b <;> decide

theorem writeImage_eq {b : Bitpix} (img : Image b) : img.writeImage = serializeAll (serialize b.size) img.data := by
  unfold Image.writeImage
  by_cases h : img.data.length ≠ 0
  · rw [if_pos h]; rfl
  · rw [if_neg h]
    have : img.data = [] := List.eq_nil_of_length_eq_zero (by omega)
    rw [this]; rfl

/-- **C20** Reading the bytes written for a non-empty image gives the same pixels. -/
theorem C20_write_read {b : Bitpix} (hb : b ≠ .B8) (img img' : Image b) (hne : img.data ≠ []) :
    img'.readImage img.writeImage = .ok { img' with data := img.data } := by
  have hlen : img.writeImage.length = img.data.length * b.size := by
    rw [writeImage_eq, serializeAll_length (serialize_length _)]
  have hpos := List.length_pos_iff.2 hne
  have hne' : img.writeImage.isEmpty = false := by
    rw [List.isEmpty_eq_false_iff]
    intro e
    rw [e] at hlen
    have := Nat.mul_pos hpos (size_pos b)
    rw [← hlen] at this
    exact absurd this (by simp)
  unfold Image.readImage
  rw [hne', hlen, Nat.mul_div_cancel _ (size_pos b)]
  obtain ⟨l, h1, h2, h3, _⟩ := readLoop_ok hb img.data.length img.writeImage (Nat.le_of_eq hlen.symm)
  rw [h1]
  have : l = img.data := by
    apply serializeAll_inj (size_pos b)
    rw [h3, List.take_of_length_le (Nat.le_of_eq hlen), writeImage_eq]
  rw [this]; rfl

/-- Two 16 bit pixels, written and read into an image that held others. -/
example : (⟨[9], none, none⟩ : Image .B16).readImage (⟨[0x0102, 0xFFFE], some 2, some 1⟩ : Image .B16).writeImage = .ok ⟨[0x0102, 0xFFFE], none, none⟩ :=
  C20_write_read (by decide) _ _ (by decide)

/-- **C20** Reading a non-empty buffer and writing the image gives back the buffer, cut to whole pixels; so exactly the buffers whose size
is a multiple of the pixel width are reproduced. -/
theorem C20_read_write {b : Bitpix} (hb : b ≠ .B8) (img : Image b) (buf : Str) (hne : buf ≠ []) :
    (img.readImage buf).map Image.writeImage = .ok (buf.take (buf.length / b.size * b.size)) ∧
    ((img.readImage buf).map Image.writeImage = .ok buf ↔ b.size ∣ buf.length) := by
  have hle : buf.length / b.size * b.size ≤ buf.length := Nat.div_mul_le_self _ _
  have h : (img.readImage buf).map Image.writeImage = .ok (buf.take (buf.length / b.size * b.size)) := by
    unfold Image.readImage
    rw [List.isEmpty_eq_false_iff.2 hne]
    obtain ⟨l, h1, h2, h3, _⟩ := readLoop_ok hb (buf.length / b.size) buf hle
    rw [h1]
    simp only [bind, Except.bind, pure, Except.pure, Except.map, Bool.false_eq_true, if_false]
    rw [writeImage_eq]
    simp only
    rw [h3]
  refine ⟨h, ?_⟩
  rw [h]
  simp only [Except.ok.injEq]
  constructor
  · intro e
    have := congrArg List.length e
    rw [List.length_take, Nat.min_eq_left hle] at this
    exact ⟨_, by rw [Nat.mul_comm]; exact this.symm⟩
  · intro hd
    rw [Nat.div_mul_cancel hd, List.take_length]

/-- Of five bytes the last is lost. -/
example : ((Image.fresh (b := .B16)).readImage [1, 2, 3, 4, 5]).map Image.writeImage = .ok [1, 2, 3, 4] :=
  (C20_read_write (by decide) _ [1, 2, 3, 4, 5] (by decide)).1

/-- **C20** Pixel number `k` of a loaded image is the big-endian number at byte `k * width` of the buffer. -/
theorem C20_pixels {b : Bitpix} (hb : b ≠ .B8) (img : Image b) (buf : Str) (hne : buf ≠ []) :
    ∃ img', img.readImage buf = .ok img' ∧ img'.data.length = buf.length / b.size ∧
      ∀ k (hk : k < img'.data.length), bigEndian ((buf.drop (k * b.size)).take b.size) = img'.data[k].toNat := by
  unfold Image.readImage
  rw [List.isEmpty_eq_false_iff.2 hne]
  obtain ⟨l, h1, h2, h3, h4⟩ := readLoop_ok hb (buf.length / b.size) buf (Nat.div_mul_le_self _ _)
  rw [h1]
  exact ⟨_, rfl, h2, h4⟩

/-- **C20** An empty image is written as nothing, and reading nothing leaves the image as it was (old pixels included). -/
theorem C20_empty {b : Bitpix} (img : Image b) : img.readImage [] = .ok img ∧ (img.writeImage = [] ↔ img.data = []) := by
  refine ⟨rfl, ?_⟩
  rw [writeImage_eq]
  constructor
  · intro h; exact serializeAll_inj (size_pos b) _ [] h
  · intro h; rw [h]; rfl

example : (Image.fresh (b := .B16)).readImage [1, 2, 3, 4, 5] = .ok ⟨[0x0102#16, 0x0304#16], some 0, some 0⟩ := rfl

/-- **C21** Every 8-bit image is read as zeros, one per byte. -/
theorem C21_b8_zero (img : Image .B8) (buf : Str) (hne : buf ≠ []) :
    img.readImage buf = .ok { img with data := List.replicate buf.length 0#8 } := by
  have h : ∀ buf : Str, Image.readLoop .B8 buf.length buf = .ok (List.replicate buf.length 0#8) := by
    intro buf
    induction buf with
    | nil => rfl
    | cons c t ih =>
      simp only [List.length_cons, Image.readLoop]
      rw [if_neg (by simp [Bitpix.size])]
      have : (c :: t).drop (Bitpix.size .B8) = t := rfl
      rw [this, ih]; rfl
  unfold Image.readImage
  rw [List.isEmpty_eq_false_iff.2 hne]
  have : buf.length / Bitpix.size .B8 = buf.length := Nat.div_one _
  rw [this, h]; rfl

/-- **C21** So different buffers of equal size cannot be told apart, and re-writing an 8-bit image destroys it unless it was all zero. -/
theorem C21_b8_lossy (img : Image .B8) (buf buf' : Str) (h : buf.length = buf'.length) (hne : buf ≠ []) :
    img.readImage buf = img.readImage buf' ∧
    (img.readImage buf).map Image.writeImage = .ok (List.replicate buf.length 0) := by
  have hne' : buf' ≠ [] := by rintro rfl; exact hne (List.eq_nil_of_length_eq_zero h)
  refine ⟨by rw [C21_b8_zero img buf hne, C21_b8_zero img buf' hne', h], ?_⟩
  rw [C21_b8_zero img buf hne]
  simp only [Except.map, Except.ok.injEq]
  rw [writeImage_eq]
  have hz : ∀ n, serializeAll (serialize 1) (List.replicate n (0 : BitVec (8 * 1))) = List.replicate n 0 := by
    intro n
    induction n with
    | zero => rfl
    | succ n ih => rw [List.replicate_succ, serializeAll_cons, ih]; rfl
  exact hz _

example : (Image.fresh (b := .B8)).readImage [1, 2, 3] = Image.fresh.readImage [7, 8, 9] := (C21_b8_lossy _ _ _ rfl (by decide)).1

example : (Image.fresh (b := .B8)).readImage [1, 2, 3] = .ok ⟨[0#8, 0#8, 0#8], some 0, some 0⟩ := rfl

/-! ## C22 -/

theorem foldl_max_spec (t : List ℚ) : ∀ x, (t.foldl (fun m y => if m < y then y else m) x) ∈ x :: t ∧
    ∀ y ∈ x :: t, y ≤ t.foldl (fun m y => if m < y then y else m) x := by
  induction t with
  | nil => intro x; simp
  | cons z t ih =>
    intro x
    simp only [List.foldl_cons]
    obtain ⟨h1, h2⟩ := ih (if x < z then z else x)
    generalize hm : t.foldl (fun m y => if m < y then y else m) (if x < z then z else x) = m at *
    constructor
    · rcases List.mem_cons.1 h1 with h | h
      · rw [h]; split <;> simp
      · simp [h]
    · intro y hy
      have hx := h2 _ (List.mem_cons_self)
      rcases List.mem_cons.1 hy with rfl | hy
      · split at hx <;> linarith
      · rcases List.mem_cons.1 hy with rfl | hy
        · split at hx <;> linarith
        · exact h2 y (List.mem_cons_of_mem _ hy)

theorem foldl_min_spec (t : List ℚ) : ∀ x, (t.foldl (fun m y => if y < m then y else m) x) ∈ x :: t ∧
    ∀ y ∈ x :: t, t.foldl (fun m y => if y < m then y else m) x ≤ y := by
  induction t with
  | nil => intro x; simp
  | cons z t ih =>
    intro x
    simp only [List.foldl_cons]
    obtain ⟨h1, h2⟩ := ih (if z < x then z else x)
    generalize hm : t.foldl (fun m y => if y < m then y else m) (if z < x then z else x) = m at *
    constructor
    · rcases List.mem_cons.1 h1 with h | h
      · rw [h]; split <;> simp
      · simp [h]
    · intro y hy
      have hx := h2 _ (List.mem_cons_self)
      rcases List.mem_cons.1 hy with rfl | hy
      · split at hx <;> linarith
      · rcases List.mem_cons.1 hy with rfl | hy
        · split at hx <;> linarith
        · exact h2 y (List.mem_cons_of_mem _ hy)

/-- **C22** `max` is the greatest pixel. -/
theorem C22_max_iff (l : List ℚ) (m : ℚ) : Stats.max l = .ok m ↔ m ∈ l ∧ ∀ x ∈ l, x ≤ m := by
  cases l with
  | nil => simp [Stats.max]
  | cons x t =>
    obtain ⟨h1, h2⟩ := foldl_max_spec t x
    simp only [Stats.max, Except.ok.injEq]
    constructor
    · rintro rfl; exact ⟨h1, h2⟩
    · rintro ⟨g1, g2⟩; exact le_antisymm (g2 _ h1) (h2 _ g1)

/-- **C22** `min` is the least pixel. -/
theorem C22_min_iff (l : List ℚ) (m : ℚ) : Stats.min l = .ok m ↔ m ∈ l ∧ ∀ x ∈ l, m ≤ x := by
  cases l with
  | nil => simp [Stats.min]
  | cons x t =>
    obtain ⟨h1, h2⟩ := foldl_min_spec t x
    simp only [Stats.min, Except.ok.injEq]
    constructor
    · rintro rfl; exact ⟨h1, h2⟩
    · rintro ⟨g1, g2⟩; exact le_antisymm (h2 _ g1) (g2 _ h1)

theorem foldl_add_eq_sum (l : List ℚ) : l.foldl (· + ·) 0 = l.sum := List.sum_eq_foldl.symm

theorem mean_eq {l : List ℚ} (h : l ≠ []) : Stats.mean l = l.sum / l.length := by
  unfold Stats.mean
  rw [if_neg (by rw [List.length_eq_zero_iff]; exact h), foldl_add_eq_sum]

theorem length_pos_rat {l : List ℚ} (h : l ≠ []) : (0 : ℚ) < l.length := by
  exact_mod_cast List.length_pos_iff.2 h

/-- **C22** The mean times the number of pixels is their sum, and the mean lies between any bounds of the pixels; an empty image has
mean 0. -/
theorem C22_mean (l : List ℚ) :
    Stats.mean l * l.length = l.sum ∧ (l = [] → Stats.mean l = 0) ∧
    (l ≠ [] → ∀ lo hi, (∀ x ∈ l, lo ≤ x) → (∀ x ∈ l, x ≤ hi) → lo ≤ Stats.mean l ∧ Stats.mean l ≤ hi) := by
  refine ⟨?_, ?_, ?_⟩
  · by_cases h : l = []
    · subst h; simp
    · rw [mean_eq h]; have := length_pos_rat h; field_simp
  · rintro rfl; rfl
  · intro h lo hi hlo hhi
    have hp := length_pos_rat h
    rw [mean_eq h, le_div_iff₀ hp, div_le_iff₀ hp]
    constructor
    · have := List.card_nsmul_le_sum l lo hlo
      simpa [nsmul_eq_mul, mul_comm] using this
    · have := List.sum_le_card_nsmul l hi hhi
      simpa [nsmul_eq_mul, mul_comm] using this

theorem median_spec {l : List ℚ} {m : ℚ} (h : Stats.median l = .ok m) :
    m ∈ l ∧ l.countP (fun x => x < m) ≤ l.length / 2 ∧ l.length / 2 < l.countP (fun x => x ≤ m) := by
  unfold Stats.median at h
  generalize hs : l.mergeSort (fun a b => decide (a ≤ b)) = s at h
  have hperm : s.Perm l := hs ▸ List.mergeSort_perm l _
  have hsorted : s.Pairwise (fun a b => a ≤ b) := by
    rw [← hs]
    have := List.pairwise_mergeSort (le := fun a b : ℚ => decide (a ≤ b)) (by simp; intro a b c; exact le_trans)
      (by simp; intro a b; exact le_total a b) l
    simpa using this
  have hlen : s.length = l.length := hperm.length_eq
  cases hg : s[l.length / 2]? with
  | none => rw [hg] at h; cases h
  | some y =>
    rw [hg] at h
    simp only [Except.ok.injEq] at h
    subst h
    obtain ⟨hk, hy⟩ := List.getElem?_eq_some_iff.1 hg
    generalize l.length / 2 = k at *
    refine ⟨hperm.mem_iff.1 (hy ▸ List.getElem_mem hk), ?_, ?_⟩
    · rw [← hperm.countP_eq]
      have e : s = s.take k ++ s.drop k := (List.take_append_drop k s).symm
      rw [e, List.countP_append]
      have h0 : (s.drop k).countP (fun x => x < y) = 0 := by
        rw [List.countP_eq_zero]
        intro x hx
        obtain ⟨j, hj, rfl⟩ := List.getElem_of_mem hx
        simp only [List.getElem_drop, decide_eq_true_eq, not_lt]
        rcases Nat.eq_zero_or_pos j with rfl | hjp
        · simp [hy]
        · rw [← hy]
          exact List.pairwise_iff_getElem.1 hsorted _ _ hk (by simp at hj; omega) (by omega)
      rw [h0, Nat.add_zero]
      exact le_trans List.countP_le_length (by simp)
    · rw [← hperm.countP_eq]
      have e : s = s.take (k + 1) ++ s.drop (k + 1) := (List.take_append_drop _ s).symm
      rw [e, List.countP_append]
      have h0 : (s.take (k + 1)).countP (fun x => x ≤ y) = k + 1 := by
        have : (s.take (k + 1)).countP (fun x => x ≤ y) = (s.take (k + 1)).length := by
          rw [List.countP_eq_length]
          intro x hx
          obtain ⟨j, hj, rfl⟩ := List.getElem_of_mem hx
          simp only [List.getElem_take, decide_eq_true_eq]
          simp at hj
          rcases Nat.lt_or_ge j k with hjk | hjk
          · rw [← hy]; exact List.pairwise_iff_getElem.1 hsorted _ _ (by omega) hk hjk
          · have : j = k := by omega
            subst this; rw [hy]
        rw [this]; simp; omega
      omega

theorem countP_le_countP {l : List ℚ} {m m' : ℚ} (h : m < m') : l.countP (fun x => x ≤ m) ≤ l.countP (fun x => x < m') := by
  apply List.countP_mono_left
  intro x _ hx
  simp only [decide_eq_true_eq] at *
  linarith

/-- **C22** The median is the pixel with at most `n/2` pixels below it and more than `n/2` not above it; these conditions determine it. -/
theorem C22_median_iff (l : List ℚ) (m : ℚ) :
    Stats.median l = .ok m ↔ m ∈ l ∧ l.countP (fun x => x < m) ≤ l.length / 2 ∧ l.length / 2 < l.countP (fun x => x ≤ m) := by
  constructor
  · exact median_spec
  · rintro ⟨h1, h2, h3⟩
    cases hm : Stats.median l with
    | error e =>
      exfalso
      unfold Stats.median at hm
      have hl : l.length / 2 < (l.mergeSort fun a b => decide (a ≤ b)).length := by
        rw [List.length_mergeSort]
        have := List.length_pos_of_mem h1
        omega
      rw [List.getElem?_eq_getElem hl] at hm
      cases hm
    | ok m' =>
      obtain ⟨g1, g2, g3⟩ := median_spec hm
      rcases lt_trichotomy m m' with h | h | h
      · have := countP_le_countP (l := l) h; omega
      · rw [h]
      · have := countP_le_countP (l := l) h; omega

/-- **C22** At most half of the pixels are strictly below the median and at most half strictly above it. -/
theorem C22_median_halves (l : List ℚ) (m : ℚ) (h : Stats.median l = .ok m) :
    2 * l.countP (fun x => x < m) ≤ l.length ∧ 2 * l.countP (fun x => m < x) ≤ l.length := by
  obtain ⟨_, h2, h3⟩ := median_spec h
  have hc : l.countP (fun x => x ≤ m) + l.countP (fun x => m < x) = l.length := by
    rw [List.length_eq_countP_add_countP (fun x => decide (x ≤ m)) (l := l)]
    congr 1
    apply List.countP_congr
    intro x _
    simp
  omega

/-- Of 5, 1, 3, 3 one pixel is greater and one smaller than the median 3. -/
example : Stats.median [5, 1, 3, 3] = .ok 3 ∧ [5, 1, 3, 3].countP (fun x : ℚ => 3 < x) = 1 := ⟨(C22_median_iff _ _).2 (by decide), by decide⟩

theorem variance_eq {l : List ℚ} (h : 2 ≤ l.length) :
    Stats.variance l = some ((l.map fun x => (x - Stats.mean l) * (x - Stats.mean l)).sum / ((l.length - 1 : Nat) : ℚ)) := by
  unfold Stats.variance
  rw [if_neg (by omega)]
  simp only
  rw [if_neg (by omega), foldl_add_eq_sum, List.map_map]
  rfl

theorem sum_sq_nonneg (l : List ℚ) (a : ℚ) : 0 ≤ (l.map fun x => (x - a) * (x - a)).sum := by
  induction l with
  | nil => simp
  | cons x l ih =>
    simp only [List.map_cons, List.sum_cons]
    have := mul_self_nonneg (x - a)
    linarith

theorem sum_sq_zero (l : List ℚ) (a : ℚ) : (l.map fun x => (x - a) * (x - a)).sum = 0 ↔ ∀ x ∈ l, x = a := by
  induction l with
  | nil => simp
  | cons x l ih =>
    simp only [List.map_cons, List.sum_cons, List.mem_cons, forall_eq_or_imp]
    have h1 := mul_self_nonneg (x - a)
    have h2 := sum_sq_nonneg l a
    rw [← ih]
    constructor
    · intro h
      have e : (x - a) * (x - a) = 0 := by linarith
      refine ⟨?_, by linarith⟩
      have := mul_self_eq_zero.1 e
      linarith
    · rintro ⟨rfl, h⟩
      rw [h]; ring

theorem mean_shift {l : List ℚ} (h : l ≠ []) (c : ℚ) : Stats.mean (l.map (· + c)) = Stats.mean l + c := by
  have h' : l.map (· + c) ≠ [] := by simpa using h
  rw [mean_eq h, mean_eq h']
  have hp := length_pos_rat h
  have : (l.map (· + c)).sum = l.sum + l.length * c := by
    clear h h' hp
    induction l with
    | nil => simp
    | cons x l ih => simp only [List.map_cons, List.sum_cons, ih, List.length_cons]; push_cast; ring
  rw [this, List.length_map]
  field_simp

/-- **C22** The variance: 0 for no pixel, NaN for one pixel; for two or more pixels it is the sum of squared deviations over `n-1`, never
negative, zero exactly for a constant image, and unchanged by adding a constant. -/
theorem C22_variance (l : List ℚ) :
    (l = [] → Stats.variance l = some 0) ∧ (l.length = 1 → Stats.variance l = none) ∧
    (2 ≤ l.length → ∃ v, Stats.variance l = some v ∧
      v * (l.length - 1) = (l.map fun x => (x - Stats.mean l) ^ 2).sum ∧ 0 ≤ v ∧ (v = 0 ↔ ∀ x ∈ l, ∀ y ∈ l, x = y) ∧
      ∀ c, Stats.variance (l.map (· + c)) = some v) := by
  refine ⟨?_, ?_, ?_⟩
  · rintro rfl; rfl
  · intro h; unfold Stats.variance; rw [if_neg (by omega)]; simp only; rw [if_pos (by omega)]
  · intro h
    have hne : l ≠ [] := by rintro rfl; simp at h
    have hpos : (0 : ℚ) < ((l.length - 1 : Nat) : ℚ) := by exact_mod_cast (by omega : 0 < l.length - 1)
    have hcast : ((l.length - 1 : Nat) : ℚ) = (l.length : ℚ) - 1 := by
      rw [Nat.cast_sub (by omega)]; simp
    refine ⟨_, variance_eq h, ?_, ?_, ?_, ?_⟩
    · rw [hcast] at hpos ⊢
      rw [div_mul_cancel₀ _ (ne_of_gt hpos)]
      congr 1
      apply List.map_congr_left
      intro x _; ring
    · exact div_nonneg (sum_sq_nonneg _ _) hpos.le
    · rw [div_eq_zero_iff]
      simp only [ne_of_gt hpos, or_false]
      rw [sum_sq_zero]
      constructor
      · intro hx x hx1 y hy1; rw [hx x hx1, hx y hy1]
      · intro hx x hx1
        obtain ⟨_, _, hb⟩ := C22_mean l
        obtain ⟨h1, h2⟩ := hb hne x x (fun y hy => (hx x hx1 y hy).le) (fun y hy => (hx y hy x hx1).le)
        exact le_antisymm h1 h2
    · intro c
      rw [variance_eq (by simpa using h), mean_shift hne, List.map_map, List.length_map]
      congr 3
      apply List.map_congr_left
      intro x _
      simp only [Function.comp]; ring

/-- **C22** None of the statistics depends on the order of the pixels. -/
theorem C22_order_independent (l l' : List ℚ) (h : l.Perm l') :
    Stats.max l = Stats.max l' ∧ Stats.min l = Stats.min l' ∧ Stats.mean l = Stats.mean l' ∧
    Stats.median l = Stats.median l' ∧ Stats.variance l = Stats.variance l' ∧ Stats.stdDev l = Stats.stdDev l' := by
  have hlen := h.length_eq
  have hnil : l = [] ↔ l' = [] := by rw [← List.length_eq_zero_iff, ← List.length_eq_zero_iff, hlen]
  have hmean : Stats.mean l = Stats.mean l' := by
    by_cases hl : l = []
    · rw [hl, hnil.1 hl]
    · rw [mean_eq hl, mean_eq (fun e => hl (hnil.2 e)), h.sum_eq, hlen]
  have hvar : Stats.variance l = Stats.variance l' := by
    rcases Nat.lt_or_ge l.length 2 with h2 | h2
    · unfold Stats.variance
      rw [← hlen]
      by_cases h0 : l.length = 0
      · rw [if_pos h0, if_pos h0]
      · rw [if_neg h0, if_neg h0]; simp only; rw [if_pos (by omega), if_pos (by omega)]
    · rw [variance_eq h2, variance_eq (by omega), hmean, hlen]
      congr 2
      exact (h.map _).sum_eq
  have res_ext : ∀ {a b : Res ℚ}, (∀ m, a = .ok m ↔ b = .ok m) → (∀ e, a = .error e → e = .ub) → (∀ e, b = .error e → e = .ub) → a = b := by
    intro a b h1 h2 h3
    cases a with
    | ok m => exact ((h1 m).1 rfl).symm
    | error e =>
      cases b with
      | ok m => exact (h1 m).2 rfl
      | error e' => rw [h2 e rfl, h3 e' rfl]
  refine ⟨?_, ?_, hmean, ?_, hvar, by unfold Stats.stdDev; rw [hvar]⟩
  · apply res_ext
    · intro m; rw [C22_max_iff, C22_max_iff]; simp only [h.mem_iff]
    · intro e he; cases l <;> simp [Stats.max] at he; exact he.symm
    · intro e he; cases l' <;> simp [Stats.max] at he; exact he.symm
  · apply res_ext
    · intro m; rw [C22_min_iff, C22_min_iff]; simp only [h.mem_iff]
    · intro e he; cases l <;> simp [Stats.min] at he; exact he.symm
    · intro e he; cases l' <;> simp [Stats.min] at he; exact he.symm
  · have hub : ∀ (l : List ℚ) e, Stats.median l = .error e → e = .ub := by
      intro l e he
      unfold Stats.median at he
      split at he
      · cases he
      · cases he; rfl
    apply res_ext
    · intro m; rw [C22_median_iff, C22_median_iff]; simp only [h.mem_iff, h.countP_eq, hlen]
    · exact hub l
    · exact hub l'

example : Stats.variance [1, 3, 8] = Stats.variance [8, 1, 3] := (C22_order_independent _ _ (by decide)).2.2.2.2.1

/-- **C22** `max`, `min` and `median` are defined exactly for non-empty images. -/
theorem C22_defined_iff (l : List ℚ) :
    (l = [] → Stats.max l = .error .ub ∧ Stats.min l = .error .ub ∧ Stats.median l = .error .ub ∧ Stats.stdDev l = some 0) ∧
    (l ≠ [] → (∃ m, Stats.max l = .ok m) ∧ (∃ m, Stats.min l = .ok m) ∧ ∃ m, Stats.median l = .ok m) := by
  constructor
  · rintro rfl; refine ⟨rfl, rfl, by simp [Stats.median], ?_⟩; simp [Stats.stdDev, Stats.variance]
  · intro h
    cases l with
    | nil => exact absurd rfl h
    | cons x t =>
      refine ⟨⟨_, rfl⟩, ⟨_, rfl⟩, ?_⟩
      unfold Stats.median
      have hl : (x :: t).length / 2 < ((x :: t).mergeSort fun a b => decide (a ≤ b)).length := by
        rw [List.length_mergeSort]; simp; omega
      rw [List.getElem?_eq_getElem hl]
      exact ⟨_, rfl⟩

/-- **C22** The standard deviation is the non-negative square root of the variance. -/
theorem C22_std_dev (l : List ℚ) (h : 2 ≤ l.length) : ∃ s v, Stats.stdDev l = some s ∧ Stats.variance l = some v ∧ 0 ≤ s ∧ s ^ 2 = (v : ℝ) := by
  obtain ⟨v, hv, _, hn, _⟩ := (C22_variance l).2.2 h
  refine ⟨Real.sqrt v, v, by unfold Stats.stdDev; rw [hv]; rfl, hv, Real.sqrt_nonneg _, ?_⟩
  exact Real.sq_sqrt (by exact_mod_cast hn)

/-- The standard deviation of 1, 3, 5 is 2. -/
example : ∃ s v, Stats.stdDev [1, 3, 5] = some s ∧ Stats.variance [1, 3, 5] = some v ∧ v = 4 ∧ s = 2 := by
  obtain ⟨s, v, h1, h2, h3, h4⟩ := C22_std_dev [1, 3, 5] (by decide)
  have e : v = 4 := by
    have : Stats.variance [1, 3, 5] = some 4 := by norm_num [Stats.variance, Stats.mean]
    exact Option.some.inj (h2.symm.trans this)
  refine ⟨s, v, h1, h2, e, ?_⟩
  rw [e] at h4
  push_cast at h4
  nlinarith

example : Stats.mean [1, 2, 6] = 3 := by norm_num [Stats.mean]
example : Stats.max [1, 6, 2] = .ok 6 := (C22_max_iff _ _).2 (by simp; norm_num)
example : Stats.median [5, 1, 3, 3] = .ok 3 := (C22_median_iff _ _).2 (by decide)
example : Stats.variance [1, 3] = some 2 := by norm_num [Stats.variance, Stats.mean]

/-! ## C23 -/

/-- **C23** On an image held by an HDU (constructed without width, then read) the accessor ignores its first index. -/
theorem C23_pixel_after_read {b : Bitpix} (buf : Str) (img : Image b) (h : Image.fresh.readImage buf = .ok img) (x y : Nat) :
    img.pixel x y = (match img.data[y]? with | some p => .ok p | none => .error .ub) ∧ img.pixel x y = img.pixel 0 y := by
  have hw : img.width = some 0 := by
    unfold Image.readImage at h
    split at h
    · cases h; rfl
    · cases hl : Image.readLoop b (buf.length / b.size) buf with
      | error e => rw [hl] at h; cases h
      | ok l => rw [hl] at h; cases h; rfl
  unfold Image.pixel
  rw [hw]
  simp only [Nat.mul_zero, Nat.zero_add, and_true]
  cases img.data[y]? <;> rfl

/-- **C23** So for a two-dimensional image the accessor returns the wrong pixel as soon as one row differs from the first one. -/
theorem C23_pixel_wrong : ∃ (buf : Str) (img : Image .B16), Image.fresh.readImage buf = .ok img ∧ img.data = [1#16, 2#16, 3#16, 4#16] ∧
    img.pixel 1 0 = .ok 1#16 :=
  ⟨[0, 1, 0, 2, 0, 3, 0, 4], ⟨[1#16, 2#16, 3#16, 4#16], some 0, some 0⟩, rfl, rfl, rfl⟩

/-- **C23** With a width the accessor is row-major; outside the pixels it is undefined; without any width it is always undefined. -/
theorem C23_pixel_with_width {b : Bitpix} (img : Image b) (w x y : Nat) (hw : img.width = some w) :
    (∀ (h : x * w + y < img.data.length), img.pixel x y = .ok img.data[x * w + y]) ∧
    (img.data.length ≤ x * w + y → img.pixel x y = .error .ub) ∧
    (Image.declared (b := b)).pixel x y = .error .ub := by
  unfold Image.pixel
  rw [hw]
  refine ⟨?_, ?_, rfl⟩
  · intro h; simp only; rw [List.getElem?_eq_getElem h]
  · intro h; simp only; rw [List.getElem?_eq_none h]

/-- Three columns: the pixel in row 1 and column 2 is the last of six, row 2 is outside. -/
example : (⟨[10, 11, 12, 13, 14, 15], some 3, none⟩ : Image .B16).pixel 1 2 = .ok 15 ∧ (⟨[10, 11, 12, 13, 14, 15], some 3, none⟩ : Image .B16).pixel 2 0 = .error .ub :=
  ⟨(C23_pixel_with_width _ 3 1 2 rfl).1 (by decide), (C23_pixel_with_width _ 3 2 0 rfl).2.1 (by decide)⟩

/-- **C23** A freshly sized image buffer has all pixels zero and every index inside `height × width` is valid. -/
theorem C23_sized {b : Bitpix} (w h x y : Nat) (hx : x < h) (hy : y < w) : (Image.sized (b := b) w h).pixel x y = .ok 0 := by
  have hlt : x * w + y < w * h := by
    have : (x + 1) * w ≤ h * w := Nat.mul_le_mul_right _ hx
    rw [Nat.succ_mul, Nat.mul_comm h w] at this
    omega
  unfold Image.pixel Image.sized
  simp only
  rw [List.getElem?_replicate, if_pos hlt]

example : (Image.sized (b := .F32) 4 2).pixel 1 3 = .ok 0 := C23_sized 4 2 1 3 (by decide) (by decide)

end Astro
