import Verif.Spec.Median
import Verif.Lemmas.StatsInt
import Verif.Props.Image

/-
C122: the median of an image.
-/

namespace Astro

open Spec

variable {b : Bitpix}

/-- The test of the model is the requirement of the standard. -/
theorem ordered_iff (l : List (BitVec (8 * b.size))) : b.ordered l = true ↔ WeakOrder l := by
  have e : b.ordered l = true ↔ ¬ ((∃ p ∈ l, b.number p = .nan) ∧ ∃ p ∈ l, ∃ q ∈ l, (b.number p).less (b.number q) = true) := by
    simp [Bitpix.ordered]
    grind
  rw [e]
  unfold WeakOrder
  simp only [pixelLess_iff]
  constructor
  · intro h
    have key : ∀ p ∈ l, ∀ q ∈ l, ∀ r ∈ l, (b.number p).less (b.number r) = true → (b.number q).less (b.number r) = true ∨ (b.number p).less (b.number q) = true := by
      intro p hp q hq r hr hlt
      exact (less_split hlt (fun hn => h ⟨⟨q, hq, hn⟩, p, hp, r, hr, hlt⟩)).symm
    refine ⟨fun p _ => by cases b.number p <;> simp [Dbl.less], fun p _ q _ r _ h1 h2 => less_trans h1 h2, fun p hp q hq r hr h1 h2 h3 h4 => ⟨fun h5 => ?_, fun h5 => ?_⟩⟩
    · rcases key p hp q hq r hr h5 with h6 | h6
      · exact h3 h6
      · exact h1 h6
    · rcases key r hr q hq p hp h5 with h6 | h6
      · exact h2 h6
      · exact h4 h6
  · rintro ⟨-, -, h⟩ ⟨⟨n, hn, hnan⟩, p, hp, q, hq, hlt⟩
    have h1 : ∀ x : Dbl, ¬ x.less .nan = true := by intro x; cases x <;> simp [Dbl.less]
    have h2 : ∀ x : Dbl, ¬ Dbl.less .nan x = true := by intro x; cases x <;> simp [Dbl.less]
    exact (h p hp n hn q hq (hnan ▸ h1 _) (hnan ▸ h2 _) (hnan ▸ h2 _) (hnan ▸ h1 _)).1 hlt

theorem weak_perm {l l' : List (BitVec (8 * b.size))} (h : l.Perm l') (hw : WeakOrder l) : WeakOrder l' := by
  unfold WeakOrder at *
  simpa only [h.mem_iff] using hw

/-- Elements of a weak order: what is below something is below or above everything else. -/
theorem weak_split {l : List (BitVec (8 * b.size))} (hw : WeakOrder l) {p q r : BitVec (8 * b.size)} (hp : p ∈ l) (hq : q ∈ l) (hr : r ∈ l)
    (h : PixelLess b p q) (hn : ¬ PixelLess b p r) : PixelLess b r q := by
  rw [← ordered_iff] at hw
  have hnan : b.number r ≠ .nan := by
    intro hnan
    have e : b.ordered l = false := by
      simp [Bitpix.ordered]
      exact ⟨⟨r, hr, hnan⟩, p, hp, q, hq, pixelLess_iff.1 h⟩
    simp [e] at hw
  rw [pixelLess_iff] at *
  exact (less_split h hnan).resolve_left hn

open scoped Classical in
/-- What is in the middle of an array that `nth_element` left is in the middle. -/
theorem middle_of_nth {l : List (BitVec (8 * b.size))} (hne : l ≠ []) {nth} (hn : NthElement (b := b) nth) (hw : WeakOrder l) :
    ∃ p, (nth l (l.length / 2))[l.length / 2]? = some p ∧ Middle l p := by
  obtain ⟨hp, ho⟩ := hn l (l.length / 2) hw
  have hpos := List.length_pos_iff.2 hne
  have hk : l.length / 2 < (nth l (l.length / 2)).length := by rw [hp.length_eq]; omega
  generalize hd : nth l (l.length / 2) = d at *
  generalize hkl : l.length / 2 = k at *
  have hget := List.getElem?_eq_getElem hk
  unfold Middle
  rw [hkl]
  refine ⟨d[k], List.getElem?_eq_getElem hk, hp.mem_iff.1 (List.getElem_mem hk), ?_, ?_⟩
  · rw [← hp.countP_eq]
    have hin : ∀ j (h : j < d.length), k ≤ j → ¬ PixelLess b d[j] d[k] := fun j h hj => ho k j _ _ le_rfl hj hget (List.getElem?_eq_getElem h)
    generalize d[k] = m at *
    have h0 : List.countP (fun x => decide (PixelLess b x m)) (d.drop k) = 0 := by
      rw [List.countP_eq_zero]
      intro x hx
      obtain ⟨j, hj, rfl⟩ := List.getElem_of_mem hx
      rw [List.length_drop] at hj
      rw [List.getElem_drop]
      simpa using hin (k + j) (by omega) (by omega)
    rw [← List.take_append_drop k d, List.countP_append, h0, Nat.add_zero]
    refine List.countP_le_length.trans ?_
    rw [List.length_take]
    exact min_le_left _ _
  · rw [← hp.countP_eq]
    refine lt_of_lt_of_le ?_ ((List.take_sublist (k + 1) d).countP_le (p := fun x => decide ¬ PixelLess b d[k] x))
    rw [List.countP_eq_length.2]
    · rw [List.length_take, min_eq_left (by omega)]
      exact Nat.lt_succ_self k
    · intro x hx
      obtain ⟨i, hi, rfl⟩ := List.getElem_of_mem hx
      rw [List.length_take] at hi
      rw [List.getElem_take]
      have := ho i k d[i] d[k] (by omega) le_rfl (List.getElem?_eq_getElem _) (List.getElem?_eq_getElem hk)
      simpa using this

open scoped Classical in
/-- There is only one value in the middle. -/
theorem middle_unique {l : List (BitVec (8 * b.size))} (hw : WeakOrder l) {p q : BitVec (8 * b.size)} (h : Middle l p) (h' : Middle l q) :
    ¬ PixelLess b p q := by
  intro hlt
  have : l.countP (fun x => decide ¬ PixelLess b p x) ≤ l.countP fun x => decide (PixelLess b x q) := by
    apply List.countP_mono_left
    intro x hx hn
    simp only [decide_eq_true_eq] at hn ⊢
    exact weak_split hw h.1 h'.1 hx hlt hn
  have h1 := h.2.2
  have h2 := h'.2.1
  omega

/-- **C122.** The median of an image is defined exactly if there are pixels and the pixels are ordered, whatever `nth_element` is used. -/
theorem C122_defined (img : Image b) {nth} (hn : NthElement (b := b) nth) :
    (∃ p, img.median nth = .ok p) ↔ img.data ≠ [] ∧ WeakOrder img.data := by
  unfold Image.median
  constructor
  · rintro ⟨p, h⟩
    split at h
    · rename_i ho
      have hw := (ordered_iff _).1 ho
      refine ⟨?_, hw⟩
      rintro e
      have := (hn img.data (img.data.length / 2) hw).1
      rw [e] at this h
      rw [List.perm_nil.1 this] at h
      cases h
    · cases h
  · rintro ⟨hne, hw⟩
    obtain ⟨p, hp, -⟩ := middle_of_nth hne hn hw
    rw [if_pos ((ordered_iff _).2 hw), hp]
    exact ⟨p, rfl⟩

/-- **C122.** Pixels are ordered unless a NaN is among them together with two different values; pixels of integers always are. -/
theorem C122_ordered (l : List (BitVec (8 * b.size))) : WeakOrder l ↔ ¬ ((∃ p ∈ l, PixelNaN b p) ∧ ∃ p ∈ l, ∃ q ∈ l, PixelLess b p q) := by
  rw [← ordered_iff]
  simp only [pixelNaN_iff, pixelLess_iff]
  simp [Bitpix.ordered]
  grind

theorem C122_integers (l : List (BitVec (8 * b.size))) (h : b = .B8 ∨ b = .B16 ∨ b = .B32) : WeakOrder l := by
  rw [C122_ordered]
  rintro ⟨⟨p, -, f, hf, -⟩, -⟩
  rcases h with rfl | rfl | rfl <;> simp [pixelFormat] at hf

/-- **C122.** The median is a pixel with at most half of the pixels below it and more than half not above it. -/
theorem C122_middle (img : Image b) {nth} (hn : NthElement (b := b) nth) (p : BitVec (8 * b.size)) (h : img.median nth = .ok p) : Middle img.data p := by
  obtain ⟨hne, hw⟩ := (C122_defined img hn).1 ⟨p, h⟩
  obtain ⟨q, hq, hm⟩ := middle_of_nth hne hn hw
  unfold Image.median at h
  rw [if_pos ((ordered_iff _).2 hw), hq] at h
  injection h with e
  exact e ▸ hm

/-- **C122.** The order of the pixels and the way `nth_element` works do not matter: neither of two medians is below the other. -/
theorem C122_unique (img img' : Image b) (hp : img.data.Perm img'.data) {nth nth'} (hn : NthElement (b := b) nth) (hn' : NthElement (b := b) nth')
    (p q : BitVec (8 * b.size)) (h : img.median nth = .ok p) (h' : img'.median nth' = .ok q) : ¬ PixelLess b p q ∧ ¬ PixelLess b q p := by
  have hw := ((C122_defined img hn).1 ⟨p, h⟩).2
  have h1 := C122_middle img hn p h
  have h2 := C122_middle img' hn' q h'
  unfold Middle at h2
  rw [← hp.mem_iff, ← hp.countP_eq, ← hp.countP_eq, ← hp.length_eq] at h2
  exact ⟨middle_unique hw h1 h2, middle_unique hw h2 h1⟩

open scoped Classical in
/-- **C122.** If all pixels are numbers, the median has the value that C22 describes. -/
theorem C122_value (img : Image b) (l : List ℚ) (h : Values img l) (hne : l ≠ []) {nth} (hn : NthElement (b := b) nth) :
    ∃ p m, img.median nth = .ok p ∧ PixelValue b p m ∧ Stats.median l = .ok m := by
  have hv := values_number h
  have hw : WeakOrder img.data := by
    rw [C122_ordered]
    rintro ⟨⟨p, hp, hnan⟩, -⟩
    have : b.number p ∈ img.data.map b.number := List.mem_map_of_mem hp
    rw [hv, pixelNaN_iff.1 hnan] at this
    simp at this
  have hne' : img.data ≠ [] := by
    intro e
    have := values_length h
    rw [e] at this
    exact hne (List.length_eq_zero_iff.1 this.symm)
  obtain ⟨p, hp⟩ := (C122_defined img hn).2 ⟨hne', hw⟩
  obtain ⟨h1, h2, h3⟩ := C122_middle img hn p hp
  have hm : b.number p ∈ l.map Dbl.num := hv ▸ List.mem_map_of_mem h1
  obtain ⟨m, hml, hpm⟩ := List.mem_map.1 hm
  refine ⟨p, m, hp, pixelValue_iff.2 hpm.symm, ?_⟩
  rw [C22_median_iff]
  have c1 : l.countP (fun x => decide (x < m)) = img.data.countP fun x => decide (PixelLess b x p) := by
    have e : (img.data.map b.number).countP (fun d => d.less (.num m)) = (l.map Dbl.num).countP fun d => d.less (.num m) := by rw [hv]
    rw [List.countP_map, List.countP_map] at e
    simp only [pixelLess_iff, ← hpm]
    refine (Eq.trans ?_ e.symm).trans ?_
    · congr 1
    · congr 1; funext x; simp
  have c2 : l.countP (fun x => decide (x ≤ m)) = img.data.countP fun x => decide ¬ PixelLess b p x := by
    have e : (img.data.map b.number).countP (fun d => !(Dbl.num m).less d) = (l.map Dbl.num).countP fun d => !(Dbl.num m).less d := by rw [hv]
    rw [List.countP_map, List.countP_map] at e
    simp only [pixelLess_iff, ← hpm]
    refine (Eq.trans ?_ e.symm).trans ?_
    · congr 1; funext x; simp [Dbl.less, ← not_lt]
    · congr 1; funext x; simp
  rw [c1, c2, ← values_length h]
  exact ⟨hml, h2, h3⟩

/-- A function as the standard requires exists: leave pixels with a NaN among them alone, sort the others. -/
theorem nth_exists : ∃ nth, NthElement (b := b) nth := by
  classical
  let le : BitVec (8 * b.size) → BitVec (8 * b.size) → Bool := fun p q =>
    decide (b.number p = .nan) || (!decide (b.number q = .nan) && !(b.number q).less (b.number p))
  have htrans : ∀ x y z, le x y = true → le y z = true → le x z = true := by
    intro x y z
    simp only [le]
    generalize b.number x = x
    generalize b.number y = y
    generalize b.number z = z
    cases x <;> cases y <;> cases z <;> simp [Dbl.less]
    · intro h1 h2; linarith
    all_goals grind
  have htotal : ∀ x y, (le x y || le y x) = true := by
    intro x y
    simp only [le]
    generalize b.number x = x
    generalize b.number y = y
    cases x <;> cases y <;> simp [Dbl.less]
    · exact (lt_or_ge _ _).symm.imp id le_of_lt
    all_goals grind
  refine ⟨fun l _ => if ∃ p ∈ l, PixelNaN b p then l else l.mergeSort le, fun l k hw => ?_⟩
  rw [C122_ordered] at hw
  dsimp only
  split
  · rename_i hnan
    refine ⟨List.Perm.refl _, fun i j x y _ _ hx hy hlt => hw ⟨hnan, y, List.mem_of_getElem? hy, x, List.mem_of_getElem? hx, hlt⟩⟩
  · rename_i hnan
    refine ⟨List.mergeSort_perm _ _, fun i j x y hi hj hx hy hlt => ?_⟩
    have hs := List.pairwise_mergeSort htrans htotal l
    have hxl : x ∈ l := (List.mergeSort_perm _ _).mem_iff.1 (List.mem_of_getElem? hx)
    rcases (hi.trans hj).eq_or_lt with e | hij
    · subst e
      rw [hx] at hy
      injection hy with e
      subst e
      rw [pixelLess_iff] at hlt
      revert hlt
      cases b.number x <;> simp [Dbl.less]
    · obtain ⟨h1, rfl⟩ := List.getElem?_eq_some_iff.1 hx
      obtain ⟨h2, rfl⟩ := List.getElem?_eq_some_iff.1 hy
      have := List.pairwise_iff_getElem.1 hs i j h1 h2 hij
      simp only [le, Bool.or_eq_true, Bool.and_eq_true, decide_eq_true_eq, Bool.not_eq_true', decide_eq_false_iff_not] at this
      rw [pixelLess_iff] at hlt
      rcases this with h | h
      · exact hnan ⟨_, hxl, pixelNaN_iff.2 h⟩
      · rw [hlt] at h
        exact Bool.noConfusion h.2

/-- Four pixels of 16 bits: the median is the third of them in order, not the mean of the second and third.  One NaN makes the median of two
numbers undefined. -/
example : ∃ nth : List (BitVec 16) → Nat → List (BitVec 16), NthElement (b := .B16) nth ∧ Image.median (b := .B16) nth ⟨[7, 1, 5, 2], none, none⟩ = .ok 5 := by
  obtain ⟨nth, h⟩ := nth_exists (b := .B16)
  refine ⟨nth, h, ?_⟩
  obtain ⟨p, m, h1, h2, h3⟩ := C122_value (b := .B16) ⟨[7, 1, 5, 2], none, none⟩ [7, 1, 5, 2] (by
    unfold Values
    simp only [List.forall₂_cons, List.forall₂_nil_right_iff]
    refine ⟨?_, ?_, ?_, ?_, trivial⟩ <;> simp [PixelValue, pixelFormat, Bitpix.size]) (by simp) h
  have e : Stats.median [7, 1, 5, 2] = .ok 5 := (C22_median_iff _ _).2 (by decide)
  rw [e] at h3
  injection h3 with h3
  subst h3
  have h4 := (C122_middle _ h p h1).1
  rw [h1]
  rw [pixelValue_iff] at h2
  simp at h4
  rcases h4 with rfl | rfl | rfl | rfl
  · revert h2; decide
  · revert h2; decide
  · rfl
  · revert h2; decide

example (nth : List (BitVec 64) → Nat → List (BitVec 64)) :
    Image.median (b := .F64) nth ⟨[0x7FF8000000000000, 0x3FF0000000000000, 0x4000000000000000], none, none⟩ = .error .ub := by
  have : Bitpix.ordered .F64 [0x7FF8000000000000, 0x3FF0000000000000, 0x4000000000000000] = false := by decide +kernel
  unfold Image.median
  rw [this]
  rfl

end Astro
