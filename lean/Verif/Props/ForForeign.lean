import Verif.Spec.ForeignFiles
import Verif.Props.FitsWrite

/-
Property C152: files for other programs.
-/

namespace Astro

open Spec Header Reader

theorem laid_length {us : List ForeignHdu} {c : Str} (h : Laid us c) (h80 : ∀ u ∈ us, ∀ r ∈ u.cards, r.length = 80) :
    c.length = (us.map fun u => roundUp (80 * u.cards.length) + roundUp u.data.length).sum := by
  induction h with
  | nil => rfl
  | @cons u us fill tail more h1 h2 _ ih =>
    have hf := flatten_length80 _ (h80 u List.mem_cons_self)
    simp only [List.length_append, hf, ih fun v hv => h80 v (List.mem_cons_of_mem _ hv), List.map_cons, List.sum_cons]
    omega

theorem filled_length {a u : Str} (h : Filled a u) : u.length = roundUp a.length + (if 2880 ∣ a.length then 2880 else 0) := by
  obtain ⟨k, rfl, h1, h2, h3⟩ := h
  rw [List.length_append, List.length_replicate] at *
  unfold roundUp
  split <;> omega

/-- The HDUs of a written file with their bytes. -/
theorem written_units {hdus : List Hdu} {texts : List Str} (h : List.Forall₂ HduText hdus texts) (hb : Hdu.blank ∉ hdus) :
    ∃ us : List ForeignHdu, List.Forall₂ (fun x u => Holds x u.cards u.data) hdus us ∧
      List.Forall₂ (fun (u : ForeignHdu) t => ∃ u1 u2, Filled u.cards.flatten u1 ∧ Filled u.data u2 ∧ t = u1 ++ u2) us texts := by
  induction h with
  | nil => exact ⟨[], .nil, .nil⟩
  | @cons x t xs ts hx _ ih =>
    obtain ⟨us, h1, h2⟩ := ih fun h => hb (List.mem_cons_of_mem _ h)
    cases x with
    | blank => exact absurd List.mem_cons_self hb
    | primary p => obtain ⟨cards, data, u1, u2, k1, k2, k3, k4⟩ := hx; exact ⟨⟨cards, data⟩ :: us, .cons k1 h1, .cons ⟨u1, u2, k2, k3, k4⟩ h2⟩
    | binary p => obtain ⟨cards, data, u1, u2, k1, k2, k3, k4⟩ := hx; exact ⟨⟨cards, data⟩ :: us, .cons k1 h1, .cons ⟨u1, u2, k2, k3, k4⟩ h2⟩
    | ascii p => obtain ⟨cards, data, u1, u2, k1, k2, k3, k4⟩ := hx; exact ⟨⟨cards, data⟩ :: us, .cons k1 h1, .cons ⟨u1, u2, k2, k3, k4⟩ h2⟩

theorem written_laid {us : List ForeignHdu} {texts : List Str}
    (h : List.Forall₂ (fun (u : ForeignHdu) t => ∃ u1 u2, Filled u.cards.flatten u1 ∧ Filled u.data u2 ∧ t = u1 ++ u2) us texts)
    (h80 : ∀ u ∈ us, ∀ r ∈ u.cards, r.length = 80) (hg : ∀ u ∈ us, ¬ 36 ∣ u.cards.length ∧ ¬ 2880 ∣ u.data.length) : Laid us texts.flatten := by
  induction h with
  | nil => exact .nil
  | @cons u t us ts hx _ ih =>
    have ih := ih (fun v hv => h80 v (List.mem_cons_of_mem _ hv)) (fun v hv => hg v (List.mem_cons_of_mem _ hv))
    obtain ⟨u1, u2, k1, k2, rfl⟩ := hx
    have l1 := filled_length k1
    have l2 := filled_length k2
    obtain ⟨g1, g2⟩ := hg u List.mem_cons_self
    rw [flatten_length80 _ (h80 u List.mem_cons_self), if_neg (by omega)] at l1
    rw [if_neg g2] at l2
    obtain ⟨k, rfl, _⟩ := k1
    obtain ⟨k', rfl, _⟩ := k2
    rw [List.length_append, flatten_length80 _ (h80 u List.mem_cons_self)] at l1
    rw [List.length_append] at l2
    rw [List.flatten_cons, show u.cards.flatten ++ List.replicate k 32 ++ (u.data ++ List.replicate k' 32) = u.cards.flatten ++ List.replicate k 32 ++ u.data ++ List.replicate k' 32 by
      simp only [List.append_assoc]]
    exact .cons (l1.trans (Nat.add_zero _)) (l2.trans (Nat.add_zero _)) ih

theorem written_length {us : List ForeignHdu} {texts : List Str}
    (h : List.Forall₂ (fun (u : ForeignHdu) t => ∃ u1 u2, Filled u.cards.flatten u1 ∧ Filled u.data u2 ∧ t = u1 ++ u2) us texts)
    (h80 : ∀ u ∈ us, ∀ r ∈ u.cards, r.length = 80) :
    (us.map fun u => roundUp (80 * u.cards.length) + roundUp u.data.length).sum ≤ texts.flatten.length ∧
    ((∃ u ∈ us, 36 ∣ u.cards.length ∨ 2880 ∣ u.data.length) → (us.map fun u => roundUp (80 * u.cards.length) + roundUp u.data.length).sum < texts.flatten.length) := by
  induction h with
  | nil => simp
  | @cons u t us ts hx _ ih =>
    obtain ⟨ih1, ih2⟩ := ih (fun v hv => h80 v (List.mem_cons_of_mem _ hv))
    obtain ⟨u1, u2, k1, k2, rfl⟩ := hx
    have l1 := filled_length k1
    have l2 := filled_length k2
    rw [flatten_length80 _ (h80 u List.mem_cons_self)] at l1
    simp only [List.flatten_cons, List.length_append, List.map_cons, List.sum_cons]
    refine ⟨by omega, ?_⟩
    rintro ⟨v, hv, hq⟩
    rcases List.mem_cons.1 hv with rfl | hv
    · rcases hq with hq | hq
      · rw [if_pos (by omega)] at l1; omega
      · rw [if_pos hq] at l2; omega
    · have := ih2 ⟨v, hv, hq⟩; omega

theorem forall2_mem_right {α β : Type} {R : α → β → Prop} {l : List α} {m : List β} (h : List.Forall₂ R l m) {b : β} (hb : b ∈ m) : ∃ a ∈ l, R a b := by
  induction h with
  | nil => simp at hb
  | cons hr _ ih =>
    rcases List.mem_cons.1 hb with rfl | hb
    · exact ⟨_, List.mem_cons_self, hr⟩
    · obtain ⟨a, ha, hr⟩ := ih hb
      exact ⟨a, List.mem_cons_of_mem _ ha, hr⟩

theorem holds_cards {x : Hdu} {cards : List Str} {data : Str} (h : Holds x cards data) : cards = cardsOf x := by
  cases x with
  | blank => cases h
  | primary p => exact h.1
  | ascii p => exact h.1
  | binary p => exact h.1

theorem flatten_length_const {l : List Str} {n : Nat} (h : ∀ x ∈ l, x.length = n) : l.flatten.length = l.length * n := by
  induction l with
  | nil => simp
  | cons a l ih =>
    rw [List.flatten_cons, List.length_append, ih fun x hx => h x (List.mem_cons_of_mem _ hx), h a List.mem_cons_self, List.length_cons, Nat.add_mul]
    omega

theorem forall2_split {α β : Type} {R : α → β → Prop} : ∀ {a b : List α} {m : List β}, List.Forall₂ R (a ++ b) m →
    ∃ m1 m2, m = m1 ++ m2 ∧ List.Forall₂ R a m1 ∧ List.Forall₂ R b m2
  | [], _, m, h => ⟨[], m, rfl, .nil, h⟩
  | _ :: _, _, _, .cons h1 h2 => by
    obtain ⟨m1, m2, rfl, k1, k2⟩ := forall2_split h2
    exact ⟨_ :: m1, m2, rfl, .cons h1 k1, k2⟩

theorem laid_join {us vs : List ForeignHdu} {c d : Str} (h : Laid us c) (h' : Laid vs d) : Laid (us ++ vs) (c ++ d) := by
  induction h with
  | nil => exact h'
  | cons h1 h2 _ ih =>
    have := Laid.cons h1 h2 ih
    simpa only [List.append_assoc, List.cons_append] using this

/-- **C152** A file written by the library is laid out as the standard says (each unit filled up to the least multiple of 2880 bytes) exactly if no header has a multiple of 36
cards and every HDU has data that do not fill their blocks exactly; in particular never if there is an HDU without data: where such an HDU ends for another program, and the next
HDU should begin, there is a block of blanks. -/
theorem C152_layout (hdus : List Hdu) (s : Stream) (e : writeAll hdus = .ok s) (hb : s.content.length + 2880 < 2 ^ 63) (hk : Hdu.blank ∉ hdus)
    (h80 : ∀ x ∈ hdus, ∀ r ∈ cardsOf x, r.length = 80) :
    ∃ us : List ForeignHdu, List.Forall₂ (fun x u => Holds x u.cards u.data) hdus us ∧
      (Laid us s.content ↔ ∀ u ∈ us, ¬ 36 ∣ u.cards.length ∧ ¬ 2880 ∣ u.data.length) ∧
      ∀ a u b, us = a ++ u :: b → (∀ v ∈ a, ¬ 36 ∣ v.cards.length ∧ ¬ 2880 ∣ v.data.length) → ¬ 36 ∣ u.cards.length → u.data = [] →
        ∃ p, Laid (a ++ [u]) (s.content.take p) ∧ (s.content.drop p).take 2880 = List.replicate 2880 32 := by
  obtain ⟨texts, h1, h2⟩ := C35_written hdus s e hb
  obtain ⟨us, g1, g2⟩ := written_units h2 hk
  have h80' : ∀ u ∈ us, ∀ r ∈ u.cards, r.length = 80 := by
    intro u hu
    obtain ⟨x, hx, hxu⟩ := forall2_mem_right g1 hu
    rw [holds_cards hxu]
    exact h80 x hx
  refine ⟨us, g1, ⟨?_, fun hg => h1 ▸ written_laid g2 h80' hg⟩, ?_⟩
  · intro hl u hu
    obtain ⟨_, k2⟩ := written_length g2 h80'
    have := laid_length hl h80'
    rw [h1] at this
    constructor <;> intro hq
    · have := k2 ⟨u, hu, .inl hq⟩; omega
    · have := k2 ⟨u, hu, .inr hq⟩; omega
  · rintro a u b rfl ha hu h0
    obtain ⟨t1, t2, rfl, q1, q2⟩ := forall2_split g2
    obtain _ | @⟨_, _, _, rest, ⟨u1, u2, q3, q4, rfl⟩, q5⟩ := q2
    have l1 := filled_length q3
    have hu80 := h80' u (by simp)
    rw [flatten_length80 _ hu80, if_neg (by omega), Nat.add_zero] at l1
    obtain ⟨k, rfl, _⟩ := q3
    rw [List.length_append, flatten_length80 _ hu80] at l1
    rw [h0] at q4
    have l2 := filled_length q4
    rw [if_pos (by simp)] at l2
    obtain ⟨k', rfl, _⟩ := q4
    rw [List.nil_append, List.length_replicate] at l2
    have hk' : k' = 2880 := l2
    subst hk'
    have hl := laid_join (written_laid q1 (fun v hv => h80' v (by simp [hv])) ha) (.cons (u := u) (tail := []) l1 (by rw [h0]; rfl) .nil)
    have hc : s.content = (t1.flatten ++ (u.cards.flatten ++ List.replicate k 32)) ++ (List.replicate 2880 32 ++ rest.flatten) := by
      rw [h1]; simp only [List.flatten_append, List.flatten_cons, List.nil_append, List.append_assoc]
    refine ⟨(t1.flatten ++ (u.cards.flatten ++ List.replicate k 32)).length, ?_, ?_⟩
    · rw [hc, List.take_left]
      rw [h0] at hl
      simpa only [List.append_nil] using hl
    · rw [hc, List.drop_left, List.take_left' (by rw [List.length_replicate])]

/-- How many bytes a pixel or a byte of a table takes. -/
def unitSize : Hdu → Nat
  | .primary p => p.data.kind.size
  | _ => 1

/-- **C152** The data of an HDU that fit its header are as long as the header announces. -/
theorem C152_length (h : Header) (x : Hdu) (cards : List Str) (data : Str) (hf : DataFits h x) (hx : Holds x cards data) :
    data.length = pixelCount h.naxis * unitSize x := by
  cases x with
  | blank => cases hf
  | primary p =>
    obtain ⟨_, px, rfl, h1, h2⟩ := hx
    obtain ⟨_, _, h3, h4⟩ := hf
    have : ∀ s ∈ px, s.length = p.data.kind.size := by
      intro s hs
      obtain ⟨i, hi⟩ := List.mem_iff_getElem?.1 hs
      have hi' : i < p.data.img.data.length := by rw [← h1]; exact (List.getElem?_eq_some_iff.1 hi).1
      exact (h2 i _ s (List.getElem?_eq_getElem hi') hi).1
    rw [flatten_length_const this, h1, h4]
    simp only [pixelCount, if_neg h3, unitSize]
  | ascii t =>
    obtain ⟨_, fields, rfl, h1, h2⟩ := hx
    obtain ⟨ws, k1, _, k3, k4, _, _, _, k8⟩ := hf
    have hrow : ∀ row ∈ fields.map List.flatten, row.length = ws.sum := by
      intro f hm
      obtain ⟨frow, hm', rfl⟩ := List.mem_map.1 hm
      obtain ⟨r, hr⟩ := List.mem_iff_getElem?.1 hm'
      have hr' : r < t.data.length := by rw [← h1]; exact (List.getElem?_eq_some_iff.1 hr).1
      obtain ⟨g1, g2⟩ := h2 r _ frow (List.getElem?_eq_getElem hr') hr
      obtain ⟨g3, _⟩ := k8 _ (List.getElem_mem hr')
      rw [List.length_flatten]
      congr 1
      refine List.ext_getElem (by rw [List.length_map]; omega) fun j hj1 hj2 => ?_
      rw [List.length_map] at hj1
      rw [List.getElem_map]
      obtain ⟨c, w, q1, q2, q3⟩ := g2 j _ _ (List.getElem?_eq_getElem (by omega)) (List.getElem?_eq_getElem hj1)
      obtain ⟨_, _, _, q4⟩ := q3
      rw [q4]
      exact asciiWidth_unique _ _ _ q2 (widths_get k1 j _ _ (by rw [List.getElem?_map, q1]; rfl) (List.getElem?_eq_getElem hj2))
    have := flatten_length_const hrow
    rw [List.flatten_flatten, this, List.length_map, h1, k3]
    simp [pixelCount, unitSize, Nat.mul_comm]
  | binary t =>
    obtain ⟨_, rfl⟩ := hx
    obtain ⟨ws, _, _, k3, _, _, k6⟩ := hf
    have hrow : ∀ row ∈ t.data.map List.flatten, row.length = ws.sum := by
      intro f hf
      obtain ⟨row, hr, rfl⟩ := List.mem_map.1 hf
      rw [List.length_flatten, (k6 row hr).1]
    have := flatten_length_const hrow
    rw [List.flatten_flatten, this, List.length_map, k3]
    simp [pixelCount, unitSize, Nat.mul_comm]

/-- A binary table with one card and the given rows. -/
def exForOthers (rows : List (List Str)) : Hdu :=
  .binary ⟨{ Header.empty with cards := [⟨List.replicate 80 65, none⟩] }, 1, 0, [], 1, [], rows⟩

theorem exForOthers_layout (rows : List (List Str)) (n : Nat) (hr : rows.flatten.flatten.length = n) (s : Stream) (e : writeAll [exForOthers rows] = .ok s)
    (hs : s.content.length = 5760) : Laid [⟨[List.replicate 80 65], rows.flatten.flatten⟩] s.content ↔ ¬ 2880 ∣ n := by
  obtain ⟨us, h1, h2, _⟩ := C152_layout _ s e (by rw [hs]; decide) (by intro h; cases h with | tail _ h => cases h) (by
    intro x hx r hr
    obtain rfl := List.mem_singleton.1 hx
    obtain rfl := List.mem_singleton.1 (show r ∈ [List.replicate 80 65] from hr)
    rfl)
  obtain ⟨u, rfl⟩ := List.length_eq_one_iff.1 h1.length_eq.symm
  cases h1 with
  | cons h1 _ =>
    obtain ⟨k1, k2⟩ := h1
    obtain ⟨c, d⟩ := u
    simp only at k1 k2
    subst k1 k2
    refine h2.trans ⟨fun h => hr ▸ (h _ List.mem_cons_self).2, fun h u hu => ?_⟩
    obtain rfl := List.mem_singleton.1 hu
    exact ⟨show ¬ 36 ∣ 1 by decide, by simpa only [hr] using h⟩

/-- A table of three bytes is written as the standard says; without rows it is not. -/
example : ∃ s s', writeAll [exForOthers [[b!"a", b!"bc"]]] = .ok s ∧ writeAll [exForOthers []] = .ok s' ∧
    Laid [⟨[List.replicate 80 65], b!"abc"⟩] s.content ∧ ¬ Laid [⟨[List.replicate 80 65], []⟩] s'.content := by
  refine ⟨_, _, rfl, rfl, ?_, ?_⟩
  · exact (exForOthers_layout [[b!"a", b!"bc"]] 3 rfl _ rfl (by decide +kernel)).2 (by decide)
  · exact fun h => (exForOthers_layout [] 0 rfl _ rfl (by decide +kernel)).1 h (by decide)

/-- Three pixels of 16 bits are six bytes. -/
example (data : Str) (hx : Holds (.primary ⟨Header.empty, ⟨.B16, { (Image.fresh : Image .B16) with data := [1, 2, 3] }⟩, true, true⟩) [] data) : data.length = 6 :=
  C152_length { Header.empty with naxis := [3] }
    (.primary ⟨Header.empty, ⟨.B16, { (Image.fresh : Image .B16) with data := [1, 2, 3] }⟩, true, true⟩) _ _ ⟨by decide, List.cons_ne_nil _ _, List.cons_ne_nil _ _, rfl⟩ hx

end Astro
