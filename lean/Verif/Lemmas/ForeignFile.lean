import Verif.Lemmas.ForeignCard
import Verif.Lemmas.FitsCopy
import Verif.Spec.ForeignFile
import Verif.Props.ForeignCard
import Verif.Props.FitsAny
import Verif.Props.HduKind

namespace Astro

open Spec Header

theorem roundUp_next {n e : Nat} (h : NextBoundary n e) : e = roundUp n + if 2880 ∣ n then 2880 else 0 := by
  obtain ⟨h1, h2, h3⟩ := h
  unfold roundUp
  split <;> omega

theorem roundUp_next_of {n : Nat} (h : ¬ 2880 ∣ n) : NextBoundary n (roundUp n) := by
  unfold roundUp NextBoundary; omega

theorem roundUp_add {p n : Nat} (h : 2880 ∣ p) : roundUp (p + n) = p + roundUp n := by
  unfold roundUp; omega

theorem says_declares {F : FloatText} {cards : List Str} {key : Str} {v : Val} {i : Int} (h : SaysInteger cards key i) (hv : numberOf v = some i) :
    Declares F cards key v.ty v := by
  obtain ⟨text, d, ⟨j, raw, gap, comment, h1, h2, h3, h4⟩, hi⟩ := h
  refine ⟨j, raw, h1, h2, ?_⟩
  have := ((C148_integer F raw text d gap comment i h3 hi).1 h4).1 v hv
  rwa [value_fresh] at this

theorem says_logical {F : FloatText} {cards : List Str} {key : Str} {b : Bool} (h : Says cards key (if b then b!"T" else b!"F")) :
    Declares F cards key .bool (.bool b) := by
  obtain ⟨j, raw, gap, comment, h1, h2, h3, h4⟩ := h
  refine ⟨j, raw, h1, h2, ?_⟩
  have := C148_logical F raw gap comment b h3
  rw [if_pos (show comment = none ∨ 0 < gap from h4)] at this
  rwa [value_fresh] at this

theorem bitpix_int {b : Bitpix} {i : Int} (h : BitpixValue b i) : ∃ v : BitVec 32, v.toInt = i := by
  refine ⟨BitVec.ofInt 32 i, ?_⟩
  cases b <;> simp only [BitpixValue] at h <;> subst h <;> decide

theorem bitpixValue_inj {b c : Bitpix} {i : Int} (h : BitpixValue b i) (h' : BitpixValue c i) : b = c := by
  cases b <;> cases c <;> simp only [BitpixValue] at h h' <;> first | rfl | omega

theorem size_natCast {a : Nat} (h : a < 2 ^ 64) : numberOf (.sizeT (BitVec.ofNat 64 a)) = some (a : Int) := by
  simp only [numberOf, BitVec.toNat_ofNat]
  rw [Nat.mod_eq_of_lt h]

theorem shapeCards_good {F : FloatText} {cards : List Str} {b : Bitpix} {axes : List Nat} (h : ShapeCards cards b axes) : GoodHeader F cards := by
  refine ⟨h.size, h.last, ?_, ?_⟩
  · obtain ⟨i, h1, h2⟩ := h.bitpix
    obtain ⟨v, hv⟩ := bitpix_int h2
    exact ⟨v, b, says_declares (v := .int v) h1 (by simp [numberOf, hv]), by rw [hv]; exact h2⟩
  · obtain ⟨h1, h2⟩ := h.naxis
    have hlt : axes.length < 2 ^ 64 := by omega
    refine ⟨BitVec.ofNat 64 axes.length, says_declares (v := .sizeT _) h1 (size_natCast hlt), ?_, ?_⟩
    · rw [BitVec.toNat_ofNat]; omega
    · intro j d hj1 hj2 hd
      rw [BitVec.toNat_ofNat, Nat.mod_eq_of_lt hlt] at hj2
      obtain ⟨k, rfl⟩ : ∃ k, j = k + 1 := ⟨j - 1, by omega⟩
      have hk : axes[k]? = some axes[k] := List.getElem?_eq_getElem (by omega)
      obtain ⟨g1, g2⟩ := h.axis k _ d hk hd
      exact ⟨_, says_declares (v := .sizeT _) g1 (size_natCast g2)⟩

theorem selected_value {F : FloatText} {cards : List Str} {k : Str} {t : Ty} {v w : Val} {i : Nat} {r : Str} (h : Declares F cards k t v)
    (h1 : Selected cards k i) (h2 : cards[i]? = some r) (h3 : Card.valueImp F r t = .ok w) : w = v := by
  obtain ⟨j, r', g1, g2, g3⟩ := h
  have hij : i = j := by
    rcases h1 with h1 | ⟨h1, _⟩
    · exact lastWith_fun h1 g1
    · exact absurd h1 (lastWith_not_absent g1)
  subst hij
  rw [h2] at g2; cases g2
  rw [h3] at g3; cases g3; rfl

/-- The header of a standard HDU is read with its cards, pixel type and axes. -/
theorem shapeCards_read {F : FloatText} {cards : List Str} {b : Bitpix} {axes : List Nat} (h : ShapeCards cards b axes) (pre rest : Str) :
    ∃ h' s', readHeader F cards.length Header.empty { Stream.openRead (pre ++ cards.flatten ++ rest) with pos := pre.length } = some (.ok (h', s')) ∧
      h'.cards.map (·.raw) = cards ∧ h'.bitpix = some b ∧ h'.naxis = axes ∧ (∀ k, HeaderKey h' k → ¬ Absent (h'.cards.map (·.raw)) k) := by
  have hgood := shapeCards_good (F := F) h
  obtain ⟨h', hi⟩ := goodHeader_interpret hgood
  have hr := readCards_list (pre := pre) (rest := rest) (raws := cards)
    (s := { Stream.openRead (pre ++ cards.flatten ++ rest) with pos := pre.length }) rfl (by simp [Stream.openRead]) rfl hgood.size hgood.last
    Header.empty cards.length le_rfl
  have hraws : h'.cards.map (·.raw) = cards := by
    obtain ⟨b, hread, _⟩ := interpret_ok hi
    rw [hread.raws, addCards_cards]; simp [Header.empty, Function.comp_def]
  have he : readHeader F cards.length Header.empty { Stream.openRead (pre ++ cards.flatten ++ rest) with pos := pre.length } =
      some (.ok (h', { Stream.openRead (pre ++ cards.flatten ++ rest) with pos := pre.length + 80 * cards.length })) := by
    unfold readHeader
    rw [hr]
    simp only
    rw [hi]
  obtain ⟨⟨i1, r1, v1, b1, p1, p2, p3, p4, p5⟩, ⟨i2, r2, v2, q1, q2, q3, q4⟩, hax⟩ := C29_values F _ _ _ h' rfl he
  rw [hraws] at p1 p2 q1 q2 hax
  have hbit : b1 = b := by
    obtain ⟨i, g1, g2⟩ := h.bitpix
    obtain ⟨v, hv⟩ := bitpix_int g2
    have := selected_value (says_declares (F := F) (v := .int v) g1 (by simp [numberOf, hv])) p1 p2 p3
    cases this
    rw [hv] at p5
    exact bitpixValue_inj p5 g2
  subst hbit
  obtain ⟨n1, n2⟩ := h.naxis
  have hlt : axes.length < 2 ^ 64 := by omega
  have hlen : h'.naxis.length = axes.length := by
    have := selected_value (says_declares (F := F) (v := .sizeT _) n1 (size_natCast hlt)) q1 q2 q3
    cases this
    rw [q4, BitVec.toNat_ofNat, Nat.mod_eq_of_lt hlt]
  have hnaxis : h'.naxis = axes := by
    refine List.ext_getElem hlen fun j hj1 hj2 => ?_
    obtain ⟨i, r, v, g1, g2, g3, g4⟩ := hax j _ hj1 (showNat_isNat (j + 1))
    obtain ⟨a1, a2⟩ := h.axis j _ _ (List.getElem?_eq_getElem hj2) (showNat_isNat (j + 1))
    have := selected_value (says_declares (F := F) (v := .sizeT _) a1 (size_natCast a2)) g1 g2 g3
    cases this
    rw [g4, BitVec.toNat_ofNat, Nat.mod_eq_of_lt a2]
  refine ⟨h', _, he, hraws, p4, hnaxis, ?_⟩
  have present : ∀ k t v, Declares F cards k t v → ¬ Absent cards k := fun k t v ⟨_, _, g, _⟩ => lastWith_not_absent g
  rw [hraws]
  rintro k (rfl | rfl | ⟨j, d, j1, j2, hd, rfl⟩)
  · obtain ⟨v, _, hv, _⟩ := hgood.bitpix
    exact present _ _ _ hv
  · obtain ⟨n, hn, _⟩ := hgood.axes
    exact present _ _ _ hn
  · rw [hlen] at j2
    obtain ⟨k, rfl⟩ : ∃ k, j = k + 1 := ⟨j - 1, by omega⟩
    obtain ⟨g1, g2⟩ := h.axis k _ d (List.getElem?_eq_getElem (by omega)) hd
    exact present _ _ _ (says_declares (F := F) (v := .sizeT _) g1 (size_natCast g2))

theorem imageCards_name {F : FloatText} {cards : List Str} {b : Bitpix} {axes : List Nat} (hh : ImageCards cards b axes) {fuel : Nat} {s s' : Stream}
    {h : Header} (hg : s.good = true) (e : readHeader F fuel Header.empty s = some (.ok (h, s'))) (hr : h.cards.map (·.raw) = cards)
    (hp : ∀ k, HeaderKey h k → ¬ Absent (h.cards.map (·.raw)) k) : ∃ h1, h.getHduName F = (h1, .ok b!"primary_hdu") := by
  have hn := (C34_name F fuel s s' h hg e hp).2.2.1 (by rw [hr]; exact hh.noXtension) true
    (by rw [hr]; exact says_logical (b := true) hh.simple)
  exact ⟨(h.getHduName F).1, by rw [← hn]⟩

theorem imageCards_simple {F : FloatText} {cards : List Str} {b : Bitpix} {axes : List Nat} (hh : ImageCards cards b axes) :
    Lookup F cards b!"SIMPLE" .bool (.ok (.bool true)) := lookup_ok.2 (says_logical (b := true) hh.simple)

theorem pixelCount_size {h : Header} {axes : List Nat} (hn : h.naxis = axes) (hlt : pixelCount axes < 2 ^ 64) : h.dataSize = pixelCount axes := by
  rw [C29_data_size, hn]
  unfold pixelCount at hlt ⊢
  split
  · rfl
  · rename_i hne
    rw [if_neg hne] at hlt
    exact Nat.mod_eq_of_lt hlt

theorem bitpix_size_pos (b : Bitpix) : 0 < b.size ∧ b.size ≤ 8 := by cases b <;> decide

theorem announces_image {h : Header} {b : Bitpix} {axes : List Nat} {n : Nat} (hb : h.bitpix = some b) (hn : h.naxis = axes)
    (hd : n = pixelCount axes * b.size) (hlt : n < 2 ^ 64) :
    h.dataSize = pixelCount axes ∧ (h.dataSize = 0 ↔ n = 0) ∧ DataBytes h n := by
  have hs := bitpix_size_pos b
  have hp : pixelCount axes < 2 ^ 64 := by
    have : pixelCount axes * 1 ≤ pixelCount axes * b.size := Nat.mul_le_mul_left _ hs.1
    omega
  have e := pixelCount_size hn hp
  refine ⟨e, ?_, b, hb, ?_⟩
  · rw [e, hd]
    constructor
    · intro h; rw [h, Nat.zero_mul]
    · intro h
      rcases Nat.mul_eq_zero.1 h with h | h
      · exact h
      · omega
  · rw [e, ← hd, Nat.mod_eq_of_lt hlt]

/-- Where the reader looks for the next HDU behind an HDU whose header does not fill its blocks exactly. -/
def afterForeign (place cards data : Nat) : Nat := place + roundUp (80 * cards) + roundUp data + (if data ≠ 0 ∧ 2880 ∣ data then 2880 else 0)

theorem foreign_window {content pre fill data rest : Str} {cards : List Str} {b : Bitpix} {axes : List Nat}
    (hc : content = pre ++ cards.flatten ++ fill ++ data ++ rest) (hh : ShapeCards cards b axes)
    (hfill : 80 * cards.length + fill.length = roundUp (80 * cards.length)) :
    window content (pre.length + roundUp (80 * cards.length)) data.length = data := by
  have hflat : cards.flatten.length = 80 * cards.length := flatten_length80 cards fun r hr => (hh.size r hr).1
  have := window_at (pre ++ cards.flatten ++ fill) data rest
  rw [hc]
  have e1 : (pre ++ cards.flatten ++ fill).length = pre.length + roundUp (80 * cards.length) := by
    simp only [List.length_append, hflat]; omega
  rwa [e1] at this

/-- An HDU in the layout of the standard is complete for the reader if its header does not fill its blocks exactly. -/
theorem foreign_entry {F : FloatText} {content pre fill data rest : Str} {cards : List Str} {b : Bitpix} {axes : List Nat}
    (hc : content = pre ++ cards.flatten ++ fill ++ data ++ rest) (hpre : 2880 ∣ pre.length) (hh : ShapeCards cards b axes) (h36 : ¬ 36 ∣ cards.length)
    (hfill : 80 * cards.length + fill.length = roundUp (80 * cards.length)) (hd : data.length = pixelCount axes * b.size)
    (hb : content.length + 5760 < 2 ^ 63) {fuel : Nat} {h h1 : Header} {s' : Stream} {name : Str} {x : Hdu}
    (he : readHeader F fuel Header.empty { Stream.openRead content with pos := pre.length } = some (.ok (h, s')))
    (hr : h.cards.map (·.raw) = cards) (hbp : h.bitpix = some b) (hn : h.naxis = axes) (en : h.getHduName F = (h1, .ok name))
    (c1 : Hdu.construct F h1 data = .ok x) :
    Complete F content ⟨pre.length, h, pre.length + roundUp (80 * cards.length), data.length, afterForeign pre.length cards.length data.length, name, x⟩ := by
  have hflat : cards.flatten.length = 80 * cards.length := flatten_length80 cards fun r hr => (hh.size r hr).1
  have hlen : content.length = pre.length + roundUp (80 * cards.length) + data.length + rest.length := by
    rw [hc]; simp only [List.length_append, hflat]; omega
  have hcl : h.cards.length = cards.length := by rw [← hr, List.length_map]
  obtain ⟨d1, d2, d3⟩ := announces_image (n := data.length) hbp hn hd (by omega)
  have hdl : NextBoundary (pre.length + 80 * cards.length) (pre.length + roundUp (80 * cards.length)) := by
    rw [← roundUp_add hpre]; exact roundUp_next_of (by omega)
  refine ⟨⟨⟨_, s', he⟩, ?_, ?_, ?_, ?_, ?_⟩, ?_, h1, en, ?_⟩
  · simp only; unfold roundUp at hlen; have : cards.length ≠ 0 := by rintro h; rw [h] at h36; simp at h36
    omega
  · simp only; rw [hcl, hlen]; unfold roundUp; omega
  · simp only; rw [hcl]; exact hdl
  · intro hz
    have hz' := d2.1 hz
    refine ⟨hz', ?_⟩
    simp only [afterForeign]
    rw [if_neg (fun h => h.1 hz'), hz']; rfl
  · intro hz
    have hz' : data.length ≠ 0 := fun h => hz (d2.2 h)
    refine ⟨d3, ?_⟩
    simp only [afterForeign]
    have hdl2 : 2880 ∣ pre.length + roundUp (80 * cards.length) := hdl.1
    by_cases hq : 2880 ∣ data.length
    · rw [if_pos ⟨hz', hq⟩]; unfold roundUp NextBoundary at *; omega
    · rw [if_neg (fun h => hq h.2)]; unfold roundUp NextBoundary at *; omega
  · right; simp only; omega
  · simp only
    rw [foreign_window hc hh hfill]; exact c1

end Astro
