import Verif.Lemmas.Fits
import Verif.Props.TableNames

/-
Property C34: the name and the kind of an HDU.
-/

namespace Astro

open Spec Header

/-! ### which cards are cached after reading a header -/

/-- Every cached card is one that the index gives for a keyword with the property `P`. -/
def CachedOnly (P : Str → Prop) (h : Header) : Prop :=
  ∀ (i : Nat) (c : Card), h.cards[i]? = some c → c.cache ≠ none → ∃ k, P k ∧ h.keyIndex k = some i

theorem CachedOnly.indexOf {P : Str → Prop} {h : Header} (ho : CachedOnly P h) (k : Str) :
    CachedOnly P (h.indexOf k).1 ∧ (h.indexOf k).1.keyIndex k = some (h.indexOf k).2 := by
  unfold Header.indexOf
  cases hk : h.keyIndex k with
  | some i => exact ⟨ho, hk⟩
  | none =>
    refine ⟨?_, by simp [setKey]⟩
    intro i c hc hn
    obtain ⟨k', h1, h2⟩ := ho i c hc hn
    refine ⟨k', h1, ?_⟩
    have : k' ≠ k := by rintro rfl; rw [hk] at h2; cases h2
    simp only [setKey, if_neg this]
    exact h2

theorem CachedOnly.cardValue {P : Str → Prop} {F : FloatText} {h : Header} (ho : CachedOnly P h) {k : Str} (hp : P k) {i : Nat}
    (hk : h.keyIndex k = some i) (t : Ty) : CachedOnly P (h.cardValue F i t).1 := by
  unfold Header.cardValue
  cases hc : h.cards[i]? with
  | none => exact ho
  | some c =>
    simp only
    intro j c' hc' hn
    by_cases hij : i = j
    · subst hij; exact ⟨k, hp, hk⟩
    · simp only [List.getElem?_set_ne hij] at hc'
      exact ho j c' hc' hn

theorem CachedOnly.sizeValue {P : Str → Prop} {F : FloatText} {h h' : Header} (ho : CachedOnly P h) {k : Str} (hp : P k) {n : Nat}
    (e : h.sizeValue F k = .ok (h', n)) : CachedOnly P h' := by
  unfold Header.sizeValue at e
  obtain ⟨h1, h2⟩ := ho.indexOf k
  generalize h.indexOf k = x at *
  obtain ⟨ha, i⟩ := x
  simp only at *
  have h3 := h1.cardValue (F := F) hp h2 .sizeT
  generalize ha.cardValue F i .sizeT = y at *
  obtain ⟨hb, r⟩ := y
  cases r with
  | error e' => cases e
  | ok v =>
    cases v with
    | sizeT v => cases e; exact h3
    | _ => cases e

theorem CachedOnly.readAxes {F : FloatText} : ∀ (n i : Nat) {h h' : Header}, CachedOnly AxisKey h → Header.readAxes F n i h = .ok h' → CachedOnly AxisKey h'
  | 0, _, _, _, ho, e => by cases e; exact ho
  | n + 1, i, h, h', ho, e => by
    unfold Header.readAxes at e
    obtain ⟨⟨h1, v⟩, e1, e2⟩ := bind_ok e
    have h2 : CachedOnly AxisKey h1 := ho.sizeValue (.inr ⟨_, rfl⟩) e1
    exact CachedOnly.readAxes n (i + 1) (h := { h1 with naxis := h1.naxis ++ [v] }) h2 e2

theorem CachedOnly.interpret {F : FloatText} {h h' : Header} (ho : CachedOnly AxisKey h) (e : h.interpret F = .ok h') : CachedOnly AxisKey h' := by
  unfold Header.interpret at e
  obtain ⟨h1, h2⟩ := ho.indexOf b!"BITPIX"
  generalize h.indexOf b!"BITPIX" = x at *
  obtain ⟨ha, i⟩ := x
  simp only at *
  have h3 := h1.cardValue (F := F) (.inl rfl) h2 .int
  generalize ha.cardValue F i .int = y at *
  obtain ⟨hb, r⟩ := y
  cases r with
  | error e' => cases e
  | ok v =>
    cases v with
    | int v =>
      simp only at e
      cases hv : bitpixOf v.toInt with
      | none => rw [hv] at e; cases e
      | some b =>
        rw [hv] at e
        simp only at e
        obtain ⟨⟨hc, n⟩, e1, e2⟩ := bind_ok e
        simp only at e2
        split at e2
        · cases e2
        · exact CachedOnly.readAxes n 1 (CachedOnly.sizeValue (h := { hb with bitpix := some b }) h3 (.inr ⟨[], rfl⟩) e1) e2
    | _ => cases e

/-- After reading a header in which all keywords read_header looks for are present, no other card is cached. -/
theorem uncached {F : FloatText} {fuel : Nat} {s s' : Stream} {h : Header} (hg : s.good = true)
    (e : readHeader F fuel Header.empty s = some (.ok (h, s'))) (hp : ∀ k, HeaderKey h k → ¬ Absent (h.cards.map (·.raw)) k)
    {k : Str} (hk : ¬ AxisKey k) {i : Nat} (hl : LastWith (h.cards.map (·.raw)) k i) : ∃ c, h.cards[i]? = some c ∧ c.cache = none := by
  obtain ⟨h1, _, hc0, _, _, hint⟩ := readHeader_facts hg e
  have ho : CachedOnly AxisKey h := CachedOnly.interpret (fun i c hc hn => absurd (hc0 c (List.mem_of_getElem? hc)) hn) hint
  obtain ⟨hlt, hkw, _⟩ := hl
  rw [List.length_map] at hlt
  refine ⟨h.cards[i], List.getElem?_eq_getElem hlt, Classical.byContradiction fun hn => ?_⟩
  obtain ⟨k', g1, g2⟩ := ho i _ (List.getElem?_eq_getElem hlt) hn
  rcases (C28_index F fuel s s' h hg e k' i).1 g2 with hl' | ⟨ha, hkey, _⟩
  · obtain ⟨_, hkw', _⟩ := hl'
    rw [keywordIs_iff] at hkw hkw'
    rw [hkw] at hkw'
    exact hk (hkw' ▸ g1)
  · exact hp k' hkey ha

/-! ## C34 -/

theorem valueImp_string (F : FloatText) (r : Str) (hl : 9 ≤ r.length) :
    (∃ s, Card.valueImp F r .string = .ok (.string s)) ∨ Card.valueImp F r .string = .error .ub := by
  unfold Card.valueImp
  obtain ⟨x, hx⟩ : ∃ x, Policy.extractValue r = .ok x := ⟨_, by unfold Policy.extractValue; rw [substr_ok hl]⟩
  rw [hx]
  simp only [bind, Except.bind]
  generalize trim x = y
  cases y with
  | nil => exact .inl ⟨_, rfl⟩
  | cons c t =>
    simp only
    split
    · split
      · exact .inr rfl
      · exact .inl ⟨_, rfl⟩
    · exact .inl ⟨_, rfl⟩

/-- Reading a keyword of a header in which it is present and not cached. -/
theorem valueOf_uncached {F : FloatText} {h : Header} {k : Str} {i : Nat} {c : Card} {t : Ty} (hk : h.keyIndex k = some i)
    (hc : h.cards[i]? = some c) (hn : c.cache = none) : (h.valueOf F k t).2 = Card.valueImp F c.raw t := by
  unfold valueOf cardValue
  rw [hk]
  simp only [hc, Card.value, hn]
  cases hv : Card.valueImp F c.raw t <;> rfl

/-- **C34** The name of a header, as left by reading it, with all of BITPIX, NAXIS, NAXISn present: the text of XTENSION if there is such a card (a lone
quote is undefined behaviour, every other text is a string); otherwise `primary_hdu` if SIMPLE is a boolean; otherwise an error. -/
theorem C34_name (F : FloatText) (fuel : Nat) (s s' : Stream) (h : Header) (hg : s.good = true)
    (e : readHeader F fuel Header.empty s = some (.ok (h, s'))) (hp : ∀ k, HeaderKey h k → ¬ Absent (h.cards.map (·.raw)) k) :
    (∀ x, Declares F (h.cards.map (·.raw)) b!"XTENSION" .string (.string x) → (h.getHduName F).2 = .ok x) ∧
    (¬ Absent (h.cards.map (·.raw)) b!"XTENSION" → (∀ x, ¬ Declares F (h.cards.map (·.raw)) b!"XTENSION" .string (.string x)) →
      (h.getHduName F).2 = .error .ub) ∧
    (Absent (h.cards.map (·.raw)) b!"XTENSION" → ∀ b, Declares F (h.cards.map (·.raw)) b!"SIMPLE" .bool (.bool b) →
      (h.getHduName F).2 = .ok b!"primary_hdu") ∧
    (Absent (h.cards.map (·.raw)) b!"XTENSION" → (∀ b, ¬ Declares F (h.cards.map (·.raw)) b!"SIMPLE" .bool (.bool b)) →
      ∃ er, (h.getHduName F).2 = .error er) := by
  have hs := sound_of_read hg e
  have hx : ¬ AxisKey b!"XTENSION" := by rintro (h | ⟨d, h⟩) <;> simp at h
  have hm : ¬ AxisKey b!"SIMPLE" := by rintro (h | ⟨d, h⟩) <;> simp at h
  have hval : ∀ {k : Str} (t : Ty) {i : Nat} {r : Str}, ¬ AxisKey k → LastWith (h.cards.map (·.raw)) k i → (h.cards.map (·.raw))[i]? = some r →
      (h.valueOf F k t).2 = Card.valueImp F r t := by
    intro k t i r hk hl hr
    obtain ⟨c, hc, hn⟩ := uncached hg e hp hk hl
    rw [List.getElem?_map, hc] at hr
    cases hr
    exact valueOf_uncached (hs.present k i hl) hc hn
  have habs : Absent (h.cards.map (·.raw)) b!"XTENSION" → h.valueOf F b!"XTENSION" .string = (h, .error .outOfRange) := by
    intro ha
    unfold valueOf
    cases hk : h.keyIndex b!"XTENSION" with
    | none => rfl
    | some i =>
      exfalso
      rcases hs.index _ i hk with h2 | ⟨_, h2⟩
      · exact lastWith_not_absent h2 ha
      · exact hx h2
  refine ⟨?_, ?_, ?_, ?_⟩
  · rintro x ⟨i, r, hl, hr, hv⟩
    have := hval .string hx hl hr
    rw [hv] at this
    unfold getHduName
    generalize h.valueOf F b!"XTENSION" .string = y at *
    obtain ⟨h1, r1⟩ := y
    simp only at this
    subst this
    rfl
  · intro hna hnd
    obtain ⟨i, hl⟩ := (absent_or_last _ _).resolve_left hna
    have hlt := hl.1
    have := hval .string hx hl (List.getElem?_eq_getElem hlt)
    rcases valueImp_string F _ (by rw [hs.size _ (List.getElem_mem hlt)]; omega) with ⟨x, hv⟩ | hv
    · exact absurd ⟨i, _, hl, List.getElem?_eq_getElem hlt, hv⟩ (hnd x)
    · rw [hv] at this
      unfold getHduName
      generalize h.valueOf F b!"XTENSION" .string = y at *
      obtain ⟨h1, r1⟩ := y
      simp only at this
      subst this
      rfl
  · rintro ha b ⟨i, r, hl, hr, hv⟩
    unfold getHduName
    rw [habs ha]
    simp only
    have := hval .bool hm hl hr
    rw [hv] at this
    generalize h.valueOf F b!"SIMPLE" .bool = y at *
    obtain ⟨h1, r1⟩ := y
    simp only at this
    subst this
    rfl
  · intro ha hnd
    unfold getHduName
    rw [habs ha]
    simp only
    have hno : ∀ v, (h.valueOf F b!"SIMPLE" .bool).2 ≠ .ok v := by
      intro v hv
      obtain ⟨_, _, hty, hd⟩ := get_ok (h' := (h.valueOf F b!"SIMPLE" .bool).1) (v := v) hs (k := b!"SIMPLE") (t := .bool) (by
        unfold Header.get
        generalize h.valueOf F b!"SIMPLE" .bool = y at *
        obtain ⟨h1, r1⟩ := y
        simp only at hv
        subst hv
        rfl)
      cases v with
      | bool b => exact hnd b (hd hm)
      | _ => cases hty
    generalize h.valueOf F b!"SIMPLE" .bool = y at *
    obtain ⟨h1, r1⟩ := y
    cases r1 with
    | ok v => exact absurd rfl (hno v)
    | error er => exact ⟨er, rfl⟩

/-- The kinds of HDU. -/
def IsPrimary (x : Hdu) : Prop := ∃ p, x = .primary p
def IsAscii (x : Hdu) : Prop := ∃ t, x = .ascii t
def IsBinary (x : Hdu) : Prop := ∃ t, x = .binary t

theorem getHduName_ok {F : FloatText} {h h1 : Header} {name : Str} (hs : Sound F h) (e : h.getHduName F = (h1, .ok name)) :
    h1.cards.map (·.raw) = h.cards.map (·.raw) ∧ h1.keyIndex = h.keyIndex ∧ h1.naxis = h.naxis ∧ h1.bitpix = h.bitpix ∧ Sound F h1 := by
  have hv : ∀ (h : Header) (k : Str) (t : Ty), Sound F h → Same h (h.valueOf F k t).1 ∧ Sound F (h.valueOf F k t).1 := by
    intro h k t hs
    unfold valueOf
    cases hk : h.keyIndex k with
    | none => exact ⟨Same.refl h, hs⟩
    | some i =>
      simp only
      obtain ⟨r1, r2, r3, r4, r5⟩ := Header.read_cardValue F h i t
      have hsame : Same h (h.cardValue F i t).1 := ⟨r1.raws, r4, r2, r3, r5⟩
      refine ⟨hsame, r1.cacheOk hs.cacheOk, by rw [hsame.raws]; exact hs.size, ?_, ?_⟩
      · intro k i hk'
        rw [hsame.raws]; exact hs.index k i (by rw [← hsame.index]; exact hk')
      · intro k i hl
        rw [hsame.index]; rw [hsame.raws] at hl; exact hs.present k i hl
  unfold getHduName at e
  obtain ⟨a1, a2⟩ := hv h b!"XTENSION" .string hs
  generalize h.valueOf F b!"XTENSION" .string = y at *
  obtain ⟨ha, r⟩ := y
  simp only at *
  have hsimple : ∀ {h1 : Header} {name : Str}, (match ha.valueOf F b!"SIMPLE" .bool with
      | (h2, .ok _) => (h2, (Except.ok b!"primary_hdu" : Res Str))
      | (h2, .error e) => (h2, .error e)) = (h1, .ok name) →
      h1.cards.map (·.raw) = h.cards.map (·.raw) ∧ h1.keyIndex = h.keyIndex ∧ h1.naxis = h.naxis ∧ h1.bitpix = h.bitpix ∧ Sound F h1 := by
    intro h1 name e
    obtain ⟨b1, b2⟩ := hv ha b!"SIMPLE" .bool a2
    generalize ha.valueOf F b!"SIMPLE" .bool = z at *
    obtain ⟨hb, r'⟩ := z
    have b := a1.trans b1
    cases r' with
    | ok v => cases e; exact ⟨b.raws, b.index, b.naxis, b.bitpix, b2⟩
    | error er => cases e
  cases r with
  | error er =>
    cases er with
    | ub => cases e
    | _ => exact hsimple e
  | ok v =>
    cases v with
    | string x =>
      cases e
      exact ⟨a1.raws, a1.index, a1.naxis, a1.bitpix, ⟨a2.cacheOk, a2.size, a2.index, a2.present⟩⟩
    | _ => exact hsimple e

/-- **C34** What construct_hdu builds from a header (as left by reading it and asking for its name) depends on whether there is a SIMPLE card, and if not
on the text of XTENSION alone. -/
theorem C34_kind (F : FloatText) (fuel : Nat) (s s' : Stream) (h h1 : Header) (hg : s.good = true)
    (e : readHeader F fuel Header.empty s = some (.ok (h, s'))) (name : Str) (en : h.getHduName F = (h1, .ok name)) (buf : Str) (x : Hdu)
    (ex : Hdu.construct F h1 buf = .ok x) :
    (¬ Absent (h.cards.map (·.raw)) b!"SIMPLE" → IsPrimary x) ∧
    (Absent (h.cards.map (·.raw)) b!"SIMPLE" → ∃ k, Declares F (h.cards.map (·.raw)) b!"XTENSION" .string (.string k) ∧
      (k = b!"TABLE" → IsAscii x) ∧ (k = b!"BINTABLE" → IsBinary x) ∧ (k ≠ b!"TABLE" → k ≠ b!"BINTABLE" → x = .blank)) := by
  have hs := sound_of_read hg e
  obtain ⟨n1, n2, n3, n4, hs1⟩ := getHduName_ok hs en
  have hc : h1.containsKeyword b!"SIMPLE" = true ↔ ¬ Absent (h.cards.map (·.raw)) b!"SIMPLE" := by
    rw [C28_contains, ← n1]
    constructor
    · rintro ⟨c, hc, hk⟩ ha; exact ha _ (List.mem_map_of_mem hc) hk
    · intro hna
      refine Classical.byContradiction fun hn => hna ?_
      intro r hr hk
      obtain ⟨c, hc, rfl⟩ := List.mem_map.1 hr
      exact hn ⟨c, hc, hk⟩
  unfold Hdu.construct at ex
  constructor
  · intro hna
    rw [if_pos (hc.2 hna)] at ex
    obtain ⟨p, _, e2⟩ := bind_ok ex
    cases e2
    exact ⟨p, rfl⟩
  · intro ha
    rw [if_neg (fun h => hc.1 h ha)] at ex
    unfold Hdu.generateExtension at ex
    obtain ⟨⟨h2, k⟩, e1, e2⟩ := bind_ok ex
    have hx : ¬ AxisKey b!"XTENSION" := by rintro (h | ⟨d, h⟩) <;> simp at h
    obtain ⟨_, _, _, hd⟩ := get_ok hs1 (getStr_ok e1)
    rw [n1] at hd
    refine ⟨k, hd hx, ?_, ?_, ?_⟩
    · intro hk
      simp only [if_pos hk] at e2
      obtain ⟨t, _, e3⟩ := bind_ok e2
      cases e3
      exact ⟨t, rfl⟩
    · intro hk
      have : k ≠ b!"TABLE" := by rw [hk]; decide
      simp only [if_neg this, if_pos hk] at e2
      obtain ⟨t, _, e3⟩ := bind_ok e2
      cases e3
      exact ⟨t, rfl⟩
    · intro k1 k2
      simp only [if_neg k1, if_neg k2] at e2
      cases e2
      rfl

/-- **C34** An extension that is not a table, such as an IMAGE, is always accepted and always becomes the empty HDU, whatever else its header says and
whatever its data is. -/
theorem C34_other_dropped (F : FloatText) (fuel : Nat) (s s' : Stream) (h : Header) (hg : s.good = true)
    (e : readHeader F fuel Header.empty s = some (.ok (h, s'))) (hp : ∀ k, HeaderKey h k → ¬ Absent (h.cards.map (·.raw)) k)
    (hns : Absent (h.cards.map (·.raw)) b!"SIMPLE") (k : Str) (hk : Declares F (h.cards.map (·.raw)) b!"XTENSION" .string (.string k))
    (k1 : k ≠ b!"TABLE") (k2 : k ≠ b!"BINTABLE") (buf : Str) :
    Hdu.construct F (h.getHduName F).1 buf = .ok .blank := by
  have hs := sound_of_read hg e
  have hx : ¬ AxisKey b!"XTENSION" := by rintro (h | ⟨d, h⟩) <;> simp at h
  obtain ⟨i, r, hl, hr, hv⟩ := hk
  obtain ⟨c, hc, hn⟩ := uncached hg e hp hx hl
  rw [List.getElem?_map, hc] at hr
  cases hr
  have hval : h.valueOf F b!"XTENSION" .string = ({ h with cards := h.cards.set i ⟨c.raw, some (.string k)⟩ }, .ok (.string k)) := by
    unfold valueOf
    rw [hs.present _ i hl]
    exact cardValue_present hc (.inl hn) hv
  have hname : h.getHduName F = ({ h with cards := h.cards.set i ⟨c.raw, some (.string k)⟩, hduName := k }, .ok k) := by
    unfold getHduName
    rw [hval]
  have hs1 := (getHduName_ok hs hname)
  rw [hname]
  unfold Hdu.construct
  rw [if_neg]
  · unfold Hdu.generateExtension
    have hget : Header.getStr F { h with cards := h.cards.set i ⟨c.raw, some (.string k)⟩, hduName := k } b!"XTENSION" =
        .ok ({ h with cards := h.cards.set i ⟨c.raw, some (.string k)⟩, hduName := k }, k) := by
      have hlt : i < h.cards.length := (List.getElem?_eq_some_iff.1 hc).1
      have hcur : (h.cards.set i ⟨c.raw, some (.string k)⟩)[i]? = some ⟨c.raw, some (.string k)⟩ := List.getElem?_set_self hlt
      have : ({ h with cards := h.cards.set i ⟨c.raw, some (.string k)⟩, hduName := k } : Header).valueOf F b!"XTENSION" .string =
          ({ h with cards := h.cards.set i ⟨c.raw, some (.string k)⟩, hduName := k }, .ok (.string k)) := by
        unfold valueOf
        simp only [hs.present _ i hl]
        unfold cardValue
        simp only [hcur, Card.value, Val.ty, if_true, List.set_set]
      unfold Header.getStr Header.get
      rw [this]
    rw [hget]
    simp only [bind, Except.bind, if_neg k1, if_neg k2]
    rfl
  · rw [C28_contains]
    rintro ⟨c', hc', hk'⟩
    have : c'.raw ∈ h.cards.map (·.raw) := by rw [← hs1.1]; exact List.mem_map_of_mem hc'
    exact hns _ this hk'

/-- A header with both cards: the name follows XTENSION, the object SIMPLE.  With XTENSION alone an image extension is an empty HDU. -/
example : (match readHeader exNoFloats 6 Header.empty (Stream.openRead ([exCard b!"SIMPLE  =                    T", exCard b!"XTENSION= 'TABLE   '",
      exCard b!"BITPIX  =                    8", exCard b!"NAXIS   =                    0", exCard b!"EXTEND  =                    F", exCard b!"END"].flatten)) with
    | some (.ok (h, _)) => (match h.getHduName exNoFloats with
      | (h1, .ok name) => decide (name = b!"TABLE") && (match Hdu.construct exNoFloats h1 [] with | .ok (.primary _) => true | _ => false)
      | _ => false)
    | _ => false) = true := by decide +kernel

example : (match readHeader exNoFloats 4 Header.empty (Stream.openRead ([exCard b!"XTENSION= 'IMAGE   '", exCard b!"BITPIX  =                    8",
      exCard b!"NAXIS   =                    0", exCard b!"END"].flatten)) with
    | some (.ok (h, _)) => (match h.getHduName exNoFloats with
      | (h1, .ok name) => decide (name = b!"IMAGE") && (match Hdu.construct exNoFloats h1 [] with | .ok .blank => true | _ => false)
      | _ => false)
    | _ => false) = true := by decide +kernel

end Astro
