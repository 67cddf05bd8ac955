import Verif.Spec.Hdu
import Verif.Props.HduKind
import Verif.Lemmas.FitsWrite

/-
Helper lemmas: headers whose cached values are known to have certain types.
-/

namespace Astro

open Spec Header

theorem lookup_total (F : FloatText) (raws : List Str) (k : Str) (t : Ty) : ∃ r, Lookup F raws k t r := by
  rcases absent_or_last raws k with h | ⟨i, h⟩
  · exact ⟨_, .inl ⟨h, rfl⟩⟩
  · exact ⟨_, .inr ⟨i, _, h, List.getElem?_eq_getElem h.1, rfl⟩⟩

theorem lastWith_fun {raws : List Str} {k : Str} {i j : Nat} (h : LastWith raws k i) (h' : LastWith raws k j) : i = j := by
  obtain ⟨a1, a2, a3⟩ := h
  obtain ⟨b1, b2, b3⟩ := h'
  rcases Nat.lt_trichotomy i j with hl | hl | hl
  · exact absurd b2 (a3 j b1 hl)
  · exact hl
  · exact absurd a2 (b3 i a1 hl)

theorem lookup_fun {F : FloatText} {raws : List Str} {k : Str} {t : Ty} {r r' : Res Val} (h : Lookup F raws k t r) (h' : Lookup F raws k t r') :
    r = r' := by
  rcases h with ⟨h1, rfl⟩ | ⟨i, a, h1, h2, rfl⟩ <;> rcases h' with ⟨g1, rfl⟩ | ⟨j, b, g1, g2, rfl⟩
  · rfl
  · exact absurd h1 (lastWith_not_absent g1)
  · exact absurd g1 (lastWith_not_absent h1)
  · cases lastWith_fun h1 g1
    rw [h2] at g2; cases g2; rfl

theorem lookup_ok {F : FloatText} {raws : List Str} {k : Str} {t : Ty} {v : Val} : Lookup F raws k t (.ok v) ↔ Declares F raws k t v := by
  constructor
  · rintro (⟨_, h⟩ | ⟨i, r, h1, h2, h3⟩)
    · cases h
    · exact ⟨i, r, h1, h2, h3.symm⟩
  · rintro ⟨i, r, h1, h2, h3⟩
    exact .inr ⟨i, r, h1, h2, h3.symm⟩

/-- A header whose cached values belong to BITPIX, NAXIS, NAXISn or to pairs of keyword and type in `τ`. -/
structure Plain (F : FloatText) (τ : Str → Ty → Prop) (h : Header) : Prop where
  sound : Sound F h
  typed : ∀ (i : Nat) (c : Card) (v : Val), h.cards[i]? = some c → c.cache = some v →
    ∃ k, LastWith (h.cards.map (·.raw)) k i ∧ (AxisKey k ∨ τ k v.ty)

theorem Plain.mono {F : FloatText} {τ τ' : Str → Ty → Prop} {h : Header} (hp : Plain F τ h) (hm : ∀ k t, τ k t → τ' k t) : Plain F τ' h :=
  ⟨hp.sound, fun i c v h1 h2 => let ⟨k, g1, g2⟩ := hp.typed i c v h1 h2; ⟨k, g1, g2.imp id (hm k _)⟩⟩

theorem plain_of_read {F : FloatText} {fuel : Nat} {s s' : Stream} {h : Header} (hg : s.good = true)
    (e : readHeader F fuel Header.empty s = some (.ok (h, s'))) (hp : ∀ k, HeaderKey h k → ¬ Absent (h.cards.map (·.raw)) k) :
    Plain F (fun _ _ => False) h := by
  refine ⟨sound_of_read hg e, ?_⟩
  obtain ⟨h1, _, hc0, _, _, hint⟩ := readHeader_facts hg e
  have ho : CachedOnly AxisKey h := CachedOnly.interpret (fun i c hc hn => absurd (hc0 c (List.mem_of_getElem? hc)) hn) hint
  intro i c v hc hv
  obtain ⟨k, g1, g2⟩ := ho i c hc (by rw [hv]; simp)
  rcases (C28_index F fuel s s' h hg e k i).1 g2 with hl | ⟨ha, hkey, _⟩
  · exact ⟨k, hl, .inl g1⟩
  · exact absurd ha (hp k hkey)

/-- Keywords of one card are equal. -/
theorem lastWith_keyword {raws : List Str} {k k' : Str} {i : Nat} (h : LastWith raws k i) (h' : LastWith raws k' i) : k = k' := by
  obtain ⟨_, h1, _⟩ := h
  obtain ⟨_, h2, _⟩ := h'
  rw [keywordIs_iff] at h1 h2
  rw [← h1, h2]

/-- Looking up a keyword whose card, if cached, is cached with the type asked for. -/
theorem plain_valueOf {F : FloatText} {τ : Str → Ty → Prop} {h : Header} (hp : Plain F τ h) {k : Str} {t : Ty} (hk : ¬ AxisKey k)
    (ht : ∀ t', τ k t' → t' = t) {r : Res Val} (hl : Lookup F (h.cards.map (·.raw)) k t r) :
    (h.valueOf F k t).2 = r ∧ Same h (h.valueOf F k t).1 ∧
      Plain F (fun k' t' => τ k' t' ∨ (k' = k ∧ t' = t)) (h.valueOf F k t).1 := by
  rcases hl with ⟨ha, rfl⟩ | ⟨i, raw, hw, hr, rfl⟩
  · have : h.valueOf F k t = (h, .error .outOfRange) := by
      unfold valueOf
      cases hi : h.keyIndex k with
      | none => rfl
      | some i =>
        exfalso
        rcases hp.sound.index _ i hi with h2 | ⟨_, h2⟩
        · exact lastWith_not_absent h2 ha
        · exact hk h2
    rw [this]
    exact ⟨rfl, Same.refl h, hp.mono fun _ _ => .inl⟩
  · have hi := hp.sound.present k i hw
    have hlt : i < h.cards.length := by have := hw.1; rwa [List.length_map] at this
    have hc := List.getElem?_eq_getElem hlt
    rw [List.getElem?_map, hc] at hr
    cases hr
    have hval : (h.valueOf F k t).2 = Card.valueImp F h.cards[i].raw t := by
      cases hn : h.cards[i].cache with
      | none => exact valueOf_uncached hi hc hn
      | some v =>
        obtain ⟨k', g1, g2⟩ := hp.typed i _ v hc hn
        cases lastWith_keyword hw g1
        have hty := ht _ (g2.resolve_left hk)
        unfold valueOf cardValue
        rw [hi]
        simp only [hc, Card.value, hn, hty, if_true]
        have := hp.sound.cacheOk _ (List.getElem_mem hlt) v hn
        rw [hty] at this
        exact this.symm
    obtain ⟨r1, r2, r3, r4, r5⟩ := Header.read_cardValue F h i t
    have hv : h.valueOf F k t = h.cardValue F i t := by unfold valueOf; rw [hi]
    have hsame : Same h (h.valueOf F k t).1 := by rw [hv]; exact ⟨r1.raws, r4, r2, r3, r5⟩
    refine ⟨hval, hsame, ?_, ?_⟩
    · refine ⟨by rw [hv]; exact r1.cacheOk hp.sound.cacheOk, by rw [hsame.raws]; exact hp.sound.size, ?_, ?_⟩
      · intro k i hk'
        rw [hsame.raws]; exact hp.sound.index k i (by rw [← hsame.index]; exact hk')
      · intro k i hl
        rw [hsame.index]; rw [hsame.raws] at hl; exact hp.sound.present k i hl
    · intro j c v hj hv'
      rw [hsame.raws]
      by_cases hij : i = j
      · subst hij
        refine ⟨k, hw, .inr ?_⟩
        cases hn : h.cards[i].cache with
        | none =>
          right
          rw [hv] at hj
          unfold cardValue at hj
          rw [hc] at hj
          simp only [Card.value, hn] at hj
          cases hvi : Card.valueImp F h.cards[i].raw t with
          | error er =>
            rw [hvi] at hj
            simp only [List.getElem?_set_self hlt] at hj
            cases hj; rw [hn] at hv'; cases hv'
          | ok w =>
            rw [hvi] at hj
            simp only [List.getElem?_set_self hlt] at hj
            cases hj; cases hv'
            exact ⟨rfl, valueImp_ty hvi⟩
        | some w =>
          obtain ⟨k', g1, g2⟩ := hp.typed i _ w hc hn
          cases lastWith_keyword hw g1
          have hτ := g2.resolve_left hk
          rw [hv] at hj
          unfold cardValue at hj
          rw [hc] at hj
          simp only [Card.value, hn] at hj
          split at hj <;> (simp only [List.getElem?_set_self hlt] at hj; cases hj; rw [hn] at hv'; cases hv'; exact .inl hτ)
      · rw [hv] at hj
        unfold cardValue at hj
        rw [hc] at hj
        simp only [List.getElem?_set_ne hij] at hj
        obtain ⟨k', g1, g2⟩ := hp.typed j c v hj hv'
        exact ⟨k', g1, g2.imp id .inl⟩

theorem plain_get {F : FloatText} {τ : Str → Ty → Prop} {h : Header} (hp : Plain F τ h) {k : Str} {t : Ty} (hk : ¬ AxisKey k)
    (ht : ∀ t', τ k t' → t' = t) {v : Val} (hl : Lookup F (h.cards.map (·.raw)) k t (.ok v)) :
    ∃ h', h.get F k t = .ok (h', v) ∧ Same h h' ∧ Plain F (fun k' t' => τ k' t' ∨ (k' = k ∧ t' = t)) h' := by
  obtain ⟨h1, h2, h3⟩ := plain_valueOf hp hk ht hl
  refine ⟨_, ?_, h2, h3⟩
  unfold Header.get
  generalize h.valueOf F k t = y at *
  obtain ⟨h', r⟩ := y
  simp only at h1; subst h1; rfl

theorem plain_get_error {F : FloatText} {τ : Str → Ty → Prop} {h : Header} (hp : Plain F τ h) {k : Str} {t : Ty} (hk : ¬ AxisKey k)
    (ht : ∀ t', τ k t' → t' = t) {er : Err} (hl : Lookup F (h.cards.map (·.raw)) k t (.error er)) : h.get F k t = .error er := by
  obtain ⟨h1, h2, h3⟩ := plain_valueOf hp hk ht hl
  unfold Header.get
  generalize h.valueOf F k t = y at *
  obtain ⟨h', r⟩ := y
  simp only at h1; subst h1; rfl

theorem lookup_ty {F : FloatText} {raws : List Str} {k : Str} {t : Ty} {v : Val} (h : Lookup F raws k t (.ok v)) : v.ty = t := by
  rcases h with ⟨_, h⟩ | ⟨i, r, _, _, h⟩
  · cases h
  · exact valueImp_ty h.symm

/-- The header after asking for the name of the HDU. -/
theorem plain_name {F : FloatText} {h h1 : Header} {name : Str} (hp : Plain F (fun _ _ => False) h) (en : h.getHduName F = (h1, .ok name)) :
    Plain F (fun k t => (k = b!"XTENSION" ∧ t = .string) ∨ (k = b!"SIMPLE" ∧ t = .bool)) h1 ∧ h1.cards.map (·.raw) = h.cards.map (·.raw) ∧
      h1.naxis = h.naxis ∧ h1.bitpix = h.bitpix := by
  have hx : ¬ AxisKey b!"XTENSION" := by rintro (h | ⟨d, h⟩) <;> simp at h
  have hm : ¬ AxisKey b!"SIMPLE" := by rintro (h | ⟨d, h⟩) <;> simp at h
  obtain ⟨n1, n2, n3, n4, n5⟩ := getHduName_ok hp.sound en
  refine ⟨⟨n5, ?_⟩, n1, n3, n4⟩
  unfold getHduName at en
  obtain ⟨r, hr⟩ := lookup_total F (h.cards.map (·.raw)) b!"XTENSION" .string
  obtain ⟨a1, a2, a3⟩ := plain_valueOf hp hx (fun _ h => h.elim) hr
  generalize h.valueOf F b!"XTENSION" .string = y at *
  obtain ⟨ha, ra⟩ := y
  simp only at *
  have second : ∀ {h1 : Header}, (match ha.valueOf F b!"SIMPLE" .bool with
      | (h2, .ok _) => (h2, (Except.ok b!"primary_hdu" : Res Str))
      | (h2, .error e) => (h2, .error e)) = (h1, .ok name) → ∀ (i : Nat) (c : Card) (v : Val), h1.cards[i]? = some c → c.cache = some v →
        ∃ k, LastWith (h1.cards.map (·.raw)) k i ∧ (AxisKey k ∨ (k = b!"XTENSION" ∧ v.ty = .string) ∨ (k = b!"SIMPLE" ∧ v.ty = .bool)) := by
    intro h1 e i c v hc hv
    obtain ⟨r', hr'⟩ := lookup_total F (ha.cards.map (·.raw)) b!"SIMPLE" .bool
    obtain ⟨b1, b2, b3⟩ := plain_valueOf a3 hm (by rintro t (h | ⟨h, _⟩); exact h.elim; simp at h) hr'
    generalize ha.valueOf F b!"SIMPLE" .bool = z at *
    obtain ⟨hb, rb⟩ := z
    simp only at *
    cases rb with
    | error er => cases e
    | ok w =>
      cases e
      obtain ⟨k, g1, g2⟩ := b3.typed i c v hc hv
      exact ⟨k, g1, g2.imp id fun h => h.imp (fun h => h.resolve_left id) id⟩
  have first : ∀ (i : Nat) (c : Card) (v : Val), ha.cards[i]? = some c → c.cache = some v →
        ∃ k, LastWith (ha.cards.map (·.raw)) k i ∧ (AxisKey k ∨ (k = b!"XTENSION" ∧ v.ty = .string) ∨ (k = b!"SIMPLE" ∧ v.ty = .bool)) := by
    intro i c v hc hv
    obtain ⟨k, g1, g2⟩ := a3.typed i c v hc hv
    exact ⟨k, g1, g2.imp id fun h => .inl (h.resolve_left id)⟩
  cases ra with
  | error er =>
    cases er with
    | ub => cases en
    | _ => exact second en
  | ok v =>
    cases v with
    | string x => cases en; exact first
    | _ => exact second en

/-! ### images -/

theorem window_take {buf : Str} {p n : Nat} (h : p + n ≤ buf.length) : window buf p n = (buf.drop p).take n := by
  apply List.ext_getElem?
  intro i
  unfold window
  rw [List.getElem?_map]
  by_cases hi : i < n
  · rw [List.getElem?_range hi, List.getElem?_take_of_lt hi, List.getElem?_drop]
    simp only [Option.map_some, List.getD_eq_getElem?_getD]
    rw [List.getElem?_eq_getElem (by omega)]
    rfl
  · rw [List.getElem?_eq_none (by simp; omega), List.getElem?_eq_none (by simp; omega)]
    rfl

theorem readImage_pixels (b : Bitpix) (buf : Str) : ∃ img : Image b, (Image.fresh : Image b).readImage buf = .ok img ∧ Pixels b buf img.data ∧
    img.width = some 0 ∧ img.height = some 0 := by
  by_cases hne : buf = []
  · subst hne
    exact ⟨_, rfl, ⟨by simp [Image.fresh], by intro i v h; simp [Image.fresh] at h⟩, rfl, rfl⟩
  · by_cases hb : b = .B8
    · subst hb
      refine ⟨_, C21_b8_zero _ buf hne, ⟨by simp [Bitpix.size], ?_⟩, rfl, rfl⟩
      intro i v h
      rw [if_pos rfl]
      exact List.eq_of_mem_replicate (List.mem_of_getElem? h)
    · obtain ⟨img, h1, h2, h3⟩ := C20_pixels hb (Image.fresh : Image b) buf hne
      have hwh : img.width = some 0 ∧ img.height = some 0 := by
        unfold Image.readImage at h1
        rw [if_neg (by simpa using hne)] at h1
        obtain ⟨d, _, h1⟩ := bind_ok h1
        cases h1; exact ⟨rfl, rfl⟩
      refine ⟨img, h1, ⟨h2, ?_⟩, hwh⟩
      intro i v hv
      rw [if_neg hb]
      obtain ⟨hi, rfl⟩ := List.getElem?_eq_some_iff.1 hv
      have hle : i * b.size + b.size ≤ buf.length := by
        have : (i + 1) * b.size ≤ buf.length / b.size * b.size := Nat.mul_le_mul_right _ (by omega)
        have := Nat.div_mul_le_self buf.length b.size
        rw [Nat.add_mul, Nat.one_mul] at *
        omega
      rw [window_take hle]
      exact ⟨by simp; omega, h3 i hi⟩

end Astro
