import Verif.Spec.FitsAny
import Verif.Props.FitsModes
import Mathlib.Data.List.Nodup
import Mathlib.Data.Finset.Card
import Mathlib.Data.Finset.Range

/-
Helper lemmas about files of any bytes.
-/

namespace Astro

open Spec Header Reader

/-- Header cards, if a header ends at all, are found among those that begin inside the file. -/
theorem readHeader_bound {F : FloatText} {content : Str} {p fuel : Nat} {x : Res (Header × Stream)}
    (e : readHeader F fuel Header.empty (rd content p) = some x) : readHeader F (content.length / 80 + 1) Header.empty (rd content p) = some x := by
  unfold readHeader at e ⊢
  cases hc : readCards fuel Header.empty (rd content p) with
  | none => rw [hc] at e; cases e
  | some y =>
    rw [hc] at e
    have hs := streamAt_zero (rd_good content p)
    obtain ⟨n, i1, i2, i3⟩ := readCards_some hs hc
    have hn : p + 80 * n < content.length := by
      refine Classical.byContradiction fun hlt => ?_
      have hb : piece content p (0 + n) = spaces 80 := by unfold piece; rw [window_outside (by omega)]
      rcases i3 with ⟨k1, _⟩ | ⟨k1, _⟩
      · exact blank_not_end (hb ▸ k1)
      · exact k1 (hb ▸ blank_rawOk)
    have key : ∃ z, readCards (n + 1) Header.empty (rd content p) = some z := by
      obtain ⟨s1, g1, g2⟩ := readCards_skip n Header.empty 1 hs i1
      rw [g2]
      rcases i3 with ⟨k1, _⟩ | ⟨k1, _⟩
      · obtain ⟨s2, _, g4⟩ := readCards_end (Header.empty.addCards (pieces content p 0 n)) 0 g1 k1
        exact ⟨_, g4⟩
      · exact ⟨_, readCards_bad _ 0 g1 k1⟩
    obtain ⟨z, hz⟩ := key
    have e1 := readCards_mono _ _ _ _ hz (fuel - (n + 1))
    rw [show n + 1 + (fuel - (n + 1)) = fuel by omega, hc] at e1
    have e2 := readCards_mono _ _ _ _ hz (content.length / 80 + 1 - (n + 1))
    rw [show n + 1 + (content.length / 80 + 1 - (n + 1)) = content.length / 80 + 1 by omega] at e2
    rw [e2, ← Option.some.inj e1]
    exact e

theorem readHeader_bitpix {F : FloatText} {fuel : Nat} {s s' : Stream} {h : Header}
    (e : readHeader F fuel Header.empty s = some (.ok (h, s'))) : ∃ b, h.bitpix = some b := by
  unfold readHeader at e
  cases hc : readCards fuel Header.empty s with
  | none => rw [hc] at e; cases e
  | some x =>
    rw [hc] at e
    cases x with
    | error e' => cases e
    | ok y =>
      obtain ⟨h1, s2⟩ := y
      simp only at e
      cases hi : h1.interpret F with
      | error e' => rw [hi] at e; cases e
      | ok h2 =>
        rw [hi] at e
        simp only [Option.some.injEq, Except.ok.injEq, Prod.mk.injEq] at e
        obtain ⟨rfl, rfl⟩ := e
        obtain ⟨b, _, _, hb, _⟩ := interpret_ok hi
        exact ⟨b, hb⟩

theorem announces_exists {F : FloatText} {content : Str} {p : Nat} {h : Header} (hh : HeaderAt F content p h) : ∃ n, Announces h n := by
  obtain ⟨fuel, s', e⟩ := hh
  obtain ⟨b, hb⟩ := readHeader_bitpix e
  by_cases hz : h.dataSize = 0
  · exact ⟨0, fun _ => rfl, fun hn => absurd hz hn⟩
  · exact ⟨_, fun h0 => absurd h0 hz, fun _ => ⟨b, hb, rfl⟩⟩

theorem builds_or (F : FloatText) (h : Header) (data : Str) : Builds F h data ∨ ∃ e, BuildFails F h data e := by
  obtain ⟨h1, y⟩ : ∃ h1 y, h.getHduName F = (h1, y) := ⟨_, _, rfl⟩
  obtain ⟨y, hy⟩ := y
  cases y with
  | error e => exact Or.inr ⟨e, h1, Or.inl hy⟩
  | ok name =>
    cases hc : Hdu.construct F h1 data with
    | error e => exact Or.inr ⟨e, h1, Or.inr ⟨name, hy, hc⟩⟩
    | ok x => exact Or.inl ⟨h1, name, x, hy, hc⟩

namespace Reader

theorem store_error {F : FloatText} {h : Header} {buf : Str} {e : Err} (hf : BuildFails F h buf e) (r : Reader) (s : Stream) (l d : Nat) :
    store F r s h l d buf = .error e := by
  unfold store
  obtain ⟨h1, hn | ⟨name, hn, hc⟩⟩ := hf
  · rw [hn]
  · rw [hn]
    simp only [hc]
    rfl

/-- Reading data from a failed stream. -/
theorem extractData_failed {h : Header} {n : Nat} (ha : Announces h n) (hn : n < 2 ^ 63) {s : Stream} (hs : Stuck s) :
    ∃ s', extractData h s = .ok (spaces n, s') ∧ Stuck s' := by
  have key : ∃ s', extractData h s = .ok (spaces n, s') := by
    unfold extractData
    by_cases hz : h.dataSize = 0
    · rw [if_pos hz, ha.1 hz]; exact ⟨s, rfl⟩
    · rw [if_neg hz, dataBytes_iff.2 (ha.2 hz)]
      have : s.read n = .ok (spaces n, s.sentry) := by
        unfold Stream.read
        rw [if_neg (by omega), Stream.good_of_fail hs.1]
        rfl
      simp only [bind, Except.bind, this, pure, Except.pure]
      exact ⟨_, rfl⟩
  obtain ⟨s', h1⟩ := key
  exact ⟨s', h1, extractData_stuck hs h1⟩

theorem extractData_long {h : Header} {n : Nat} (ha : Announces h n) (hn : 2 ^ 63 ≤ n) (s : Stream) : extractData h s = .error .lengthError := by
  unfold extractData
  by_cases hz : h.dataSize = 0
  · have := ha.1 hz; omega
  · rw [if_neg hz, dataBytes_iff.2 (ha.2 hz)]
    unfold Stream.read
    simp only [bind, Except.bind, if_pos hn]

/-- Reading any header that ends: the stream afterwards. -/
theorem extractHeader_any {F : FloatText} {content : Str} {p d : Nat} {h : Header} (hh : HeaderAt F content p h) (hp : p < content.length)
    (hb : content.length + 5760 < 2 ^ 63) (hd : NextBoundary (p + 80 * h.cards.length) d) :
    ∃ N s2, (∀ fuel, N ≤ fuel → extractHeader F fuel (rd content p) = some (.ok (h, s2))) ∧
      (p + 80 * h.cards.length ≤ content.length → s2 = rd content d) ∧ (content.length < p + 80 * h.cards.length → Stuck s2) := by
  obtain ⟨f0, s', e⟩ := hh
  have ex : ∀ fuel, f0 ≤ fuel → readHeader F fuel Header.empty (rd content p) = some (.ok (h, s')) := by
    intro fuel hf
    obtain ⟨g, rfl⟩ := Nat.exists_eq_add_of_le hf
    exact readHeader_mono e g
  refine ⟨f0, s'.setUnitEnd, fun fuel hf => ?_, ?_, ?_⟩
  · unfold extractHeader; rw [ex fuel hf]
  · intro hin
    have h1 := extractHeader_inside (ex f0 (Nat.le_refl _)) hin hd (by omega)
    unfold extractHeader at h1
    rw [ex f0 (Nat.le_refl _)] at h1
    simp only [Option.some.injEq, Except.ok.injEq, Prod.mk.injEq, true_and] at h1
    exact h1
  · intro hin
    obtain ⟨s2, h1, h2⟩ := extractHeader_cut (ex f0 (Nat.le_refl _)) hin (by omega)
    unfold extractHeader at h1
    rw [ex f0 (Nat.le_refl _)] at h1
    simp only [Option.some.injEq, Except.ok.injEq, Prod.mk.injEq, true_and] at h1
    rw [h1]; exact h2

/-- One turn of read_entire_hdus on any header that ends. -/
theorem entireTurn_any {F : FloatText} {content : Str} {p d n : Nat} {h : Header} (hh : HeaderAt F content p h) (hp : p < content.length)
    (hb : content.length + 5760 < 2 ^ 63) (hd : NextBoundary (p + 80 * h.cards.length) d) (ha : Announces h n) (hn : n < 2 ^ 63) :
    ∃ N s4 dl, (∀ fuel, N ≤ fuel → ∀ r, entireTurn F fuel r (rd content p) = some (store F r s4 h p dl (window content d n))) ∧
      ((content.length < p + 80 * h.cards.length ∨ (n ≠ 0 ∧ content.length < d + n)) → Stuck s4) := by
  obtain ⟨N, s2, h1, h2, h3⟩ := extractHeader_any hh hp hb hd
  have hpos : (rd content p).pos = p := rfl
  have key : ∃ s4, extractData h s2.tellg.1 = .ok (window content d n, s4) ∧
      ((content.length < p + 80 * h.cards.length ∨ (n ≠ 0 ∧ content.length < d + n)) → Stuck s4) := by
    rcases Nat.lt_or_ge content.length (p + 80 * h.cards.length) with hin | hin
    · have hs := h3 hin
      rw [Stream.tellg_fail hs.1]
      obtain ⟨s4, k1, k2⟩ := extractData_failed ha hn hs
      rw [window_outside (by have := hd.2.1; omega)]
      exact ⟨s4, k1, fun _ => k2⟩
    · rw [h2 hin, Stream.tellg_good (rd_good _ _)]
      simp only
      have hd2 := hd.2.2
      by_cases hc : n ≠ 0 ∧ content.length < d + n
      · have hz : h.dataSize ≠ 0 := fun hz => hc.1 (ha.1 hz)
        obtain ⟨s4, k1, k2⟩ := extractData_cut (content := content) (d := d) hz (ha.2 hz) hc.1 hc.2 hn
        exact ⟨s4, k1, fun _ => k2⟩
      · obtain ⟨q, hq⟩ : ∃ q, (h.dataSize = 0 → q = d) ∧ (h.dataSize ≠ 0 → NextBoundary (d + n) q) := by
          by_cases hz : h.dataSize = 0
          · exact ⟨d, fun _ => rfl, fun hn => absurd hz hn⟩
          · obtain ⟨q, hq⟩ := nextBoundary_exists (d + n); exact ⟨q, fun h0 => absurd h0 hz, fun _ => hq⟩
        refine ⟨rd content q, extractData_inside (fun hz => ⟨ha.1 hz, hq.1 hz⟩) (fun hz => ⟨ha.2 hz, hq.2 hz⟩) ?_ (by omega) hb, ?_⟩
        · by_cases h0 : n = 0
          · exact Or.inl h0
          · refine Or.inr (Nat.le_of_not_lt fun hlt => hc ⟨h0, hlt⟩)
        · rintro (h0 | h0)
          · omega
          · exact absurd h0 hc
  obtain ⟨s4, k1, k2⟩ := key
  refine ⟨N, s4, s2.tellg.2, fun fuel hf r => ?_, k2⟩
  unfold entireTurn
  rw [Stream.tellg_good (rd_good _ _)]
  simp only
  rw [h1 fuel hf]
  simp only
  rw [k1, hpos]

/-- The end of reading at a place where no complete HDU begins. -/
theorem broken_ends {F : FloatText} {content : Str} {p : Nat} {o : Outcome} (hbr : Broken F content p o) (hp : p < content.length)
    (hb : content.length + 5760 < 2 ^ 63) {r : Reader} (hr : r.file = rd content p) :
    (o = .forever ∧ ∀ cards turns, readEntire F cards turns r = none) ∨
      ∃ e N, o = .raised e ∧ ∀ cards turns, N ≤ cards → readEntire F cards (turns + 1) r = some (.error e) := by
  have go : ∀ (fuel n : Nat), readEntire F fuel (n + 1) r = match entireTurn F fuel r (rd content p) with
      | none => none
      | some (.error e) => some (.error e)
      | some (.ok r') => readEntire F fuel n r' := by
    intro fuel n
    conv => lhs; unfold readEntire
    rw [hr, atEnd_rd_inside hp]
    rfl
  have raise : ∀ {e : Err} {N : Nat}, (∀ fuel, N ≤ fuel → entireTurn F fuel r (rd content p) = some (.error e)) →
      ∀ cards turns, N ≤ cards → readEntire F cards (turns + 1) r = some (.error e) := by
    intro e N h cards turns h1
    rw [go, h cards h1]
  have ever : (∀ (fuel n : Nat), readEntire F fuel (n + 1) r = none) → ∀ cards turns, readEntire F cards turns r = none := by
    intro h cards turns
    cases turns with
    | zero => rfl
    | succ t => exact h cards t
  cases hbr with
  | endless he =>
    refine Or.inl ⟨rfl, ever fun fuel n => ?_⟩
    rw [go]
    unfold entireTurn
    rw [Stream.tellg_good (rd_good _ _)]
    simp only
    unfold extractHeader
    rw [C30_never_terminates F Header.empty (rd content p) (rd_good _ _) he fuel]
  | header he =>
    obtain ⟨f0, e⟩ := he
    refine Or.inr ⟨_, f0, rfl, raise fun fuel hf => ?_⟩
    obtain ⟨g, rfl⟩ := Nat.exists_eq_add_of_le hf
    have h1 := readHeader_mono e g
    rw [openRead_at] at h1
    unfold entireTurn
    rw [Stream.tellg_good (rd_good _ _)]
    simp only
    unfold extractHeader
    rw [h1]
  | tooLong hh ha hn =>
    obtain ⟨d, hd⟩ := nextBoundary_exists (p + 80 * _)
    obtain ⟨N, s2, h1, _, _⟩ := extractHeader_any hh hp hb hd
    refine Or.inr ⟨_, N, rfl, raise fun fuel hf => ?_⟩
    unfold entireTurn
    rw [Stream.tellg_good (rd_good _ _)]
    simp only
    rw [h1 fuel hf]
    simp only
    rw [extractData_long ha hn]
  | refused hh hd ha hn hf =>
    obtain ⟨N, s4, dl, h1, _⟩ := entireTurn_any hh hp hb hd ha hn
    refine Or.inr ⟨_, N, rfl, raise fun fuel hfu => ?_⟩
    rw [h1 fuel hfu, store_error hf]
  | cut hh hd ha hn hbu hcut =>
    obtain ⟨N, s4, dl, h1, h2⟩ := entireTurn_any hh hp hb hd ha hn
    obtain ⟨g1, name, x, b1, b2⟩ := hbu
    have hs := h2 hcut
    refine Or.inl ⟨rfl, ever fun fuel n => ?_⟩
    cases hx : readEntire F fuel (n + 1) r with
    | none => rfl
    | some y =>
      exfalso
      have h3 := readEntire_mono (n + 1) hx N 0
      rw [Nat.add_zero, go, h1 (fuel + N) (by omega), store_ok.2 ⟨g1, name, x, b1, b2, rfl⟩] at h3
      simp only at h3
      rw [readEntire_stuck F _ _ _ hs] at h3
      cases h3

/-- At every place inside a file there begins a complete HDU or it is one of the bad cases. -/
theorem complete_or_broken (F : FloatText) (content : Str) (p : Nat) (hp : p < content.length) :
    (∃ e, Complete F content e ∧ e.loc = p) ∨ ∃ o, Broken F content p o := by
  by_cases he : Endless content p
  · exact Or.inr ⟨_, .endless he⟩
  have ht := (C30_terminates_iff F Header.empty (rd content p) (rd_good _ _)).2 (by
    refine Classical.byContradiction fun hn => he fun k => ⟨Classical.byContradiction fun h => hn ⟨k, Or.inr h⟩, fun h => hn ⟨k, Or.inl h⟩⟩)
  obtain ⟨fuel, x, e⟩ := ht
  cases x with
  | error er => exact Or.inr ⟨_, .header ⟨fuel, e⟩⟩
  | ok y =>
    obtain ⟨h, s'⟩ := y
    have hh : HeaderAt F content p h := ⟨fuel, s', e⟩
    obtain ⟨n, ha⟩ := announces_exists hh
    obtain ⟨d, hd⟩ := nextBoundary_exists (p + 80 * h.cards.length)
    rcases Nat.lt_or_ge n (2 ^ 63) with hn | hn
    · rcases builds_or F h (window content d n) with hbu | ⟨er, hf⟩
      · by_cases hcut : content.length < p + 80 * h.cards.length ∨ (n ≠ 0 ∧ content.length < d + n)
        · exact Or.inr ⟨_, .cut hh hd ha hn hbu hcut⟩
        · left
          obtain ⟨h1, name, x, b1, b2⟩ := hbu
          obtain ⟨q, hq⟩ : ∃ q, (h.dataSize = 0 → q = d) ∧ (h.dataSize ≠ 0 → NextBoundary (d + n) q) := by
            by_cases hz : h.dataSize = 0
            · exact ⟨d, fun _ => rfl, fun hn => absurd hz hn⟩
            · obtain ⟨q, hq⟩ := nextBoundary_exists (d + n); exact ⟨q, fun h0 => absurd h0 hz, fun _ => hq⟩
          refine ⟨⟨p, h, d, n, q, name, x⟩, ⟨⟨hh, hp, ?_, hd, fun hz => ⟨ha.1 hz, hq.1 hz⟩, fun hz => ⟨ha.2 hz, hq.2 hz⟩⟩, ?_, h1, b1, b2⟩, rfl⟩
          · exact Nat.le_of_not_lt fun hlt => hcut (Or.inl hlt)
          · by_cases h0 : n = 0
            · exact Or.inl h0
            · exact Or.inr (Nat.le_of_not_lt fun hlt => hcut (Or.inr ⟨h0, hlt⟩))
      · exact Or.inr ⟨_, .refused hh hd ha hn hf⟩
    · exact Or.inr ⟨_, .tooLong hh ha hn⟩

/-! ### Headers-only mode -/

theorem headersTurn_mono {F : FloatText} {fuel : Nat} {r : Reader} {s : Stream} {x : Res Reader} (e : headersTurn F fuel r s = some x) (g : Nat) :
    headersTurn F (fuel + g) r s = some x := by
  unfold headersTurn extractHeader at *
  simp only at *
  cases hr : readHeader F fuel Header.empty s.tellg.1 with
  | none => rw [hr] at e; cases e
  | some y => rw [hr] at e; rw [readHeader_mono hr g]; exact e

theorem readHeaders_mono {F : FloatText} {fuel : Nat} : ∀ (n : Nat) {r : Reader} {x : Res Reader}, readHeaders F fuel n r = some x → ∀ g k,
    readHeaders F (fuel + g) (n + k) r = some x := by
  intro n
  induction n with
  | zero => intro r x e; cases e
  | succ n ih =>
    intro r x e g k
    rw [Nat.succ_add]
    unfold readHeaders at e ⊢
    generalize r.file.atEnd = y at e ⊢
    obtain ⟨s, b⟩ := y
    cases b with
    | true => exact e
    | false =>
      simp only at e ⊢
      cases ht : headersTurn F fuel r s with
      | none => rw [ht] at e; cases e
      | some z =>
        rw [ht] at e
        rw [headersTurn_mono ht g]
        cases z with
        | error er => exact e
        | ok r1 => exact ih e g k

/-- One turn of read_only_headers on any header that ends. -/
theorem headersTurn_any {F : FloatText} {content : Str} {p d : Nat} {h : Header} (hh : HeaderAt F content p h) (hp : p < content.length)
    (hb : content.length + 5760 < 2 ^ 63) (hd : NextBoundary (p + 80 * h.cards.length) d) :
    ∃ N s3 dl, (∀ fuel, N ≤ fuel → ∀ r, headersTurn F fuel r (rd content p) = match store F r s3 h p dl [] with
        | .error e => some (.error e)
        | .ok r' => match skipData h s3 with
          | .error e => some (.error e)
          | .ok s4 => some (.ok { r' with file := s4 })) ∧
      (p + 80 * h.cards.length ≤ content.length → s3 = rd content d) ∧ (content.length < p + 80 * h.cards.length → Stuck s3) := by
  obtain ⟨N, s2, h1, h2, h3⟩ := extractHeader_any hh hp hb hd
  refine ⟨N, s2.tellg.1, s2.tellg.2, fun fuel hf r => ?_, fun hin => ?_, fun hin => ?_⟩
  · unfold headersTurn
    rw [Stream.tellg_good (rd_good _ _)]
    simp only
    rw [h1 fuel hf]
    rfl
  · rw [h2 hin, Stream.tellg_good (rd_good _ _)]
  · have hs := h3 hin
    rw [Stream.tellg_fail hs.1]; exact hs

theorem skipData_some {h : Header} {b : Bitpix} (hb : h.bitpix = some b) (s : Stream) : ∃ s', skipData h s = .ok s' := by
  unfold skipData
  by_cases hz : h.dataSize = 0
  · rw [if_pos hz]; exact ⟨s, rfl⟩
  · rw [if_neg hz, dataBytes_iff.2 ⟨b, hb, rfl⟩]
    exact ⟨_, rfl⟩

theorem brokenHeader_ends {F : FloatText} {content : Str} {p : Nat} {o : Outcome} (hbr : BrokenHeader F content p o) (hp : p < content.length)
    (hb : content.length + 5760 < 2 ^ 63) {r : Reader} (hr : r.file = rd content p) :
    (o = .forever ∧ ∀ cards turns, readHeaders F cards turns r = none) ∨
      ∃ e N, o = .raised e ∧ ∀ cards turns, N ≤ cards → readHeaders F cards (turns + 1) r = some (.error e) := by
  have go : ∀ (fuel n : Nat), readHeaders F fuel (n + 1) r = match headersTurn F fuel r (rd content p) with
      | none => none
      | some (.error e) => some (.error e)
      | some (.ok r') => readHeaders F fuel n r' := by
    intro fuel n
    conv => lhs; unfold readHeaders
    rw [hr, atEnd_rd_inside hp]
    rfl
  have raise : ∀ {e : Err} {N : Nat}, (∀ fuel, N ≤ fuel → headersTurn F fuel r (rd content p) = some (.error e)) →
      ∀ cards turns, N ≤ cards → readHeaders F cards (turns + 1) r = some (.error e) := by
    intro e N h cards turns h1
    rw [go, h cards h1]
  have ever : (∀ (fuel n : Nat), readHeaders F fuel (n + 1) r = none) → ∀ cards turns, readHeaders F cards turns r = none := by
    intro h cards turns
    cases turns with
    | zero => rfl
    | succ t => exact h cards t
  -- a turn that leaves a failed stream
  have lost : ∀ {N : Nat}, (∀ fuel, N ≤ fuel → ∃ r', headersTurn F fuel r (rd content p) = some (.ok r') ∧ Stuck r'.file) →
      ∀ cards turns, readHeaders F cards turns r = none := by
    intro N h
    refine ever fun fuel n => ?_
    cases hx : readHeaders F fuel (n + 1) r with
    | none => rfl
    | some y =>
      exfalso
      have h3 := readHeaders_mono (n + 1) hx N 0
      obtain ⟨r', h4, h5⟩ := h (fuel + N) (by omega)
      rw [Nat.add_zero, go, h4] at h3
      simp only at h3
      rw [readHeaders_stuck F _ _ _ h5] at h3
      cases h3
  cases hbr with
  | endless he =>
    refine Or.inl ⟨rfl, ever fun fuel n => ?_⟩
    rw [go]
    unfold headersTurn
    rw [Stream.tellg_good (rd_good _ _)]
    simp only
    unfold extractHeader
    rw [C30_never_terminates F Header.empty (rd content p) (rd_good _ _) he fuel]
  | header he =>
    obtain ⟨f0, e⟩ := he
    refine Or.inr ⟨_, f0, rfl, raise fun fuel hf => ?_⟩
    obtain ⟨g, rfl⟩ := Nat.exists_eq_add_of_le hf
    have h1 := readHeader_mono e g
    rw [openRead_at] at h1
    unfold headersTurn
    rw [Stream.tellg_good (rd_good _ _)]
    simp only
    unfold extractHeader
    rw [h1]
  | @refused h e hh hf =>
    obtain ⟨d, hd⟩ := nextBoundary_exists (p + 80 * h.cards.length)
    obtain ⟨N, s3, dl, h1, _⟩ := headersTurn_any hh hp hb hd
    refine Or.inr ⟨_, N, rfl, raise fun fuel hfu => ?_⟩
    rw [h1 fuel hfu, store_error hf]
  | @cut h hh hbu hcut =>
    obtain ⟨d, hd⟩ := nextBoundary_exists (p + 80 * h.cards.length)
    obtain ⟨N, s3, dl, h1, _, h2⟩ := headersTurn_any hh hp hb hd
    obtain ⟨g1, name, x, b1, b2⟩ := hbu
    obtain ⟨_, _, e0⟩ := hh
    obtain ⟨b, hbit⟩ := readHeader_bitpix e0
    obtain ⟨s4, h4⟩ := skipData_some hbit s3
    refine Or.inl ⟨rfl, lost (N := N) fun fuel hfu => ?_⟩
    rw [h1 fuel hfu, store_ok.2 ⟨g1, name, x, b1, b2, rfl⟩]
    simp only [h4]
    exact ⟨_, rfl, skipData_stuck (h2 hcut) h4⟩
  | @far h d n q hh hbu hin hd hz hn hq h63 =>
    obtain ⟨N, s3, dl, h1, h2, _⟩ := headersTurn_any hh hp hb hd
    obtain ⟨g1, name, x, b1, b2⟩ := hbu
    obtain ⟨_, _, e0⟩ := hh
    obtain ⟨b, hbit⟩ := readHeader_bitpix e0
    obtain ⟨s4, h4⟩ := skipData_some hbit s3
    refine Or.inl ⟨rfl, lost (N := N) fun fuel hfu => ?_⟩
    have ht : headersTurn F fuel r (rd content p) = some (.ok ⟨s4, r.hdus ++ [x], setInfo r.infos name ⟨p, dl, r.hdus.length⟩⟩) := by
      rw [h1 fuel hfu, store_ok.2 ⟨g1, name, x, b1, b2, rfl⟩]
      simp only [h4]
    refine ⟨_, ht, ?_⟩
    rcases headersTurn_ok hp hb ht with hs | ⟨en, k1, k2, k3⟩
    · exact hs
    · exfalso
      -- the entry would have the same header and data
      obtain ⟨f1, s1, e1⟩ := k1.header
      have hbig := readHeader_mono e1 fuel
      have hbig' := readHeader_mono e0 0
      rw [k2] at hbig
      have hsame : en.header = h := by
        have a := readHeader_bound (F := F) (content := content) (p := p) hbig
        have c := readHeader_bound (F := F) (content := content) (p := p) e0
        rw [a] at c
        exact (congrArg Prod.fst (Except.ok.inj (Option.some.inj c)))
      have hdl : en.dataLoc = d := by
        have := k1.dataLoc
        rw [k2, hsame] at this
        exact Stream.nextBoundary_unique this hd
      obtain ⟨m1, m2, m3⟩ := k1.data (by rw [hsame]; exact hz)
      have hbytes : en.bytes = n := by
        rw [hsame] at m1
        obtain ⟨b1, b2, b3⟩ := m1
        obtain ⟨b4, b5, b6⟩ := hn
        rw [b2] at b5
        cases b5
        rw [b3, b6]
      rw [hdl, hbytes] at m2
      have := Stream.nextBoundary_unique m2 hq
      omega

theorem listed_or_broken (F : FloatText) (content : Str) (p : Nat) (hp : p < content.length) :
    (∃ e, Listed F content e ∧ e.loc = p) ∨ ∃ o, BrokenHeader F content p o := by
  by_cases he : Endless content p
  · exact Or.inr ⟨_, .endless he⟩
  have ht := (C30_terminates_iff F Header.empty (rd content p) (rd_good _ _)).2 (by
    refine Classical.byContradiction fun hn => he fun k => ⟨Classical.byContradiction fun h => hn ⟨k, Or.inr h⟩, fun h => hn ⟨k, Or.inl h⟩⟩)
  obtain ⟨fuel, x, e⟩ := ht
  cases x with
  | error er => exact Or.inr ⟨_, .header ⟨fuel, e⟩⟩
  | ok y =>
    obtain ⟨h, s'⟩ := y
    have hh : HeaderAt F content p h := ⟨fuel, s', e⟩
    rcases builds_or F h [] with hbu | ⟨er, hf⟩
    · rcases Nat.lt_or_ge content.length (p + 80 * h.cards.length) with hin | hin
      · exact Or.inr ⟨_, .cut hh hbu hin⟩
      · obtain ⟨n, ha⟩ := announces_exists hh
        obtain ⟨d, hd⟩ := nextBoundary_exists (p + 80 * h.cards.length)
        by_cases hz : h.dataSize = 0
        · left
          obtain ⟨h1, name, x, b1, b2⟩ := hbu
          exact ⟨⟨p, h, d, 0, d, name, x⟩, ⟨hh, hp, hin, hd, fun _ => ⟨rfl, rfl⟩, fun hn => absurd hz hn, h1, b1, b2⟩, rfl⟩
        · obtain ⟨q, hq⟩ := nextBoundary_exists ((d + n) % 2 ^ 64)
          rcases Nat.lt_or_ge q (2 ^ 63) with h63 | h63
          · left
            obtain ⟨h1, name, x, b1, b2⟩ := hbu
            exact ⟨⟨p, h, d, n, q, name, x⟩, ⟨hh, hp, hin, hd, fun h0 => absurd h0 hz, fun _ => ⟨ha.2 hz, hq, h63⟩, h1, b1, b2⟩, rfl⟩
          · exact Or.inr ⟨_, .far hh hbu hin hd hz (ha.2 hz) hq h63⟩
    · exact Or.inr ⟨_, .refused hh hf⟩

end Reader

/-! ### Chains -/

theorem chain_split {P : Entry → Prop} : ∀ {es fs : List Entry} {p q : Nat}, Chain P p (es ++ fs) q → ∃ m, Chain P p es m ∧ Chain P m fs q
  | [], _, p, _, h => ⟨p, rfl, h⟩
  | _ :: _, _, _, _, h => by
    obtain ⟨m, h1, h2⟩ := chain_split h.2.2
    exact ⟨m, ⟨h.1, h.2.1, h1⟩, h2⟩

theorem chain_each {P : Entry → Prop} : ∀ {es : List Entry} {p q : Nat}, Chain P p es q → ∀ e ∈ es, P e
  | _ :: _, _, _, h, e, he => by
    rcases List.mem_cons.1 he with rfl | he
    · exact h.2.1
    · exact chain_each h.2.2 e he

theorem chain_blocks {P : Entry → Prop} (hP : ∀ e, P e → 2880 ∣ e.next) : ∀ {es : List Entry} {p q : Nat}, Chain P p es q → 2880 ∣ p →
    2880 ∣ q ∧ ∀ e ∈ es, 2880 ∣ e.loc
  | [], _, _, h, hp => by cases h; exact ⟨hp, nofun⟩
  | e :: es, _, _, h, hp => by
    obtain ⟨g1, g2⟩ := chain_blocks hP h.2.2 (hP e h.2.1)
    refine ⟨g1, fun x hx => ?_⟩
    rcases List.mem_cons.1 hx with rfl | hx
    · rw [h.1]; exact hp
    · exact g2 x hx

/-- More HDUs than blocks: some place was visited twice. -/
theorem chain_returns {P : Entry → Prop} {content : Str} (hP : ∀ e, P e → 2880 ∣ e.next ∧ e.loc < content.length) {es : List Entry} {q : Nat}
    (hc : Chain P 0 es q) (hl : content.length / 2880 + 1 < es.length) :
    ∃ as bs m, Chain P 0 as m ∧ bs ≠ [] ∧ Chain P m bs m := by
  obtain ⟨_, hloc⟩ := chain_blocks (fun e he => (hP e he).1) hc ⟨0, rfl⟩
  have hnd : ¬ (es.map fun e => e.loc / 2880).Nodup := by
    intro hn
    have h1 : (es.map fun e => e.loc / 2880).toFinset ⊆ Finset.range (content.length / 2880 + 1) := by
      intro x hx
      rw [List.mem_toFinset, List.mem_map] at hx
      obtain ⟨e, he, rfl⟩ := hx
      rw [Finset.mem_range]
      have := (hP e (chain_each hc e he)).2
      omega
    have h2 := Finset.card_le_card h1
    rw [List.toFinset_card_of_nodup hn, List.length_map, Finset.card_range] at h2
    omega
  rw [List.nodup_iff_getElem?_ne_getElem?] at hnd
  push Not at hnd
  obtain ⟨i, j, hij, hj, he⟩ := hnd
  rw [List.length_map] at hj
  have hi : i < es.length := by omega
  rw [List.getElem?_eq_getElem (by rw [List.length_map]; exact hi), List.getElem?_eq_getElem (by rw [List.length_map]; exact hj),
    List.getElem_map, List.getElem_map, Option.some.injEq] at he
  have d1 := hloc _ (List.getElem_mem hi)
  have d2 := hloc _ (List.getElem_mem hj)
  have hsame : es[i].loc = es[j].loc := by omega
  have e1 : es = es.take i ++ ((es.drop i).take (j - i) ++ es.drop j) := by
    have : es.drop j = (es.drop i).drop (j - i) := by rw [List.drop_drop]; congr 1; omega
    rw [this, List.take_append_drop, List.take_append_drop]
  rw [e1] at hc
  obtain ⟨m, c1, c2⟩ := chain_split hc
  obtain ⟨m', c3, c4⟩ := chain_split c2
  rw [List.drop_eq_getElem_cons hj] at c4
  have hm' : es[j].loc = m' := c4.1
  rw [List.drop_eq_getElem_cons hi, show j - i = (j - i - 1) + 1 by omega, List.take_succ_cons] at c3
  have hm : es[i].loc = m := c3.1
  have hmm : m' = m := by rw [← hm', ← hsame, hm]
  rw [hmm] at c3
  exact ⟨_, _, m, c1, List.cons_ne_nil _ _, c3⟩

end Astro
