import Verif.Lemmas.FitsAny
import Verif.Lemmas.FitsCopy

/-
Property C134: what reading does to a file of any bytes.
-/

namespace Astro

open Spec Header Reader

/-- A call ends in one way only. -/
theorem endsIn_unique {run : Nat → Nat → Option (Res Reader)} {o o' : Outcome} (h : EndsIn run o) (h' : EndsIn run o') : o = o' := by
  cases o with
  | opened a =>
    obtain ⟨N, r, h1, h2⟩ := h
    cases o' with
    | opened b =>
      obtain ⟨N', r', h1', h2'⟩ := h'
      have := h2 (max N N') (max N N') (by omega) (by omega)
      rw [h2' (max N N') (max N N') (by omega) (by omega)] at this
      have := Except.ok.inj (Option.some.inj this)
      rw [← h1, ← h1', this]
    | raised e =>
      obtain ⟨N', h2'⟩ := h'
      have := h2 (max N N') (max N N') (by omega) (by omega)
      rw [h2' (max N N') (max N N') (by omega) (by omega)] at this
      cases this
    | forever => have := h2 N N (by omega) (by omega); rw [h' N N] at this; cases this
  | raised e =>
    obtain ⟨N, h2⟩ := h
    cases o' with
    | opened b =>
      obtain ⟨N', r', h1', h2'⟩ := h'
      have := h2 (max N N') (max N N') (by omega) (by omega)
      rw [h2' (max N N') (max N N') (by omega) (by omega)] at this
      cases this
    | raised e' =>
      obtain ⟨N', h2'⟩ := h'
      have := h2 (max N N') (max N N') (by omega) (by omega)
      rw [h2' (max N N') (max N N') (by omega) (by omega)] at this
      cases this; rfl
    | forever => have := h2 N N (by omega) (by omega); rw [h' N N] at this; cases this
  | forever =>
    cases o' with
    | opened b => obtain ⟨N', r', h1', h2'⟩ := h'; have := h2' N' N' (by omega) (by omega); rw [h N' N'] at this; cases this
    | raised e => obtain ⟨N', h2'⟩ := h'; have := h2' N' N' (by omega) (by omega); rw [h N' N'] at this; cases this
    | forever => rfl

/-! ### read_entire_hdus -/

/-- Complete HDUs are followed by more HDUs, by the end of the file, or by something broken. -/
theorem entire_places (F : FloatText) (content : Str) : ∀ (k p : Nat), content.length ≤ p + k →
    ∃ es q, Chain (Complete F content) p es q ∧ (content.length ≤ q ∨ (q < content.length ∧ ∃ o, Broken F content q o)) := by
  intro k
  induction k with
  | zero => intro p hp; exact ⟨[], p, rfl, Or.inl (by omega)⟩
  | succ k ih =>
    intro p hp
    rcases Nat.lt_or_ge p content.length with h | h
    · rcases complete_or_broken F content p h with ⟨e, h1, h2⟩ | ho
      · have hlt : p < e.next := by rw [← h2]; have := entry_order h1.toPlaced; omega
        obtain ⟨es, q, h3, h4⟩ := ih e.next (by omega)
        exact ⟨e :: es, q, ⟨h2, h1, h3⟩, h4⟩
      · exact ⟨[], p, rfl, Or.inr ⟨h, ho⟩⟩
    · exact ⟨[], p, rfl, Or.inl h⟩

/-- Behind complete HDUs reading goes on as if it began there. -/
theorem entire_ends {F : FloatText} {content : Str} (hb : content.length + 5760 < 2 ^ 63) {es : List Entry} {q : Nat}
    (hc : Chain (Complete F content) 0 es q) (hq : q < content.length) {o : Outcome} (ho : Broken F content q o) :
    EndsIn (fun cards turns => readEntire F cards turns (openFile content)) o := by
  obtain ⟨N, h⟩ := readEntire_chain hb es 0 q hc
  rcases broken_ends ho hq hb (r := ⟨rd content q, (openFile content).hdus ++ es.map (·.hdu),
    addInfos (openFile content).infos (openFile content).hdus.length es⟩) rfl with ⟨rfl, h1⟩ | ⟨e, N', rfl, h1⟩
  · intro cards turns
    simp only
    cases hx : readEntire F cards turns (openFile content) with
    | none => rfl
    | some x =>
      exfalso
      have h4 := readEntire_mono turns hx N es.length
      rw [h (cards + N) (by omega) turns (openFile content) rfl, h1 (cards + N) turns] at h4
      cases h4
  · refine ⟨N + N' + es.length + 1, fun cards turns h4 h5 => ?_⟩
    obtain ⟨t, rfl⟩ : ∃ t, turns = (t + 1) + es.length := ⟨turns - 1 - es.length, by omega⟩
    simp only
    rw [h cards (by omega) (t + 1) (openFile content) rfl]
    exact h1 cards t (by omega)

/-- **C134** Whatever the bytes of a file are, opening it ends in exactly one of these ways: all of it consists of complete HDUs and these are the result; or,
behind complete HDUs, there is a place where something is broken, and the kind of damage decides between an exception and a call that never returns. -/
theorem C134_entire (F : FloatText) (content : Str) (hb : content.length + 5760 < 2 ^ 63) (o : Outcome) :
    EndsIn (fun cards turns => readEntire F cards turns (openFile content)) o ↔
      (∃ es, FileOf F content es ∧ o = .opened (es.map (·.hdu))) ∨
      ∃ es p, Chain (Complete F content) 0 es p ∧ p < content.length ∧ Broken F content p o := by
  have opens : ∀ es, FileOf F content es → EndsIn (fun cards turns => readEntire F cards turns (openFile content)) (.opened (es.map (·.hdu))) := by
    intro es h
    obtain ⟨N, r, h1, h2⟩ := C31_open_total F content hb es h
    exact ⟨N, r, h2, h1⟩
  constructor
  · intro h
    obtain ⟨es, q, h1, h2 | ⟨h2, o', h3⟩⟩ := entire_places F content content.length 0 (by omega)
    · exact Or.inl ⟨es, ⟨q, h1, h2⟩, endsIn_unique h (opens es ⟨q, h1, h2⟩)⟩
    · refine Or.inr ⟨es, q, h1, h2, ?_⟩
      rw [endsIn_unique h (entire_ends hb h1 h2 h3)]
      exact h3
  · rintro (⟨es, h, rfl⟩ | ⟨es, p, h1, h2, h3⟩)
    · exact opens es h
    · exact entire_ends hb h1 h2 h3

/-- **C134** There is always an outcome. -/
theorem C134_entire_total (F : FloatText) (content : Str) (hb : content.length + 5760 < 2 ^ 63) :
    ∃ o, EndsIn (fun cards turns => readEntire F cards turns (openFile content)) o := by
  obtain ⟨es, q, h1, h2 | ⟨h2, o', h3⟩⟩ := entire_places F content content.length 0 (by omega)
  · exact ⟨_, (C134_entire F content hb _).2 (Or.inl ⟨es, ⟨q, h1, h2⟩, rfl⟩)⟩
  · exact ⟨o', (C134_entire F content hb _).2 (Or.inr ⟨es, q, h1, h2, h3⟩)⟩

namespace Reader

theorem entireTurn_bound {F : FloatText} {content : Str} {p fuel : Nat} {r : Reader} {x : Res Reader}
    (e : entireTurn F fuel r (rd content p) = some x) : entireTurn F (content.length / 80 + 1) r (rd content p) = some x := by
  unfold entireTurn extractHeader at *
  rw [Stream.tellg_good (rd_good _ _)] at *
  simp only at *
  cases hr : readHeader F fuel Header.empty (rd content p) with
  | none => rw [hr] at e; cases e
  | some y => rw [hr] at e; rw [readHeader_bound hr]; exact e

theorem readEntire_fuel {F : FloatText} {content : Str} (hb : content.length + 5760 < 2 ^ 63) {fuel : Nat} : ∀ (n p : Nat) (r : Reader) (x : Res Reader),
    r.file = rd content p → readEntire F fuel n r = some x → readEntire F (content.length / 80 + 1) n r = some x := by
  intro n
  induction n with
  | zero => intro p r x _ e; cases e
  | succ n ih =>
    intro p r x hr e
    rcases Nat.lt_or_ge p content.length with hp | hp
    · unfold readEntire at e ⊢
      rw [hr, atEnd_rd_inside hp] at e ⊢
      simp only at e ⊢
      cases ht : entireTurn F fuel r (rd content p) with
      | none => rw [ht] at e; cases e
      | some y =>
        rw [ht] at e
        rw [entireTurn_bound ht]
        cases y with
        | error er => exact e
        | ok r1 =>
          simp only at e ⊢
          rcases entireTurn_ok hp hb ht with hs | ⟨en, _, _, k3⟩
          · rw [readEntire_stuck F fuel n r1 hs] at e; cases e
          · exact ih en.next r1 x (by rw [k3]) e
    · rw [readEntire_end hp hr] at e ⊢; exact e

theorem headersTurn_bound {F : FloatText} {content : Str} {p fuel : Nat} {r : Reader} {x : Res Reader}
    (e : headersTurn F fuel r (rd content p) = some x) : headersTurn F (content.length / 80 + 1) r (rd content p) = some x := by
  unfold headersTurn extractHeader at *
  rw [Stream.tellg_good (rd_good _ _)] at *
  simp only at *
  cases hr : readHeader F fuel Header.empty (rd content p) with
  | none => rw [hr] at e; cases e
  | some y => rw [hr] at e; rw [readHeader_bound hr]; exact e

theorem readHeaders_fuel {F : FloatText} {content : Str} (hb : content.length + 5760 < 2 ^ 63) {fuel : Nat} : ∀ (n p : Nat) (r : Reader) (x : Res Reader),
    r.file = rd content p → readHeaders F fuel n r = some x → readHeaders F (content.length / 80 + 1) n r = some x := by
  intro n
  induction n with
  | zero => intro p r x _ e; cases e
  | succ n ih =>
    intro p r x hr e
    rcases Nat.lt_or_ge p content.length with hp | hp
    · unfold readHeaders at e ⊢
      rw [hr, atEnd_rd_inside hp] at e ⊢
      simp only at e ⊢
      cases ht : headersTurn F fuel r (rd content p) with
      | none => rw [ht] at e; cases e
      | some y =>
        rw [ht] at e
        rw [headersTurn_bound ht]
        cases y with
        | error er => exact e
        | ok r1 =>
          simp only at e ⊢
          rcases headersTurn_ok hp hb ht with hs | ⟨en, _, _, k3⟩
          · rw [readHeaders_stuck F fuel n r1 hs] at e; cases e
          · exact ih en.next r1 x (by rw [k3]) e
    · rw [readHeaders_end hp hr] at e ⊢; exact e

end Reader

theorem complete_block {F : FloatText} {content : Str} (e : Entry) (h : Complete F content e) : 2880 ∣ e.next ∧ e.loc < content.length := by
  refine ⟨?_, h.start⟩
  by_cases hz : e.header.dataSize = 0
  · rw [(h.noData hz).2]; exact h.dataLoc.1
  · exact (h.data hz).2.1

theorem listed_block {F : FloatText} {content : Str} (e : Entry) (h : Listed F content e) : 2880 ∣ e.next ∧ e.loc < content.length := by
  refine ⟨?_, h.start⟩
  by_cases hz : e.header.dataSize = 0
  · rw [(h.noData hz).2]; exact h.dataLoc.1
  · exact (h.data hz).2.1.1

/-- A file has at most one HDU per block. -/
theorem complete_count {F : FloatText} {content : Str} {es : List Entry} {q : Nat} (hc : Chain (Complete F content) 0 es q) :
    es.length ≤ content.length / 2880 + 1 := by
  refine Nat.le_of_not_lt fun hlt => ?_
  obtain ⟨as, bs, m, _, h2, h3⟩ := chain_returns complete_block hc hlt
  cases bs with
  | nil => exact h2 rfl
  | cons e bs =>
    have h4 := chain_le h3.2.2
    have := entry_order h3.2.1.toPlaced
    have := h3.1
    omega

/-- **C134** A time limit: opening a file that has not ended after as many cards in one header as there are in the whole file (and one), or after as many HDUs
as it has blocks (and two), will never end. -/
theorem C134_entire_limit (F : FloatText) (content : Str) (hb : content.length + 5760 < 2 ^ 63)
    (h : readEntire F (content.length / 80 + 1) (content.length / 2880 + 2) (openFile content) = none) (cards turns : Nat) :
    readEntire F cards turns (openFile content) = none := by
  cases hx : readEntire F cards turns (openFile content) with
  | none => rfl
  | some x =>
    exfalso
    have key : ∃ fuel n, n ≤ content.length / 2880 + 2 ∧ ∃ y, readEntire F fuel n (openFile content) = some y := by
      obtain ⟨es, q, h1, h2⟩ := entire_places F content content.length 0 (by omega)
      have hl := complete_count h1
      obtain ⟨N, h3⟩ := readEntire_chain hb es 0 q h1
      have h4 := readEntire_mono turns hx N es.length
      rw [h3 (cards + N) (by omega) turns (openFile content) rfl] at h4
      rcases h2 with h2 | ⟨h2, o, h5⟩
      · refine ⟨N, 1 + es.length, by omega, ?_⟩
        rw [h3 N (by omega) 1 (openFile content) rfl]
        exact ⟨_, readEntire_end h2 rfl⟩
      · rcases broken_ends h5 h2 hb (r := ⟨rd content q, (openFile content).hdus ++ es.map (·.hdu),
          addInfos (openFile content).infos (openFile content).hdus.length es⟩) rfl with ⟨_, h6⟩ | ⟨e, N', _, h6⟩
        · rw [h6] at h4; cases h4
        · refine ⟨N + N', 1 + es.length, by omega, ?_⟩
          rw [h3 (N + N') (by omega) 1 (openFile content) rfl]
          exact ⟨_, h6 (N + N') 0 (by omega)⟩
    obtain ⟨fuel, n, hn, y, hy⟩ := key
    have h7 := readEntire_mono n (readEntire_fuel hb n 0 _ _ rfl hy) 0 (content.length / 2880 + 2 - n)
    rw [Nat.add_zero, show n + (content.length / 2880 + 2 - n) = content.length / 2880 + 2 by omega, h] at h7
    cases h7

/-! ### read_only_headers -/

theorem headers_places_upto (F : FloatText) (content : Str) : ∀ n : Nat, (∃ es q, Chain (Listed F content) 0 es q ∧ es.length = n) ∨
    ∃ es q, Chain (Listed F content) 0 es q ∧ es.length < n ∧ (content.length ≤ q ∨ (q < content.length ∧ ∃ o, BrokenHeader F content q o)) := by
  intro n
  induction n with
  | zero => exact Or.inl ⟨[], 0, rfl, rfl⟩
  | succ n ih =>
    rcases ih with ⟨es, q, h1, h2⟩ | ⟨es, q, h1, h2, h3⟩
    · rcases Nat.lt_or_ge q content.length with hq | hq
      · rcases listed_or_broken F content q hq with ⟨e, h3, h4⟩ | h3
        · exact Or.inl ⟨es ++ [e], e.next, chain_append h1 ⟨h4, h3, rfl⟩, by rw [List.length_append, h2]; rfl⟩
        · exact Or.inr ⟨es, q, h1, by omega, Or.inr ⟨hq, h3⟩⟩
      · exact Or.inr ⟨es, q, h1, by omega, Or.inl hq⟩
    · exact Or.inr ⟨es, q, h1, by omega, h3⟩

/-- The headers are followed by the end of the file or something broken, or they lead in a circle. -/
theorem headers_places (F : FloatText) (content : Str) :
    (∃ es q, Chain (Listed F content) 0 es q ∧ es.length ≤ content.length / 2880 + 1 ∧
      (content.length ≤ q ∨ (q < content.length ∧ ∃ o, BrokenHeader F content q o))) ∨
    ∃ as bs m, Chain (Listed F content) 0 as m ∧ bs ≠ [] ∧ Chain (Listed F content) m bs m := by
  rcases headers_places_upto F content (content.length / 2880 + 2) with ⟨es, q, h1, h2⟩ | ⟨es, q, h1, h2, h3⟩
  · exact Or.inr (chain_returns listed_block h1 (by omega))
  · exact Or.inl ⟨es, q, h1, by omega, h3⟩

theorem headers_ends {F : FloatText} {content : Str} (hb : content.length + 5760 < 2 ^ 63) {es : List Entry} {q : Nat}
    (hc : Chain (Listed F content) 0 es q) (hq : q < content.length) {o : Outcome} (ho : BrokenHeader F content q o) :
    EndsIn (fun cards turns => readHeaders F cards turns (openFile content)) o := by
  obtain ⟨N, h⟩ := readHeaders_chain hb es 0 q hc
  rcases brokenHeader_ends ho hq hb (r := ⟨rd content q, (openFile content).hdus ++ es.map (·.hdu),
    addInfos (openFile content).infos (openFile content).hdus.length es⟩) rfl with ⟨rfl, h1⟩ | ⟨e, N', rfl, h1⟩
  · intro cards turns
    simp only
    cases hx : readHeaders F cards turns (openFile content) with
    | none => rfl
    | some x =>
      exfalso
      have h4 := readHeaders_mono turns hx N es.length
      rw [h (cards + N) (by omega) turns (openFile content) rfl, h1 (cards + N) turns] at h4
      cases h4
  · refine ⟨N + N' + es.length + 1, fun cards turns h4 h5 => ?_⟩
    obtain ⟨t, rfl⟩ : ∃ t, turns = (t + 1) + es.length := ⟨turns - 1 - es.length, by omega⟩
    simp only
    rw [h cards (by omega) (t + 1) (openFile content) rfl]
    exact h1 cards t (by omega)

theorem chain_around {P : Entry → Prop} {bs : List Entry} {m : Nat} (hb : bs ≠ []) (hc : Chain P m bs m) : ∀ k, ∃ cs, Chain P m cs m ∧ k ≤ cs.length
  | 0 => ⟨[], rfl, Nat.le_refl _⟩
  | k + 1 => by
    obtain ⟨cs, h1, h2⟩ := chain_around hb hc k
    refine ⟨bs ++ cs, chain_append hc h1, ?_⟩
    have := List.length_pos_iff.2 hb
    rw [List.length_append]; omega

theorem headers_circle {F : FloatText} {content : Str} (hb : content.length + 5760 < 2 ^ 63) {as bs : List Entry} {m : Nat}
    (ha : Chain (Listed F content) 0 as m) (hne : bs ≠ []) (hc : Chain (Listed F content) m bs m) (cards turns : Nat) :
    readHeaders F cards turns (openFile content) = none := by
  cases hx : readHeaders F cards turns (openFile content) with
  | none => rfl
  | some x =>
    exfalso
    obtain ⟨cs, h1, h2⟩ := chain_around hne hc turns
    have h3 := chain_append ha h1
    obtain ⟨N, h4⟩ := readHeaders_chain hb _ 0 m h3
    have h5 := readHeaders_mono turns hx N ((as ++ cs).length - turns)
    have hl : turns + ((as ++ cs).length - turns) = 0 + (as ++ cs).length := by rw [List.length_append]; omega
    rw [hl, h4 (cards + N) (by omega) 0 (openFile content) rfl] at h5
    cases h5

/-- **C134** Likewise the headers-only mode: it lists the HDUs if the headers follow each other to the end of the file; otherwise it comes to a place that
decides between an exception and a call that never returns, or the announced lengths lead it back to a place where it was before. -/
theorem C134_headers (F : FloatText) (content : Str) (hb : content.length + 5760 < 2 ^ 63) (o : Outcome) :
    EndsIn (fun cards turns => readHeaders F cards turns (openFile content)) o ↔
      (∃ es, HeadersOf F content es ∧ o = .opened (es.map (·.hdu))) ∨
      (∃ es p, Chain (Listed F content) 0 es p ∧ p < content.length ∧ BrokenHeader F content p o) ∨
      ∃ as bs p, Chain (Listed F content) 0 as p ∧ bs ≠ [] ∧ Chain (Listed F content) p bs p ∧ o = .forever := by
  have opens : ∀ es, HeadersOf F content es → EndsIn (fun cards turns => readHeaders F cards turns (openFile content)) (.opened (es.map (·.hdu))) := by
    rintro es ⟨q, h1, h2⟩
    obtain ⟨N, h3⟩ := readHeaders_chain hb es 0 q h1
    refine ⟨max N (1 + es.length), ⟨{ rd content q with eof := true }, es.map (·.hdu), addInfos [] 0 es⟩, rfl, ?_⟩
    intro fuel n hf hn
    obtain ⟨k, hk⟩ : ∃ k, n = (k + 1) + es.length := ⟨n - 1 - es.length, by omega⟩
    simp only
    rw [hk, h3 fuel (by omega) (k + 1) (openFile content) rfl, readHeaders_end h2 rfl]
    simp [openFile]
  constructor
  · intro h
    rcases headers_places F content with ⟨es, q, h1, _, h2 | ⟨h2, o', h3⟩⟩ | ⟨as, bs, m, h1, h2, h3⟩
    · exact Or.inl ⟨es, ⟨q, h1, h2⟩, endsIn_unique h (opens es ⟨q, h1, h2⟩)⟩
    · refine Or.inr (Or.inl ⟨es, q, h1, h2, ?_⟩)
      rw [endsIn_unique h (headers_ends hb h1 h2 h3)]
      exact h3
    · exact Or.inr (Or.inr ⟨as, bs, m, h1, h2, h3, endsIn_unique (o' := .forever) h (headers_circle hb h1 h2 h3)⟩)
  · rintro (⟨es, h, rfl⟩ | ⟨es, p, h1, h2, h3⟩ | ⟨as, bs, m, h1, h2, h3, rfl⟩)
    · exact opens es h
    · exact headers_ends hb h1 h2 h3
    · exact headers_circle hb h1 h2 h3

theorem C134_headers_total (F : FloatText) (content : Str) (hb : content.length + 5760 < 2 ^ 63) :
    ∃ o, EndsIn (fun cards turns => readHeaders F cards turns (openFile content)) o := by
  rcases headers_places F content with ⟨es, q, h1, _, h2 | ⟨h2, o', h3⟩⟩ | ⟨as, bs, m, h1, h2, h3⟩
  · exact ⟨_, (C134_headers F content hb _).2 (Or.inl ⟨es, ⟨q, h1, h2⟩, rfl⟩)⟩
  · exact ⟨o', (C134_headers F content hb _).2 (Or.inr (Or.inl ⟨es, q, h1, h2, h3⟩))⟩
  · exact ⟨.forever, (C134_headers F content hb _).2 (Or.inr (Or.inr ⟨as, bs, m, h1, h2, h3, rfl⟩))⟩

/-- **C134** The same time limit holds for the headers-only mode, although it can move backwards in the file. -/
theorem C134_headers_limit (F : FloatText) (content : Str) (hb : content.length + 5760 < 2 ^ 63)
    (h : readHeaders F (content.length / 80 + 1) (content.length / 2880 + 2) (openFile content) = none) (cards turns : Nat) :
    readHeaders F cards turns (openFile content) = none := by
  rcases headers_places F content with ⟨es, q, h1, hl, h2⟩ | ⟨as, bs, m, h1, h2, h3⟩
  · obtain ⟨N, h3⟩ := readHeaders_chain hb es 0 q h1
    have done : ∀ {fuel : Nat} {y : Res Reader}, readHeaders F fuel (1 + es.length) (openFile content) = some y → False := by
      intro fuel y hy
      have h7 := readHeaders_mono _ (readHeaders_fuel hb _ 0 _ _ rfl hy) 0 (content.length / 2880 + 2 - (1 + es.length))
      rw [Nat.add_zero, show 1 + es.length + (content.length / 2880 + 2 - (1 + es.length)) = content.length / 2880 + 2 by omega, h] at h7
      cases h7
    rcases h2 with h2 | ⟨h2, o, h5⟩
    · exact (done ((h3 N (by omega) 1 (openFile content) rfl).trans (readHeaders_end h2 rfl))).elim
    · rcases brokenHeader_ends h5 h2 hb (r := ⟨rd content q, (openFile content).hdus ++ es.map (·.hdu),
          addInfos (openFile content).infos (openFile content).hdus.length es⟩) rfl with ⟨rfl, _⟩ | ⟨e, N', _, h6⟩
      · exact headers_ends hb h1 h2 h5 cards turns
      · exact (done ((h3 (N + N') (by omega) 1 (openFile content) rfl).trans (h6 (N + N') 0 (by omega)))).elim
  · exact headers_circle hb h1 h2 h3 cards turns

/-! ### Examples -/

/-- The empty file has no HDUs. -/
example (F : FloatText) : EndsIn (fun cards turns => readEntire F cards turns (openFile [])) (.opened []) :=
  (C134_entire F [] (by decide) _).2 (Or.inl ⟨[], ⟨0, rfl, Nat.le_refl _⟩, rfl⟩)

/-- A text file that is not a FITS file is refused at once. -/
example (F : FloatText) : EndsIn (fun cards turns => readEntire F cards turns (openFile b!"Hello, world\n")) (.raised .invalidCard) := by
  refine (C134_entire F _ (by decide) _).2 (Or.inr ⟨[], 0, rfl, by decide, .header ⟨1, ?_⟩⟩)
  rfl

/-- The file that was cut in its data: a computation of three turns shows that it is read for ever. -/
example (cards turns : Nat) : readEntire exNoFloats cards turns (openFile (exBlock exPrimary.flatten ++ [0, 1])) = none := by
  have hl : (exBlock exPrimary.flatten ++ [0, 1]).length = 2882 := by decide +kernel
  refine C134_entire_limit exNoFloats _ (by rw [hl]; decide) ?_ cards turns
  rw [hl]
  have : (readEntire exNoFloats 37 3 (openFile (exBlock exPrimary.flatten ++ [0, 1]))).isNone = true := by decide +kernel
  exact Option.isNone_iff_eq_none.1 this

/-- The image that announces 2^64 - 5760 bytes: listing the headers never ends. -/
example (cards turns : Nat) : readHeaders exNoFloats cards turns (openFile (exBlock exEmpty.flatten ++ exBlock exWrap.flatten)) = none := by
  have hl : (exBlock exEmpty.flatten ++ exBlock exWrap.flatten).length = 5760 := by decide +kernel
  refine C134_headers_limit exNoFloats _ (by rw [hl]; decide) ?_ cards turns
  rw [hl]
  have : (readHeaders exNoFloats 73 4 (openFile (exBlock exEmpty.flatten ++ exBlock exWrap.flatten))).isNone = true := by decide +kernel
  exact Option.isNone_iff_eq_none.1 this

end Astro
