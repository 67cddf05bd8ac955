import Verif.Model.Stream
import Verif.Spec.File
import Verif.Lemmas.Text

/-
Lemmas about the file stream.
-/

namespace Astro

open Spec

theorem window_eq (c : Str) (p n : Nat) :
    window c p n = (c.drop p).take n ++ spaces (n - ((c.drop p).take n).length) := by
  apply List.ext_getElem?
  intro i
  unfold window
  rw [List.getElem?_map]
  by_cases hi : i < n
  · rw [List.getElem?_range hi]
    simp only [Option.map_some, List.getD_eq_getElem?_getD]
    by_cases hc : p + i < c.length
    · rw [List.getElem?_append_left (by simp; omega), List.getElem?_take, if_pos hi, List.getElem?_drop, List.getElem?_eq_getElem hc]
      rfl
    · rw [List.getElem?_append_right (by simp; omega), List.getElem?_eq_none (by omega)]
      unfold spaces
      rw [List.getElem?_replicate, if_pos (by simp; omega)]
      rfl
  · rw [List.getElem?_eq_none (by simp; omega), List.getElem?_eq_none]
    · rfl
    · simp [spaces]; omega

theorem window_length (c : Str) (p n : Nat) : (window c p n).length = n := by simp [window]

theorem window_inside {c : Str} {p n : Nat} (h : p + n ≤ c.length) : window c p n = (c.drop p).take n := by
  rw [window_eq]
  have : ((c.drop p).take n).length = n := by simp; omega
  rw [this]; simp [spaces]

theorem window_outside {c : Str} {p n : Nat} (h : c.length ≤ p) : window c p n = spaces n := by
  rw [window_eq, List.drop_of_length_le h]; simp

namespace Stream

theorem sentry_good {s : Stream} (h : s.good = true) : s.sentry = s := by
  unfold sentry; rw [if_pos h]

theorem sentry_fail {s : Stream} (h : s.fail = true) : s.sentry = s := by
  unfold sentry
  cases hg : s.good with
  | true => simp
  | false =>
    simp only [Bool.false_eq_true, if_false]
    cases s; simp only at h; subst h; rfl

theorem good_iff {s : Stream} : s.good = true ↔ s.eof = false ∧ s.fail = false := by
  simp [good]

theorem good_of_fail {s : Stream} (h : s.fail = true) : s.good = false := by
  simp [good, h]

theorem tellg_good {s : Stream} (h : s.good = true) : s.tellg = (s, s.pos) := by
  unfold tellg
  rw [sentry_good h]
  simp [(good_iff.1 h).2]

theorem tellg_fail {s : Stream} (h : s.fail = true) : s.tellg = (s, sizeMod - 1) := by
  unfold tellg
  rw [sentry_fail h]
  simp [h]

theorem seekg_good {s : Stream} (h : s.fail = false) {p : Nat} (hp : p < 2 ^ 63) :
    s.seekg p = { s with pos := p, eof := false } := by
  unfold seekg
  have : ({ s with eof := false } : Stream).good = true := by simp [good, h]
  rw [sentry_good this]
  simp [h, hp]

theorem seekg_fail {s : Stream} (h : s.fail = true) (p : Nat) : s.seekg p = { s with eof := false } := by
  unfold seekg
  rw [sentry_fail (by exact h)]
  simp [h]

theorem findUnitEnd_good {s : Stream} (h : s.good = true) (hp : s.pos + 2880 < sizeMod) :
    ∃ e, s.findUnitEnd = (s, e) ∧ NextBoundary s.pos e := by
  refine ⟨s.pos + (2880 - s.pos % 2880), ?_, ?_, ?_, ?_⟩
  · unfold findUnitEnd
    rw [tellg_good h]
    simp only [Prod.mk.injEq, true_and]
    rw [Nat.mod_eq_of_lt (by omega)]
  · omega
  · omega
  · omega

theorem nextBoundary_unique {p e e' : Nat} (h : NextBoundary p e) (h' : NextBoundary p e') : e = e' := by
  obtain ⟨⟨a, rfl⟩, h2, h3⟩ := h
  obtain ⟨⟨b, rfl⟩, h5, h6⟩ := h'
  omega

theorem setUnitEnd_good {s : Stream} (h : s.good = true) (hp : s.pos + 2880 < 2 ^ 63) :
    ∃ e, s.setUnitEnd = { s with pos := e } ∧ NextBoundary s.pos e := by
  obtain ⟨e, h1, h2⟩ := findUnitEnd_good h (by unfold sizeMod; omega)
  refine ⟨e, ?_, h2⟩
  unfold setUnitEnd
  rw [h1]
  simp only
  rw [seekg_good (good_iff.1 h).2 (by have := h2.2.2; omega)]
  have := (good_iff.1 h).1
  cases s; simp only at this; subst this; rfl

theorem setUnitEnd_fail {s : Stream} (h : s.fail = true) : s.setUnitEnd = { s with eof := false } := by
  unfold setUnitEnd findUnitEnd
  rw [tellg_fail h]
  simp only
  rw [seekg_fail h]

/-- The stream after reading from it `n` bytes at position `p` of `c`, as far as later calls can tell. -/
theorem read_good {s : Stream} (h : s.good = true) {n : Nat} (hn : n < 2 ^ 63) :
    ∃ s', s.read n = .ok (window s.content s.pos n, s') ∧ s'.content = s.content ∧ s'.writable = s.writable ∧
      ((s.pos + n ≤ s.content.length ∨ n = 0) → s' = { s with pos := s.pos + n }) ∧
      (s.content.length < s.pos + n → n ≠ 0 → s'.fail = true ∧ s'.eof = true) := by
  unfold read
  rw [if_neg (by omega), if_pos h]
  simp only
  by_cases hlen : ((s.content.drop s.pos).take n).length = n
  · rw [if_pos hlen]
    refine ⟨{ s with pos := s.pos + n }, ?_, rfl, rfl, fun _ => rfl, ?_⟩
    · rw [window_eq, hlen]; simp [spaces]
    · intro h1 h2
      simp at hlen
      omega
  · rw [if_neg hlen]
    refine ⟨{ s with pos := s.pos + ((s.content.drop s.pos).take n).length, eof := true, fail := true }, ?_, rfl, rfl, ?_,
      fun _ _ => ⟨rfl, rfl⟩⟩
    · rw [window_eq]
    · intro h1
      exfalso; apply hlen
      simp; omega

theorem read_fail {s : Stream} (h : s.fail = true) {n : Nat} (hn : n < 2 ^ 63) : s.read n = .ok (spaces n, s) := by
  unfold read
  rw [if_neg (by omega), good_of_fail h]
  simp only [Bool.false_eq_true, if_false]
  rw [sentry_fail h]

theorem atEnd_good {s : Stream} (h : s.good = true) : s.atEnd.2 = decide (s.content.length ≤ s.pos) ∧
    (s.pos < s.content.length → s.atEnd.1 = s) := by
  unfold atEnd
  rw [if_pos h]
  constructor
  · by_cases hp : s.pos < s.content.length
    · simp [hp, (good_iff.1 h).1]
    · simp [hp]; omega
  · intro hp; simp [hp]

theorem atEnd_fail {s : Stream} (h : s.fail = true) : s.atEnd = (s, s.eof) := by
  unfold atEnd
  rw [good_of_fail h]
  simp only [Bool.false_eq_true, if_false]
  rw [sentry_fail h]

/-- Writing at the end of a good writable file appends. -/
theorem write_end {s : Stream} (h : s.good = true) (hw : s.writable = true) (hp : s.pos = s.content.length) (d : Str) :
    (s.write d).1 = { s with content := s.content ++ d, pos := (s.content ++ d).length } := by
  unfold write
  simp only [h, hw, Bool.and_self, if_true]
  rw [hp]
  simp

end Stream

end Astro
