import Verif.Lemmas.Stream

/-
Properties C24 and C26: positions and reads of the file stream.
-/

namespace Astro

open Spec

/-! ## C24 -/

/-- **C24** On a good stream the unit end is the next multiple of 2880 strictly after the position, and seeking to it changes nothing
but the position. -/
theorem C24_unit_end (s : Stream) (hg : s.good = true) (hp : s.pos + 2880 < 2 ^ 63) :
    ∃ e, NextBoundary s.pos e ∧ s.findUnitEnd = (s, e) ∧ s.setUnitEnd = { s with pos := e } := by
  obtain ⟨e, h1, h2⟩ := Stream.findUnitEnd_good hg (by unfold sizeMod; omega)
  obtain ⟨e', h3, h4⟩ := Stream.setUnitEnd_good hg hp
  exact ⟨e, h2, h1, by rw [h3, Stream.nextBoundary_unique h4 h2]⟩

/-- **C24** There is exactly one such boundary; it is the least multiple of 2880 that is not below the position unless the position is
itself a multiple, and then it lies one whole block further. -/
theorem C24_extra_block (p e : Nat) (h : NextBoundary p e) :
    (∀ e', NextBoundary p e' → e' = e) ∧
    ((∀ m, 2880 ∣ m → p ≤ m → e ≤ m) ↔ ¬ 2880 ∣ p) ∧ (2880 ∣ p → e = p + 2880) := by
  refine ⟨fun e' h' => Stream.nextBoundary_unique h' h, ?_, ?_⟩
  · obtain ⟨⟨a, rfl⟩, h2, h3⟩ := h
    constructor
    · intro hm hd
      have := hm p hd (Nat.le_refl _)
      omega
    · rintro hd m ⟨b, rfl⟩ hm
      rcases Nat.lt_or_ge b a with h | h
      · exfalso
        have : p ≠ 2880 * b := by rintro rfl; exact hd ⟨b, rfl⟩
        omega
      · omega
  · rintro ⟨b, rfl⟩
    obtain ⟨⟨a, rfl⟩, h2, h3⟩ := h
    omega

example : (Stream.openRead [1, 2, 3]).findUnitEnd.2 = 2880 := by decide
example : ({ Stream.openRead [1, 2, 3] with pos := 2880 } : Stream).findUnitEnd.2 = 5760 := by decide

/-! ## C26 -/

/-- **C26** A read returns the bytes from the position on, completed by spaces; if enough bytes are left only the position moves, otherwise
the stream is left failed and at end of file. -/
theorem C26_read (s : Stream) (hg : s.good = true) (n : Nat) (hn : n < 2 ^ 63) :
    ∃ s', s.read n = .ok (window s.content s.pos n, s') ∧
      (s.pos + n ≤ s.content.length → s' = { s with pos := s.pos + n }) ∧
      (s.content.length < s.pos + n → 0 < n → s'.fail = true ∧ s'.eof = true ∧ s'.content = s.content) := by
  obtain ⟨s', h1, h2, _, h3, h4⟩ := Stream.read_good hg hn
  exact ⟨s', h1, fun h => h3 (Or.inl h), fun h h0 => by
    have := h4 h (by omega); exact ⟨this.1, this.2, h2⟩⟩

/-- **C26** A read of exactly the bytes left returns them unchanged. -/
theorem C26_read_exact (s : Stream) (hg : s.good = true) (n : Nat) (hn : n < 2 ^ 63) (h : s.pos + n ≤ s.content.length) :
    s.read n = .ok ((s.content.drop s.pos).take n, { s with pos := s.pos + n }) := by
  obtain ⟨s', h1, h2, _⟩ := C26_read s hg n hn
  rw [h1, h2 h, window_inside h]

/-- The calls a reader can make. -/
inductive StreamOp where
  | read (n : Nat) | atEnd | tell | seek (p : Nat) | unitEnd | getByte

/-- One call. -/
def StreamOp.run (s : Stream) : StreamOp → Stream
  | .read n => match s.read n with
    | .ok (_, s') => s'
    | .error _ => s
  | .atEnd => s.atEnd.1
  | .tell => s.tellg.1
  | .seek p => s.seekg p
  | .unitEnd => s.setUnitEnd
  | .getByte => s.get.1

/-- Does the call move the position? -/
def StreamOp.moves : StreamOp → Prop
  | .seek _ | .unitEnd => True
  | _ => False

theorem step_failed (s : Stream) (hf : s.fail = true) (op : StreamOp) :
    (op.run s).fail = true ∧ (op.run s).content = s.content ∧ (s.eof = false → (op.run s).eof = false) ∧
    (op.moves → (op.run s).eof = false) := by
  cases op with
  | read n =>
    simp only [StreamOp.run]
    by_cases hn : 2 ^ 63 ≤ n
    · simp only [Stream.read, if_pos hn]
      exact ⟨hf, trivial, fun h => h, fun h => h.elim⟩
    · rw [Stream.read_fail hf (by omega)]
      exact ⟨hf, rfl, fun h => h, fun h => h.elim⟩
  | atEnd => simp only [StreamOp.run]; rw [Stream.atEnd_fail hf]; exact ⟨hf, rfl, fun h => h, fun h => h.elim⟩
  | tell => simp only [StreamOp.run]; rw [Stream.tellg_fail hf]; exact ⟨hf, rfl, fun h => h, fun h => h.elim⟩
  | seek p => simp only [StreamOp.run]; rw [Stream.seekg_fail hf]; exact ⟨hf, rfl, fun _ => rfl, fun _ => rfl⟩
  | unitEnd => simp only [StreamOp.run]; rw [Stream.setUnitEnd_fail hf]; exact ⟨hf, rfl, fun _ => rfl, fun _ => rfl⟩
  | getByte =>
    simp only [StreamOp.run, Stream.get]
    rw [Stream.good_of_fail hf]
    simp only [Bool.false_eq_true, if_false]
    rw [Stream.sentry_fail hf]
    exact ⟨hf, rfl, fun h => h, fun h => h.elim⟩

theorem run_failed (ops : List StreamOp) : ∀ s : Stream, s.fail = true →
    (ops.foldl StreamOp.run s).fail = true ∧ (ops.foldl StreamOp.run s).content = s.content ∧
    ((s.eof = false ∨ ∃ op ∈ ops, op.moves) → (ops.foldl StreamOp.run s).eof = false) := by
  induction ops with
  | nil => intro s h; exact ⟨h, rfl, fun h => h.elim id (by rintro ⟨_, h, _⟩; cases h)⟩
  | cons op ops ih =>
    intro s h
    obtain ⟨h1, h2, h3, h4⟩ := step_failed s h op
    obtain ⟨g1, g2, g3⟩ := ih _ h1
    refine ⟨g1, g2.trans h2, fun h => g3 ?_⟩
    rcases h with h | ⟨o, ho, hm⟩
    · exact Or.inl (h3 h)
    · rcases List.mem_cons.1 ho with rfl | ho
      · exact Or.inl (h4 hm)
      · exact Or.inr ⟨o, ho, hm⟩

/-- **C26** A failed stream never recovers: whatever calls follow, every read returns only spaces, positions are reported as `2^64-1` and the
file is untouched. -/
theorem C26_failed_forever (s : Stream) (hf : s.fail = true) (ops : List StreamOp) (n : Nat) (hn : n < 2 ^ 63) :
    ((ops.foldl StreamOp.run s).read n).map Prod.fst = .ok (List.replicate n 32) ∧
    (ops.foldl StreamOp.run s).tellg.2 = 2 ^ 64 - 1 ∧ (ops.foldl StreamOp.run s).content = s.content := by
  obtain ⟨h1, h2, _⟩ := run_failed ops s hf
  refine ⟨?_, ?_, h2⟩
  · rw [Stream.read_fail h1 hn]; rfl
  · rw [Stream.tellg_fail h1]; show sizeMod - 1 = 2 ^ 64 - 1; decide

/-- **C26** And once a position was set on a failed stream, the end of the file is never reported any more. -/
theorem C26_end_never_reported (s : Stream) (hf : s.fail = true) (ops : List StreamOp) (hm : ∃ op ∈ ops, op.moves) :
    (ops.foldl StreamOp.run s).atEnd.2 = false := by
  obtain ⟨h1, _, h3⟩ := run_failed ops s hf
  rw [Stream.atEnd_fail h1]
  exact h3 (Or.inr hm)

/-- **C26** On a good stream the end is reported exactly at (or behind) the last byte. -/
theorem C26_at_end (s : Stream) (hg : s.good = true) : s.atEnd.2 = true ↔ s.content.length ≤ s.pos := by
  rw [(Stream.atEnd_good hg).1]; simp

/-- The results of `n` calls of `get`. -/
def gets (s : Stream) : Nat → Str × Stream
  | 0 => ([], s)
  | n + 1 => (s.get.2 :: (gets s.get.1 n).1, (gets s.get.1 n).2)

/-- **C26** Fetching bytes one by one gives the same as reading them at once and leaves the stream in the same state, as long as there are enough. -/
theorem C26_get (s : Stream) (hg : s.good = true) (n : Nat) (hn : n < 2 ^ 63) (h : s.pos + n ≤ s.content.length) : s.read n = .ok (gets s n) := by
  rw [C26_read_exact s hg n hn h]
  clear hn
  induction n generalizing s with
  | zero => simp [gets]
  | succ n ih =>
    have hp : s.pos < s.content.length := by omega
    have e : s.get = ({ s with pos := s.pos + 1 }, s.content[s.pos]) := by
      unfold Stream.get
      rw [if_pos hg, List.getElem?_eq_getElem hp]
    have := ih { s with pos := s.pos + 1 } hg (by simp only; omega)
    simp only [Except.ok.injEq] at this
    unfold gets
    rw [e, ← this, List.drop_eq_getElem_cons hp, List.take_succ_cons]
    simp only [Nat.add_assoc, Nat.add_comm n 1]

/-- **C26** Behind the last byte `get` gives 0 and the stream is left failed and at end of file. -/
theorem C26_get_end (s : Stream) (hg : s.good = true) (h : s.content.length ≤ s.pos) : s.get.2 = 0 ∧ s.get.1.fail = true ∧ s.get.1.eof = true ∧ s.get.1.content = s.content := by
  unfold Stream.get
  rw [if_pos hg, List.getElem?_eq_none h]
  exact ⟨rfl, rfl, rfl, rfl⟩

/-- **C26** What was written at some place of the file is read there; the bytes in front of it and behind it stay as they were. -/
theorem C26_write (s : Stream) (hg : s.good = true) (hw : s.writable = true) (d : Str) (hp : s.pos ≤ s.content.length) (hd : s.pos + d.length < 2 ^ 63) :
    (s.write d).2 = true ∧ (((s.write d).1.seekg s.pos).read d.length).map Prod.fst = .ok d ∧ (s.write d).1.pos = s.pos + d.length ∧
      ∀ i, (i < s.pos ∨ s.pos + d.length ≤ i) → (s.write d).1.content[i]? = s.content[i]? := by
  have e : (s.write d).1 = { s with content := s.content.take s.pos ++ d ++ s.content.drop (s.pos + d.length), pos := s.pos + d.length } := by
    unfold Stream.write
    simp [hg, hw, Nat.sub_eq_zero_of_le hp]
  have hgood := hg
  unfold Stream.good at hg
  simp only [Bool.and_eq_true, Bool.not_eq_true'] at hg
  have ht : (s.content.take s.pos).length = s.pos := by rw [List.length_take, Nat.min_eq_left hp]
  refine ⟨?_, ?_, by rw [e], ?_⟩
  · show (s.write d).1.good = true
    rw [e]; exact hgood
  · have e2 : ((s.write d).1.seekg s.pos) = { s with content := s.content.take s.pos ++ d ++ s.content.drop (s.pos + d.length) } := by
      rw [e]
      unfold Stream.seekg Stream.sentry Stream.good
      simp only [hg.1, hg.2, Bool.not_false, Bool.and_self, if_true, Bool.false_eq_true, if_false]
      rw [if_pos (by omega)]
    have hg2 : ({ s with content := s.content.take s.pos ++ d ++ s.content.drop (s.pos + d.length) } : Stream).good = true := hgood
    rw [e2, C26_read_exact _ hg2 _ (by omega) (by simp only [List.length_append, ht]; omega)]
    simp only [Except.map]
    rw [List.append_assoc, List.drop_left' ht, List.take_left' rfl]
  · intro i hi
    rw [e]
    simp only
    rcases hi with hi | hi
    · rw [List.append_assoc, List.getElem?_append_left (by omega), List.getElem?_take_of_lt hi]
    · rw [List.getElem?_append_right (by rw [List.length_append, ht]; omega), List.length_append, ht, List.getElem?_drop]
      congr 1; omega

/-- **C26** Writing at a position given is writing after the position was set; on a stream that is not good nothing is written. -/
theorem C26_write_at (s : Stream) (d : Str) (p : Nat) :
    (s.good = true → p < 2 ^ 63 → s.writeAt d p = (s.seekg p).write d) ∧ (s.good = false → (s.writeAt d p).2 = false ∧ (s.writeAt d p).1.content = s.content) := by
  unfold Stream.writeAt
  constructor
  · intro hg hp
    have hg' := hg
    unfold Stream.good at hg'
    simp only [Bool.and_eq_true, Bool.not_eq_true'] at hg'
    have hs : s.seekg p = { s with pos := p } := by
      unfold Stream.seekg Stream.sentry Stream.good
      simp only [hg'.1, hg'.2, Bool.not_false, Bool.and_self, if_true, Bool.false_eq_true, if_false]
      rw [if_pos hp]
    have hg2 : ({ s with pos := p } : Stream).good = true := hg
    rw [hs, if_neg (by simp [hg'.2]), if_pos hp, if_pos hg2]
  · intro hg
    have hg2 : ({ s with pos := p } : Stream).good = false := hg
    split
    · exact ⟨rfl, rfl⟩
    · split
      · rw [if_neg (by rw [hg2]; simp)]; exact ⟨rfl, rfl⟩
      · exact ⟨rfl, rfl⟩

example : gets (Stream.openRead [65, 66]) 3 = ([65, 66, 0], ⟨[65, 66], 2, true, true, false⟩) := by decide
example : ((⟨[65, 66, 67], 1, false, false, true⟩ : Stream).write [88]).1.content = [65, 88, 67] := by decide

example : (Stream.openRead [65, 66]).read 4 = .ok ([65, 66, 32, 32], ⟨[65, 66], 2, true, true, false⟩) := by decide
example : ([StreamOp.read 4, .unitEnd].foldl StreamOp.run (Stream.openRead [65, 66])).atEnd.2 = false := by decide

end Astro
