import Verif.Spec.Fits

/-
How opening a file of any bytes can end, and what the place looks like where it stops.
-/

namespace Astro.Spec

/-- How a reading call can end. -/
inductive Outcome where
  /-- It returns; these are the HDUs. -/
  | opened (hdus : List Hdu)
  /-- It throws (or its behaviour is undefined: `Err.ub`). -/
  | raised (e : Err)
  /-- It never returns. -/
  | forever

/-- `run cards turns` is the state of the call when a header has been given time for `cards` cards and the call time for `turns` headers; `none` means still
running. -/
def EndsIn (run : Nat → Nat → Option (Res Reader)) : Outcome → Prop
  | .opened hdus => ∃ N r, r.hdus = hdus ∧ ∀ cards turns, N ≤ cards → N ≤ turns → run cards turns = some (.ok r)
  | .raised e => ∃ N, ∀ cards turns, N ≤ cards → N ≤ turns → run cards turns = some (.error e)
  | .forever => ∀ cards turns, run cards turns = none

/-- From byte `p` on all cards are acceptable and none is an END card (behind the end of the file there are blanks). -/
def Endless (content : Str) (p : Nat) : Prop := ∀ k, RawOk (piece content p k) ∧ ¬ IsEnd (piece content p k)

/-- The header that begins at byte `p` ends, but it is refused. -/
def HeaderFails (F : FloatText) (content : Str) (p : Nat) (e : Err) : Prop :=
  ∃ fuel, Header.readHeader F fuel Header.empty { Stream.openRead content with pos := p } = some (.error e)

/-- The header announces `n` bytes of data. -/
def Announces (h : Header) (n : Nat) : Prop := (h.dataSize = 0 → n = 0) ∧ (h.dataSize ≠ 0 → DataBytes h n)

/-- An HDU can be made of the header and the data. -/
def Builds (F : FloatText) (h : Header) (data : Str) : Prop :=
  ∃ h1 name x, h.getHduName F = (h1, .ok name) ∧ Hdu.construct F h1 data = .ok x

/-- No HDU can be made of the header and the data. -/
def BuildFails (F : FloatText) (h : Header) (data : Str) (e : Err) : Prop :=
  ∃ h1, h.getHduName F = (h1, .error e) ∨ ∃ name, h.getHduName F = (h1, .ok name) ∧ Hdu.construct F h1 data = .error e

/-- What read_entire_hdus does at byte `p` if no complete HDU begins there. -/
inductive Broken (F : FloatText) (content : Str) (p : Nat) : Outcome → Prop
  /-- There is no END card. -/
  | endless : Endless content p → Broken F content p .forever
  /-- The header is refused. -/
  | header {e : Err} : HeaderFails F content p e → Broken F content p (.raised e)
  /-- The announced data are too long for a string. -/
  | tooLong {h : Header} {n : Nat} : HeaderAt F content p h → Announces h n → 2 ^ 63 ≤ n → Broken F content p (.raised .lengthError)
  /-- The HDU is refused: it was given the announced data, completed by blanks where the file is too short. -/
  | refused {h : Header} {d n : Nat} {e : Err} : HeaderAt F content p h → NextBoundary (p + 80 * h.cards.length) d → Announces h n → n < 2 ^ 63 →
      BuildFails F h (window content d n) e → Broken F content p (.raised e)
  /-- The HDU is accepted although the file ends inside its END card or its data. -/
  | cut {h : Header} {d n : Nat} : HeaderAt F content p h → NextBoundary (p + 80 * h.cards.length) d → Announces h n → n < 2 ^ 63 →
      Builds F h (window content d n) → (content.length < p + 80 * h.cards.length ∨ (n ≠ 0 ∧ content.length < d + n)) → Broken F content p .forever

/-- What read_only_headers does at byte `p` if it cannot go on from there. -/
inductive BrokenHeader (F : FloatText) (content : Str) (p : Nat) : Outcome → Prop
  | endless : Endless content p → BrokenHeader F content p .forever
  | header {e : Err} : HeaderFails F content p e → BrokenHeader F content p (.raised e)
  /-- The HDU is refused without its data. -/
  | refused {h : Header} {e : Err} : HeaderAt F content p h → BuildFails F h [] e → BrokenHeader F content p (.raised e)
  /-- The file ends inside the END card. -/
  | cut {h : Header} : HeaderAt F content p h → Builds F h [] → content.length < p + 80 * h.cards.length → BrokenHeader F content p .forever
  /-- The end of the announced data, computed in 64 bits, is no position in a file. -/
  | far {h : Header} {d n q : Nat} : HeaderAt F content p h → Builds F h [] → p + 80 * h.cards.length ≤ content.length →
      NextBoundary (p + 80 * h.cards.length) d → h.dataSize ≠ 0 → DataBytes h n → NextBoundary ((d + n) % 2 ^ 64) q → 2 ^ 63 ≤ q →
      BrokenHeader F content p .forever

end Astro.Spec
