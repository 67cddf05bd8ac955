import Verif.Props.Table

/-
Helper lemmas about table rows.
-/

namespace Astro

open Spec Bin

/-! ### fields that follow each other -/

theorem field_flatten : ∀ (ps : List Str) (j : Nat) (p : Str) (a b : Str), ps[j]? = some p →
    Field (a ++ ps.flatten ++ b) (a.length + fieldStart (ps.map List.length) j) p.length p := by
  intro ps
  induction ps with
  | nil => intro j p a b h; simp at h
  | cons q ps ih =>
    intro j p a b h
    cases j with
    | zero =>
      simp only [List.getElem?_cons_zero, Option.some.injEq] at h
      subst h
      exact ⟨a, ps.flatten ++ b, by simp, by simp [fieldStart], rfl⟩
    | succ j =>
      have := ih j p (a ++ q) b (by simpa using h)
      rw [List.length_append, Nat.add_assoc] at this
      simpa [fieldStart, List.append_assoc] using this

theorem widths_length {W : Str → Nat → Prop} : ∀ {fs : List Str} {ws : List Nat}, Widths W fs ws → ws.length = fs.length
  | [], [], _ => rfl
  | _ :: _, _ :: _, h => by rw [List.length_cons, List.length_cons, widths_length h.2]

theorem widths_get {W : Str → Nat → Prop} : ∀ {fs : List Str} {ws : List Nat}, Widths W fs ws →
    ∀ (j : Nat) (f : Str) (w : Nat), fs[j]? = some f → ws[j]? = some w → W f w
  | [], [], _, j, f, w, h, _ => by simp at h
  | f' :: fs, w' :: ws, hw, j, f, w, h1, h2 => by
    cases j with
    | zero => simp only [List.getElem?_cons_zero, Option.some.injEq] at h1 h2; subst h1; subst h2; exact hw.1
    | succ j => exact widths_get hw.2 j f w (by simpa using h1) (by simpa using h2)

theorem widths_of_get {W : Str → Nat → Prop} : ∀ {fs : List Str} {ws : List Nat}, ws.length = fs.length →
    (∀ (j : Nat) (f : Str) (w : Nat), fs[j]? = some f → ws[j]? = some w → W f w) → Widths W fs ws
  | [], [], _, _ => trivial
  | [], _ :: _, h, _ => by simp at h
  | _ :: _, [], h, _ => by simp at h
  | f' :: fs, w' :: ws, h, hw => ⟨hw 0 _ _ rfl rfl, widths_of_get (by simpa using h) fun j f w h1 h2 => hw (j + 1) f w (by simpa using h1) (by simpa using h2)⟩

theorem widths_drop {W : Str → Nat → Prop} : ∀ {fs : List Str} {ws : List Nat} (i : Nat), Widths W fs ws → Widths W (fs.drop i) (ws.drop i)
  | _, _, 0, h => by simpa using h
  | [], [], _ + 1, _ => trivial
  | _ :: _, _ :: _, i + 1, h => by simpa using widths_drop i h.2

/-- The width is determined by the format. -/
theorem widths_unique {W : Str → Nat → Prop} (hW : ∀ f a b, W f a → W f b → a = b) : ∀ {fs : List Str} {ws ws' : List Nat},
    Widths W fs ws → Widths W fs ws' → ws = ws'
  | [], [], [], _, _ => rfl
  | f :: fs, w :: ws, w' :: ws', h, h' => by rw [hW f w w' h.1 h'.1, widths_unique hW h.2 h'.2]

theorem asciiWidth_unique (f : Str) (a b : Nat) (ha : AsciiWidth f a) (hb : AsciiWidth f b) : a = b := by
  have h1 := ascii_columnSize_iff.2 ha
  have h2 := ascii_columnSize_iff.2 hb
  rw [h1] at h2; cases h2; rfl

theorem binWidth_unique (f : Str) (a b : Nat) (ha : BinWidth f a) (hb : BinWidth f b) : a = b := by
  have h1 := bin_columnSize_iff.2 ha
  have h2 := bin_columnSize_iff.2 hb
  rw [h1] at h2; cases h2; rfl

/-! ### ASCII rows -/

/-- A cell right-justified in its column. -/
def padded (w : Nat) (s : Str) : Str := spaces (w - s.length) ++ s

theorem padded_length {w : Nat} {s : Str} (h : s.length ≤ w) : (padded w s).length = w := by
  simp only [padded, List.length_append, spaces, List.length_replicate]; omega

theorem rowBytes_ok (cols : List Column) : ∀ (row : List Str) (i : Nat) (ws : List Nat),
    Widths AsciiWidth ((cols.map (·.format)).drop i) ws → row.length = ws.length →
    (∀ (j : Nat) (s : Str) (w : Nat), row[j]? = some s → ws[j]? = some w → s.length ≤ w) →
    Ascii.rowBytes cols row i = .ok (List.zipWith padded ws row).flatten := by
  intro row
  induction row with
  | nil => intro i ws _ _ _; simp [Ascii.rowBytes]
  | cons s row ih =>
    intro i ws hw hl hle
    cases ws with
    | nil => simp at hl
    | cons w ws =>
      have hlen := widths_length hw
      simp only [List.length_cons, List.length_drop, List.length_map] at hlen
      have hi : i < cols.length := by omega
      have hd : (cols.map (·.format)).drop i = cols[i].format :: (cols.map (·.format)).drop (i + 1) := by
        rw [List.drop_eq_getElem_cons (by simpa using hi)]; simp
      rw [hd] at hw
      unfold Ascii.rowBytes
      rw [List.getElem?_eq_getElem hi]
      simp only
      have h0 : s.length ≤ w := hle 0 s w rfl rfl
      rw [ascii_columnSize_iff.2 hw.1, ih (i + 1) ws hw.2 (by simpa using hl) fun j s w h1 h2 => hle (j + 1) s w (by simpa using h1) (by simpa using h2)]
      simp only [bind, Except.bind, padCount, if_pos h0, pure, Except.pure, List.zipWith_cons_cons, List.flatten_cons, padded]

theorem rowBytes_too_long (cols : List Column) : ∀ (row : List Str) (i : Nat) (ws : List Nat),
    Widths AsciiWidth ((cols.map (·.format)).drop i) ws → row.length = ws.length →
    (∃ (j : Nat) (s : Str) (w : Nat), row[j]? = some s ∧ ws[j]? = some w ∧ w < s.length) →
    Ascii.rowBytes cols row i = .error .lengthError := by
  intro row
  induction row with
  | nil => rintro i ws _ _ ⟨j, s, w, h, _⟩; simp at h
  | cons s row ih =>
    intro i ws hw hl hlong
    cases ws with
    | nil => simp at hl
    | cons w ws =>
      have hlen := widths_length hw
      simp only [List.length_cons, List.length_drop, List.length_map] at hlen
      have hi : i < cols.length := by omega
      have hd : (cols.map (·.format)).drop i = cols[i].format :: (cols.map (·.format)).drop (i + 1) := by
        rw [List.drop_eq_getElem_cons (by simpa using hi)]; simp
      rw [hd] at hw
      unfold Ascii.rowBytes
      rw [List.getElem?_eq_getElem hi]
      simp only
      rw [ascii_columnSize_iff.2 hw.1]
      simp only [bind, Except.bind, padCount]
      by_cases h0 : s.length ≤ w
      · rw [if_pos h0]
        simp only
        rw [ih (i + 1) ws hw.2 (by simpa using hl) ?_]
        obtain ⟨j, s', w', h1, h2, h3⟩ := hlong
        cases j with
        | zero => simp only [List.getElem?_cons_zero, Option.some.injEq] at h1 h2; subst h1; subst h2; omega
        | succ j => exact ⟨j, s', w', by simpa using h1, by simpa using h2, h3⟩
      · rw [if_neg h0]

theorem zipWith_lengths : ∀ (ws : List Nat) (row : List Str), row.length = ws.length →
    (∀ (j : Nat) (s : Str) (w : Nat), row[j]? = some s → ws[j]? = some w → s.length ≤ w) →
    (List.zipWith padded ws row).map List.length = ws
  | [], [], _, _ => rfl
  | [], _ :: _, h, _ => by simp at h
  | _ :: _, [], h, _ => by simp at h
  | w :: ws, s :: row, h, hle => by
    rw [List.zipWith_cons_cons, List.map_cons, padded_length (hle 0 s w rfl rfl),
      zipWith_lengths ws row (by simpa using h) fun j s w h1 h2 => hle (j + 1) s w (by simpa using h1) (by simpa using h2)]

/-! ### binary rows -/

/-- The consecutive pieces of the given widths, from offset `off` on. -/
def pieces' (buf : Str) : Nat → List Nat → List Str
  | _, [] => []
  | off, w :: ws => (buf.drop off).take w :: pieces' buf (off + w) ws

theorem pieces'_length (buf : Str) : ∀ (ws : List Nat) (off : Nat), (pieces' buf off ws).length = ws.length
  | [], _ => rfl
  | w :: ws, off => by rw [pieces', List.length_cons, pieces'_length buf ws, List.length_cons]

theorem pieces'_get (buf : Str) : ∀ (ws : List Nat) (off j w : Nat), ws[j]? = some w →
    (pieces' buf off ws)[j]? = some ((buf.drop (off + fieldStart ws j)).take w)
  | [], _, j, w, h => by simp at h
  | w' :: ws, off, 0, w, h => by
    simp only [List.getElem?_cons_zero, Option.some.injEq] at h; subst h
    simp [pieces', fieldStart]
  | w' :: ws, off, j + 1, w, h => by
    have := pieces'_get buf ws (off + w') j w (by simpa using h)
    simp only [pieces', List.getElem?_cons_succ, this, fieldStart, List.take_succ_cons, List.sum_cons, Nat.add_assoc]

theorem pieces'_flatten (buf : Str) : ∀ (ws : List Nat) (off : Nat), (pieces' buf off ws).flatten = (buf.drop off).take ws.sum
  | [], off => by simp [pieces']
  | w :: ws, off => by
    rw [pieces', List.flatten_cons, pieces'_flatten buf ws, List.sum_cons, List.take_add, List.drop_drop]

theorem fieldStart_le (ws : List Nat) (j w : Nat) (h : ws[j]? = some w) : fieldStart ws j + w ≤ ws.sum := by
  induction ws generalizing j with
  | nil => simp at h
  | cons a ws ih =>
    cases j with
    | zero => simp only [List.getElem?_cons_zero, Option.some.injEq] at h; subst h; simp [fieldStart]
    | succ j =>
      have := ih j (by simpa using h)
      simp only [fieldStart, List.take_succ_cons, List.sum_cons] at *
      omega

theorem readRow_iff (buf : Str) : ∀ (cols : List Column) (off : Nat) (r : List Str) (off' : Nat),
    BinTable.readRow buf cols off = .ok (r, off') ↔
      ∃ ws, Widths BinWidth (cols.map (·.format)) ws ∧ (cols ≠ [] → off + ws.sum ≤ buf.length) ∧ off' = off + ws.sum ∧
        r = (pieces' buf off ws).map trim
  | [], off, r, off' => by
    unfold BinTable.readRow
    simp only [Except.ok.injEq, Prod.mk.injEq, List.map_nil]
    constructor
    · rintro ⟨rfl, rfl⟩; exact ⟨[], trivial, by simp, by simp, rfl⟩
    · rintro ⟨ws, h1, _, h3, h4⟩
      cases ws with
      | nil => exact ⟨h4.symm, by simpa using h3.symm⟩
      | cons _ _ => cases h1
  | c :: cols, off, r, off' => by
    unfold BinTable.readRow
    cases hw : BinTable.columnSize c.format with
    | error e =>
      simp only [bind, Except.bind]
      constructor
      · intro h; cases h
      · rintro ⟨ws, h1, _⟩
        cases ws with
        | nil => cases h1
        | cons w ws => have := bin_columnSize_iff.2 h1.1; rw [hw] at this; cases this
    | ok w =>
      simp only [bind, Except.bind]
      by_cases hl : off + w ≤ buf.length
      · rw [if_pos hl]
        cases hr : BinTable.readRow buf cols (off + w) with
        | error e =>
          simp only
          constructor
          · intro h; cases h
          · rintro ⟨ws, h1, h2, h3, h4⟩
            cases ws with
            | nil => cases h1
            | cons w' ws =>
              have := bin_columnSize_iff.2 h1.1
              rw [hw] at this; cases this
              have := (readRow_iff buf cols (off + w) ((pieces' buf (off + w) ws).map trim) (off + w + ws.sum)).2
                ⟨ws, h1.2, fun _ => by have := h2 (by simp); rw [List.sum_cons] at this; omega, rfl, rfl⟩
              rw [hr] at this; cases this
        | ok x =>
          obtain ⟨r1, o1⟩ := x
          simp only [pure, Except.pure, Except.ok.injEq, Prod.mk.injEq]
          obtain ⟨ws, g1, g2, g3, g4⟩ := (readRow_iff buf cols (off + w) r1 o1).1 hr
          constructor
          · rintro ⟨rfl, rfl⟩
            refine ⟨w :: ws, ⟨bin_columnSize_iff.1 hw, g1⟩, fun _ => ?_, by rw [g3, List.sum_cons]; omega, by rw [g4]; rfl⟩
            rw [List.sum_cons]
            by_cases hc : cols = []
            · subst hc
              cases ws with
              | nil => simpa using hl
              | cons _ _ => cases g1
            · have := g2 hc; omega
          · rintro ⟨ws', h1, h2, h3, h4⟩
            have : ws' = w :: ws := widths_unique binWidth_unique h1 ⟨bin_columnSize_iff.1 hw, g1⟩
            subst this
            exact ⟨by rw [h4, g4]; rfl, by rw [h3, g3, List.sum_cons]; omega⟩
      · rw [if_neg hl]
        constructor
        · intro h; cases h
        · rintro ⟨ws, h1, h2, _⟩
          cases ws with
          | nil => cases h1
          | cons w' ws =>
            have := bin_columnSize_iff.2 h1.1
            rw [hw] at this; cases this
            have := h2 (by simp)
            rw [List.sum_cons] at this; omega

theorem readRows_iff (buf : Str) (cols : List Column) (hne : cols ≠ []) : ∀ (n off : Nat) (d : List (List Str)),
    BinTable.readRows buf cols n off = .ok d ↔
      (n = 0 ∧ d = []) ∨ (0 < n ∧ ∃ ws, Widths BinWidth (cols.map (·.format)) ws ∧ off + n * ws.sum ≤ buf.length ∧
        d = (List.range n).map fun r => (pieces' buf (off + r * ws.sum) ws).map trim)
  | 0, off, d => by
    simp only [BinTable.readRows, Except.ok.injEq, true_and, Nat.lt_irrefl, false_and, or_false]
    exact eq_comm
  | n + 1, off, d => by
    unfold BinTable.readRows
    simp only [Nat.succ_ne_zero, false_and, false_or, Nat.zero_lt_succ, true_and]
    cases hr : BinTable.readRow buf cols off with
    | error e =>
      simp only [bind, Except.bind]
      constructor
      · intro h; cases h
      · rintro ⟨ws, h1, h2, _⟩
        have := (readRow_iff buf cols off ((pieces' buf off ws).map trim) (off + ws.sum)).2
          ⟨ws, h1, fun _ => by rw [Nat.succ_mul] at h2; omega, rfl, rfl⟩
        rw [hr] at this; cases this
    | ok x =>
      obtain ⟨r1, o1⟩ := x
      obtain ⟨ws, g1, g2, g3, g4⟩ := (readRow_iff buf cols off r1 o1).1 hr
      have g2 := g2 hne
      simp only [bind, Except.bind]
      have hshift : ((List.range (n + 1)).map fun r => (pieces' buf (off + r * ws.sum) ws).map trim) =
          r1 :: (List.range n).map fun r => (pieces' buf (o1 + r * ws.sum) ws).map trim := by
        rw [List.range_succ_eq_map, List.map_cons, List.map_map]
        congr 1
        · rw [g4]; simp
        · apply List.map_congr_left
          intro r _
          simp only [Function.comp_apply, Nat.succ_eq_add_one, Nat.add_mul, Nat.one_mul, g3]
          rw [show off + (r * ws.sum + ws.sum) = off + ws.sum + r * ws.sum by omega]
      cases hrs : BinTable.readRows buf cols n o1 with
      | error e =>
        simp only
        constructor
        · intro h; cases h
        · rintro ⟨ws', h1, h2, _⟩
          have : ws' = ws := widths_unique binWidth_unique h1 g1
          subst this
          have : ∃ d', BinTable.readRows buf cols n o1 = .ok d' := by
            by_cases hn : n = 0
            · subst hn; exact ⟨[], rfl⟩
            · exact ⟨_, (readRows_iff buf cols hne n o1 _).2 (Or.inr ⟨by omega, ws', g1, by rw [Nat.succ_mul] at h2; omega, rfl⟩)⟩
          obtain ⟨d', hd'⟩ := this
          rw [hrs] at hd'; cases hd'
      | ok rest =>
        simp only [pure, Except.pure, Except.ok.injEq]
        have ih := (readRows_iff buf cols hne n o1 rest).1 hrs
        constructor
        · rintro rfl
          refine ⟨ws, g1, ?_, ?_⟩
          · rcases ih with ⟨rfl, _⟩ | ⟨_, ws', k1, k2, _⟩
            · simpa using g2
            · have : ws' = ws := widths_unique binWidth_unique k1 g1
              subst this
              rw [Nat.succ_mul]; omega
          · rw [hshift]
            rcases ih with ⟨rfl, rfl⟩ | ⟨_, ws', k1, _, k3⟩
            · rfl
            · have : ws' = ws := widths_unique binWidth_unique k1 g1
              subst this
              rw [← k3]
        · rintro ⟨ws', h1, h2, h3⟩
          have : ws' = ws := widths_unique binWidth_unique h1 g1
          subst this
          rw [h3, hshift]
          rcases ih with ⟨rfl, rfl⟩ | ⟨_, ws'', k1, _, k3⟩
          · rfl
          · have : ws'' = ws' := widths_unique binWidth_unique k1 g1
            subst this
            rw [← k3]

/-! ### concatenations of trimmed pieces -/

theorem trim_shorter {s : Str} (h : trim s ≠ s) : (trim s).length < s.length := by
  obtain ⟨a, b, e, _⟩ := trim_split s
  have hl := trim_length_le s
  rcases Nat.lt_or_ge (trim s).length s.length with h1 | h1
  · exact h1
  · exfalso
    have : a.length + b.length = 0 := by
      have := congrArg List.length e
      simp only [List.length_append] at this; omega
    have ha : a = [] := List.length_eq_zero_iff.1 (by omega)
    have hb : b = [] := List.length_eq_zero_iff.1 (by omega)
    subst ha; subst hb
    exact h (by simpa using e.symm)

theorem flatten_trim_le (l : List Str) : (l.map trim).flatten.length ≤ l.flatten.length := by
  induction l with
  | nil => simp
  | cons s l ih =>
    have := trim_length_le s
    simp only [List.map_cons, List.flatten_cons, List.length_append]; omega

theorem flatten_trim_lt (l : List Str) (h : ∃ s ∈ l, trim s ≠ s) : (l.map trim).flatten.length < l.flatten.length := by
  induction l with
  | nil => simp at h
  | cons s l ih =>
    have h1 := flatten_trim_le l
    have h2 := trim_length_le s
    simp only [List.map_cons, List.flatten_cons, List.length_append]
    obtain ⟨x, hx, hne⟩ := h
    rcases List.mem_cons.1 hx with rfl | hx
    · have := trim_shorter hne; omega
    · have := ih ⟨x, hx, hne⟩; omega

theorem flatten_trim_eq (l : List Str) : (l.map trim).flatten = l.flatten ↔ ∀ s ∈ l, trim s = s := by
  constructor
  · intro h s hs
    refine Classical.byContradiction fun hn => ?_
    have := flatten_trim_lt l ⟨s, hs, hn⟩
    rw [h] at this; omega
  · intro h
    have : l.map trim = l := by
      rw [List.map_congr_left (g := id) h]; simp
    rw [this]

theorem trim_eq_iff {s : Str} : trim s = s ↔ NoOuterWhite s := by
  rw [← trimmed_iff]
  exact ⟨fun h => by rw [← h]; exact trim_trimmed s, trim_of_trimmed⟩

end Astro
