import Verif.Spec.Fits
import Verif.Lemmas.Table

/-
Helper lemmas about whole files.
-/

namespace Astro

open Spec Header

/-- Where the stream is after a header was read. -/
theorem readHeader_streamAt {F : FloatText} {fuel : Nat} {s s' : Stream} {h : Header} (hg : s.good = true)
    (e : readHeader F fuel Header.empty s = some (.ok (h, s'))) : StreamAt s.content s.pos h.cards.length s.writable s' := by
  unfold readHeader at e
  cases hc : readCards fuel Header.empty s with
  | none => rw [hc] at e; cases e
  | some x =>
    rw [hc] at e
    cases x with
    | error e' => cases e
    | ok y =>
      obtain ⟨h1, s2⟩ := y
      simp only at e
      cases hi : h1.interpret F with
      | error e' => rw [hi] at e; cases e
      | ok h2 =>
        rw [hi] at e
        simp only [Option.some.injEq, Except.ok.injEq, Prod.mk.injEq] at e
        obtain ⟨rfl, rfl⟩ := e
        obtain ⟨n, i1, _, i3⟩ := readCards_some (streamAt_zero hg) hc
        rcases i3 with ⟨j1, s', j2, j3⟩ | ⟨_, j3⟩
        · cases j3
          obtain ⟨b, hread, _⟩ := interpret_ok hi
          have hl := congrArg List.length hread.raws
          rw [addCards_cards] at hl
          simp [Header.empty, pieces] at hl
          rw [hl, ← Nat.zero_add n]
          exact j2
        · cases j3

theorem readHeader_failed (F : FloatText) (fuel : Nat) (h : Header) {s : Stream} (hf : s.fail = true) :
    readHeader F fuel h s = none := by
  have hs : StreamAt s.content (s.content.length + 1) 0 s.writable s := ⟨rfl, rfl, Or.inr ⟨hf, by omega⟩⟩
  obtain ⟨s', _, g2⟩ := readCards_skip fuel h 0 hs (fun j _ => by
    unfold piece
    rw [window_outside (by omega)]
    exact ⟨blank_rawOk, blank_not_end⟩)
  unfold readHeader
  rw [Nat.add_zero] at g2
  rw [g2]; rfl

/-- The stream as the reader has it between two calls. -/
def rd (content : Str) (p : Nat) : Stream := ⟨content, p, false, false, false⟩

theorem rd_good (content : Str) (p : Nat) : (rd content p).good = true := rfl

theorem openRead_at (content : Str) (p : Nat) : { Stream.openRead content with pos := p } = rd content p := rfl

namespace Reader

/-- A failed stream without eofbit. -/
def Stuck (s : Stream) : Prop := s.fail = true ∧ s.eof = false

theorem extractHeader_failed (F : FloatText) (fuel : Nat) {s : Stream} (hf : s.fail = true) : extractHeader F fuel s = none := by
  unfold extractHeader; rw [readHeader_failed F fuel _ hf]

theorem entireTurn_failed (F : FloatText) (fuel : Nat) (r : Reader) {s : Stream} (hf : s.fail = true) : entireTurn F fuel r s = none := by
  unfold entireTurn; rw [Stream.tellg_fail hf]; simp only; rw [extractHeader_failed F fuel hf]

theorem headersTurn_failed (F : FloatText) (fuel : Nat) (r : Reader) {s : Stream} (hf : s.fail = true) : headersTurn F fuel r s = none := by
  unfold headersTurn; rw [Stream.tellg_fail hf]; simp only; rw [extractHeader_failed F fuel hf]

theorem readEntire_stuck (F : FloatText) (fuel n : Nat) (r : Reader) (hs : Stuck r.file) : readEntire F fuel n r = none := by
  cases n with
  | zero => rfl
  | succ n =>
    unfold readEntire
    rw [Stream.atEnd_fail hs.1, hs.2]
    simp only
    rw [entireTurn_failed F fuel r hs.1]

theorem readHeaders_stuck (F : FloatText) (fuel n : Nat) (r : Reader) (hs : Stuck r.file) : readHeaders F fuel n r = none := by
  cases n with
  | zero => rfl
  | succ n =>
    unfold readHeaders
    rw [Stream.atEnd_fail hs.1, hs.2]
    simp only
    rw [headersTurn_failed F fuel r hs.1]

theorem nextBoundary_exists (p : Nat) : ∃ e, NextBoundary p e := ⟨p + (2880 - p % 2880), by omega, by omega, by omega⟩

theorem setUnitEnd_rd {content : Str} {p e : Nat} (hp : p + 2880 < 2 ^ 63) (he : NextBoundary p e) : (rd content p).setUnitEnd = rd content e := by
  obtain ⟨e', h1, h2⟩ := Stream.setUnitEnd_good (rd_good content p) hp
  rw [h1, Stream.nextBoundary_unique h2 he]; rfl

/-- Reading a header that ends inside the file. -/
theorem extractHeader_inside {F : FloatText} {content : Str} {p d fuel : Nat} {h : Header} {s' : Stream}
    (e : readHeader F fuel Header.empty (rd content p) = some (.ok (h, s'))) (hin : p + 80 * h.cards.length ≤ content.length)
    (hd : NextBoundary (p + 80 * h.cards.length) d) (hb : content.length + 2880 < 2 ^ 63) :
    extractHeader F fuel (rd content p) = some (.ok (h, rd content d)) := by
  unfold extractHeader
  rw [e]
  have := streamAt_inside (readHeader_streamAt (rd_good content p) e) hin
  have e2 : s' = rd content (p + 80 * h.cards.length) := this
  rw [e2]
  simp only
  rw [setUnitEnd_rd (by omega) hd]

/-- Reading a header whose END card is cut off by the end of the file. -/
theorem extractHeader_cut {F : FloatText} {content : Str} {p fuel : Nat} {h : Header} {s' : Stream}
    (e : readHeader F fuel Header.empty (rd content p) = some (.ok (h, s'))) (hin : content.length < p + 80 * h.cards.length) (hp : p ≤ content.length) :
    ∃ s2, extractHeader F fuel (rd content p) = some (.ok (h, s2)) ∧ Stuck s2 := by
  unfold extractHeader
  rw [e]
  have hs := readHeader_streamAt (rd_good content p) e
  have hf : s'.fail = true := by
    obtain ⟨h1, h2, h3 | h3⟩ := hs
    · exfalso
      -- a good stream has not moved past the end
      have : s'.good = true → s'.pos ≤ content.length := by
        intro _
        unfold readHeader at e
        cases hc : readCards fuel Header.empty (rd content p) with
        | none => rw [hc] at e; cases e
        | some x =>
          rw [hc] at e
          cases x with
          | error e' => cases e
          | ok y =>
            obtain ⟨h4, s2⟩ := y
            simp only at e
            cases hi : h4.interpret F with
            | error e' => rw [hi] at e; cases e
            | ok h5 =>
              rw [hi] at e
              simp only [Option.some.injEq, Except.ok.injEq, Prod.mk.injEq] at e
              obtain ⟨rfl, rfl⟩ := e
              have key : ∀ (fuel : Nat) (h : Header) (s : Stream) (h' : Header) (s' : Stream), s.content = content → (s.good = true → s.pos ≤ content.length) →
                  readCards fuel h s = some (.ok (h', s')) → s'.good = true → s'.pos ≤ content.length := by
                intro fuel
                induction fuel with
                | zero => intro h s h' s' _ _ e; cases e
                | succ fuel ih =>
                  intro h s h' s' hc hp e hg
                  unfold readCards at e
                  cases hr : h.readCard s with
                  | error e' => rw [hr] at e; cases e
                  | ok x =>
                    obtain ⟨h1, s1, b⟩ := x
                    rw [hr] at e
                    have hs1 : s1.content = content ∧ (s1.good = true → s1.pos ≤ content.length) := by
                      unfold readCard at hr
                      obtain ⟨⟨buf, s2⟩, g1, g2⟩ := bind_ok hr
                      obtain ⟨c, _, g2⟩ := bind_ok g2
                      obtain ⟨k, _, g2⟩ := bind_ok g2
                      obtain ⟨w, _, g2⟩ := bind_ok g2
                      cases g2
                      unfold Stream.read at g1
                      rw [if_neg (by decide)] at g1
                      by_cases hsg : s.good = true
                      · rw [if_pos hsg] at g1
                        simp only at g1
                        split at g1
                        · rename_i hl
                          cases g1
                          simp only [List.length_take, List.length_drop] at hl
                          exact ⟨hc, fun _ => by simp only; rw [← hc]; omega⟩
                        · cases g1
                          exact ⟨hc, fun h => by simp [Stream.good] at h⟩
                      · rw [if_neg hsg] at g1
                        cases g1
                        unfold Stream.sentry
                        rw [if_neg hsg]
                        exact ⟨hc, fun h => by simp [Stream.good] at h⟩
                    cases b with
                    | true => cases e; exact hs1.2 hg
                    | false => exact ih _ _ _ _ hs1.1 hs1.2 e hg
              exact key fuel _ _ _ _ rfl (fun _ => hp) hc (by assumption)
      have h5 := this h3.1
      have h6 := h3.2
      have : (rd content p).pos = p := rfl
      omega
    · exact h3.1
  exact ⟨s'.setUnitEnd, rfl, by rw [Stream.setUnitEnd_fail hf]; exact ⟨hf, rfl⟩⟩

theorem mod64 : sizeMod = 2 ^ 64 := by decide

theorem dataBytes_iff {h : Header} {n : Nat} : dataBytes h = .ok n ↔ DataBytes h n := by
  unfold dataBytes DataBytes
  rw [mod64]
  cases h.bitpix with
  | none => simp
  | some b => simp [eq_comm]

/-- Reading data that is in the file. -/
theorem extractData_inside {h : Header} {content : Str} {d n q : Nat} (h0 : h.dataSize = 0 → n = 0 ∧ q = d)
    (h1 : h.dataSize ≠ 0 → DataBytes h n ∧ NextBoundary (d + n) q) (hin : n = 0 ∨ d + n ≤ content.length)
    (hd : d ≤ content.length + 2880) (hb : content.length + 5760 < 2 ^ 63) :
    extractData h (rd content d) = .ok (window content d n, rd content q) := by
  unfold extractData
  by_cases hz : h.dataSize = 0
  · obtain ⟨rfl, rfl⟩ := h0 hz
    rw [if_pos hz]; rfl
  · rw [if_neg hz]
    obtain ⟨k1, k2⟩ := h1 hz
    rw [dataBytes_iff.2 k1]
    obtain ⟨s', g1, _, _, g4, _⟩ := Stream.read_good (rd_good content d) (n := n) (by omega)
    have g1' : (rd content d).read n = .ok (window content d n, s') := g1
    have e : s' = rd content (d + n) := g4 (by rcases hin with h | h; exact Or.inr h; exact Or.inl h)
    simp only [bind, Except.bind, g1', pure, Except.pure]
    rw [e, setUnitEnd_rd (by omega) k2]

/-- Reading data that is cut off by the end of the file. -/
theorem extractData_cut {h : Header} {content : Str} {d n : Nat} (hz : h.dataSize ≠ 0) (h1 : DataBytes h n) (hn : n ≠ 0)
    (hin : content.length < d + n) (hb : n < 2 ^ 63) :
    ∃ s', extractData h (rd content d) = .ok (window content d n, s') ∧ Stuck s' := by
  unfold extractData
  rw [if_neg hz, dataBytes_iff.2 h1]
  obtain ⟨s', g1, _, _, _, g5⟩ := Stream.read_good (rd_good content d) (n := n) hb
  have g1' : (rd content d).read n = .ok (window content d n, s') := g1
  have hf := (g5 hin hn).1
  simp only [bind, Except.bind, g1', pure, Except.pure]
  exact ⟨_, rfl, by rw [Stream.setUnitEnd_fail hf]; exact ⟨hf, rfl⟩⟩

/-- Data on a failed stream. -/
theorem extractData_stuck {h : Header} {s s' : Stream} {buf : Str} (hs : Stuck s) (e : extractData h s = .ok (buf, s')) : Stuck s' := by
  unfold extractData at e
  by_cases hz : h.dataSize = 0
  · rw [if_pos hz] at e; cases e; exact hs
  · rw [if_neg hz] at e
    obtain ⟨n, _, e⟩ := bind_ok e
    obtain ⟨⟨b, s1⟩, e1, e⟩ := bind_ok e
    cases e
    unfold Stream.read at e1
    split at e1
    · cases e1
    · rw [Stream.good_of_fail hs.1] at e1
      simp only [Bool.false_eq_true, if_false] at e1
      cases e1
      rw [Stream.sentry_fail hs.1, Stream.setUnitEnd_fail hs.1]
      exact ⟨hs.1, rfl⟩

theorem store_ok {F : FloatText} {r r' : Reader} {s : Stream} {h : Header} {l d : Nat} {buf : Str} :
    store F r s h l d buf = .ok r' ↔ ∃ h1 name hdu, h.getHduName F = (h1, .ok name) ∧ Hdu.construct F h1 buf = .ok hdu ∧
      r' = ⟨s, r.hdus ++ [hdu], setInfo r.infos name ⟨l, d, r.hdus.length⟩⟩ := by
  unfold store
  generalize h.getHduName F = x
  obtain ⟨h1, y⟩ := x
  cases y with
  | error e => simp
  | ok name =>
    simp only [Prod.mk.injEq, Except.ok.injEq]
    cases hc : Hdu.construct F h1 buf with
    | error e =>
      constructor
      · intro h; cases h
      · rintro ⟨_, _, _, ⟨rfl, rfl⟩, h, _⟩; rw [hc] at h; cases h
    | ok hdu =>
      constructor
      · intro h; cases h; exact ⟨h1, name, hdu, ⟨rfl, rfl⟩, hc, rfl⟩
      · rintro ⟨_, _, _, ⟨rfl, rfl⟩, h, rfl⟩; rw [hc] at h; cases h; rfl

theorem store_file {F : FloatText} {r r' : Reader} {s : Stream} {h : Header} {l d : Nat} {buf : Str}
    (e : store F r s h l d buf = .ok r') : r'.file = s := by
  obtain ⟨_, _, _, _, _, rfl⟩ := store_ok.1 e; rfl

/-- What the control block holds after the entries `es`, of which the first has number `k`. -/
def addInfos (m : List (Str × Info)) (k : Nat) : List Entry → List (Str × Info)
  | [] => m
  | e :: es => addInfos (setInfo m e.name ⟨e.loc, e.dataLoc, k⟩) (k + 1) es

/-- One complete HDU is read. -/
theorem entireTurn_complete {F : FloatText} {content : Str} {e : Entry} (hc : Complete F content e) (hb : content.length + 5760 < 2 ^ 63) :
    ∃ N, ∀ fuel, N ≤ fuel → ∀ r : Reader, entireTurn F fuel r (rd content e.loc) =
      some (.ok ⟨rd content e.next, r.hdus ++ [e.hdu], setInfo r.infos e.name ⟨e.loc, e.dataLoc, r.hdus.length⟩⟩) := by
  obtain ⟨f0, s', h0⟩ := hc.header
  refine ⟨f0, fun fuel hf r => ?_⟩
  obtain ⟨g, rfl⟩ := Nat.exists_eq_add_of_le hf
  have h1 := readHeader_mono h0 g
  rw [openRead_at] at h1
  unfold entireTurn
  rw [Stream.tellg_good (rd_good _ _)]
  simp only
  rw [extractHeader_inside h1 hc.cards hc.dataLoc (by omega)]
  simp only
  rw [Stream.tellg_good (rd_good _ _)]
  simp only
  have hd := hc.dataLoc.2.2
  have hcards := hc.cards
  rw [extractData_inside hc.noData hc.data hc.inside (by omega) hb]
  simp only
  obtain ⟨h1, b1, b2⟩ := hc.built
  rw [store_ok.2 ⟨h1, _, _, b1, b2, rfl⟩]
  rfl

/-- A successful turn either read a complete HDU or left a failed stream. -/
theorem entireTurn_ok {F : FloatText} {content : Str} {p fuel : Nat} {r r' : Reader} (hp : p < content.length) (hb : content.length + 5760 < 2 ^ 63)
    (e : entireTurn F fuel r (rd content p) = some (.ok r')) :
    Stuck r'.file ∨ ∃ en, Complete F content en ∧ en.loc = p ∧
      r' = ⟨rd content en.next, r.hdus ++ [en.hdu], setInfo r.infos en.name ⟨en.loc, en.dataLoc, r.hdus.length⟩⟩ := by
  unfold entireTurn at e
  rw [Stream.tellg_good (rd_good _ _)] at e
  simp only at e
  cases hx : extractHeader F fuel (rd content p) with
  | none => rw [hx] at e; cases e
  | some x =>
    cases x with
    | error er => rw [hx] at e; cases e
    | ok y =>
      obtain ⟨h, s2⟩ := y
      have hr : ∃ s', readHeader F fuel Header.empty (rd content p) = some (.ok (h, s')) := by
        unfold extractHeader at hx
        cases hr : readHeader F fuel Header.empty (rd content p) with
        | none => rw [hr] at hx; cases hx
        | some z =>
          rw [hr] at hx
          cases z with
          | error er => cases hx
          | ok z => obtain ⟨h', s'⟩ := z; cases hx; exact ⟨s', rfl⟩
      obtain ⟨s', hr⟩ := hr
      rw [hx] at e
      simp only at e
      rcases Nat.lt_or_ge content.length (p + 80 * h.cards.length) with hin | hin
      · left
        obtain ⟨s3, k1, k2⟩ := extractHeader_cut hr hin (by omega)
        rw [hx] at k1; cases k1
        rw [Stream.tellg_fail k2.1] at e
        simp only at e
        cases hd : extractData h s2 with
        | error er => rw [hd] at e; cases e
        | ok z =>
          obtain ⟨buf, s4⟩ := z
          rw [hd] at e
          simp only [Option.some.injEq] at e
          rw [store_file e]
          exact extractData_stuck k2 hd
      · obtain ⟨d, hd⟩ := nextBoundary_exists (p + 80 * h.cards.length)
        have k1 := extractHeader_inside hr hin hd (by omega)
        rw [hx] at k1; cases k1
        rw [Stream.tellg_good (rd_good _ _)] at e
        simp only at e
        have hd2 := hd.2.2
        have hposd : (rd content d).pos = d := rfl
        have hposp : (rd content p).pos = p := rfl
        rw [hposd, hposp] at e
        by_cases hz : h.dataSize = 0
        · right
          rw [extractData_inside (n := 0) (q := d) (fun _ => ⟨rfl, rfl⟩) (fun hn => absurd hz hn) (Or.inl rfl) (by omega) hb] at e
          simp only [Option.some.injEq] at e
          obtain ⟨h1, name, hdu, b1, b2, b3⟩ := store_ok.1 e
          exact ⟨⟨p, h, d, 0, d, name, hdu⟩, ⟨⟨⟨fuel, s', hr⟩, hp, hin, hd, fun _ => ⟨rfl, rfl⟩, fun hn => absurd hz hn⟩, Or.inl rfl,
            h1, b1, b2⟩, rfl, b3⟩
        · cases hbytes : dataBytes h with
          | error er =>
            exfalso
            unfold extractData at e
            rw [if_neg hz, hbytes] at e
            cases e
          | ok n =>
            have hn := dataBytes_iff.1 hbytes
            by_cases hlen : 2 ^ 63 ≤ n
            · exfalso
              unfold extractData Stream.read at e
              rw [if_neg hz, hbytes] at e
              simp only [bind, Except.bind, if_pos hlen] at e
              cases e
            · by_cases hins : n = 0 ∨ d + n ≤ content.length
              · right
                obtain ⟨q, hq⟩ := nextBoundary_exists (d + n)
                rw [extractData_inside (n := n) (q := q) (fun h => absurd h hz) (fun _ => ⟨hn, hq⟩) hins (by omega) hb] at e
                simp only [Option.some.injEq] at e
                obtain ⟨h1, name, hdu, b1, b2, b3⟩ := store_ok.1 e
                exact ⟨⟨p, h, d, n, q, name, hdu⟩, ⟨⟨⟨fuel, s', hr⟩, hp, hin, hd, fun h => absurd h hz, fun _ => ⟨hn, hq⟩⟩, hins,
                  h1, b1, b2⟩, rfl, b3⟩
              · left
                obtain ⟨s4, k1, k2⟩ := extractData_cut (content := content) (d := d) hz hn (fun h => hins (Or.inl h))
                  (by rcases Nat.lt_or_ge content.length (d + n) with h | h; exact h; exact absurd (Or.inr h) hins) (by omega)
                rw [k1] at e
                simp only [Option.some.injEq] at e
                rw [store_file e]; exact k2

theorem atEnd_rd_inside {content : Str} {p : Nat} (hp : p < content.length) : (rd content p).atEnd = (rd content p, false) := by
  obtain ⟨h1, h2⟩ := Stream.atEnd_good (rd_good content p)
  have h2' := h2 hp
  have e : (rd content p).atEnd = ((rd content p).atEnd.1, (rd content p).atEnd.2) := rfl
  rw [e, h2', h1]
  have : decide ((rd content p).content.length ≤ (rd content p).pos) = false := decide_eq_false (by show ¬ content.length ≤ p; omega)
  rw [this]

theorem atEnd_rd_end {content : Str} {p : Nat} (hp : content.length ≤ p) : (rd content p).atEnd = ({ rd content p with eof := true }, true) := by
  unfold Stream.atEnd
  rw [if_pos (rd_good content p), if_neg (by show ¬ p < content.length; omega)]

/-- Reading a chain of complete HDUs. -/
theorem readEntire_chain {F : FloatText} {content : Str} (hb : content.length + 5760 < 2 ^ 63) : ∀ (es : List Entry) (p q : Nat),
    Chain (Complete F content) p es q → ∃ N, ∀ fuel, N ≤ fuel → ∀ (n : Nat) (r : Reader), r.file = rd content p →
      readEntire F fuel (n + es.length) r = readEntire F fuel n ⟨rd content q, r.hdus ++ es.map (·.hdu), addInfos r.infos r.hdus.length es⟩ := by
  intro es
  induction es with
  | nil =>
    intro p q h
    have : p = q := h
    subst this
    refine ⟨0, fun fuel _ n r hr => ?_⟩
    simp only [List.length_nil, Nat.add_zero, List.map_nil, List.append_nil, addInfos]
    rw [← hr]
  | cons e es ih =>
    intro p q h
    obtain ⟨h1, h2, h3⟩ := h
    obtain ⟨N1, k1⟩ := entireTurn_complete h2 hb
    obtain ⟨N2, k2⟩ := ih _ _ h3
    refine ⟨max N1 N2, fun fuel hf n r hr => ?_⟩
    rw [List.length_cons, ← Nat.add_assoc]
    conv => lhs; unfold readEntire
    subst h1
    rw [hr, atEnd_rd_inside h2.start]
    simp only
    rw [k1 fuel (by omega) r]
    simp only
    rw [k2 fuel (by omega) n _ rfl]
    simp only [List.append_assoc, List.map_cons, List.cons_append, List.nil_append, List.length_append, List.length_cons, List.length_nil, addInfos]

theorem readEntire_end {F : FloatText} {content : Str} {q fuel n : Nat} {r : Reader} (hq : content.length ≤ q) (hr : r.file = rd content q) :
    readEntire F fuel (n + 1) r = some (.ok { r with file := { rd content q with eof := true } }) := by
  unfold readEntire
  rw [hr, atEnd_rd_end hq]

/-- A successful reading has followed a chain of complete HDUs. -/
theorem readEntire_ok {F : FloatText} {content : Str} (hb : content.length + 5760 < 2 ^ 63) {fuel : Nat} : ∀ (n p : Nat) (r r' : Reader),
    r.file = rd content p → readEntire F fuel n r = some (.ok r') →
    ∃ es q, Chain (Complete F content) p es q ∧ content.length ≤ q ∧
      r' = ⟨{ rd content q with eof := true }, r.hdus ++ es.map (·.hdu), addInfos r.infos r.hdus.length es⟩ := by
  intro n
  induction n with
  | zero => intro p r r' _ e; cases e
  | succ n ih =>
    intro p r r' hr e
    rcases Nat.lt_or_ge p content.length with hp | hp
    · unfold readEntire at e
      rw [hr, atEnd_rd_inside hp] at e
      simp only at e
      cases ht : entireTurn F fuel r (rd content p) with
      | none => rw [ht] at e; cases e
      | some x =>
        rw [ht] at e
        cases x with
        | error er => cases e
        | ok r1 =>
          simp only at e
          rcases entireTurn_ok hp hb ht with hs | ⟨en, k1, k2, k3⟩
          · rw [readEntire_stuck F fuel n r1 hs] at e; cases e
          · obtain ⟨es, q, g1, g2, g3⟩ := ih en.next r1 r' (by rw [k3]) e
            refine ⟨en :: es, q, ⟨k2, k1, g1⟩, g2, ?_⟩
            rw [g3, k3]
            simp only [List.append_assoc, List.map_cons, List.cons_append, List.nil_append, List.length_append, List.length_cons, List.length_nil, addInfos]
    · rw [readEntire_end hp hr] at e
      cases e
      refine ⟨[], p, rfl, hp, ?_⟩
      simp [addInfos]

end Reader

end Astro
