import Verif.Lemmas.FitsCopy

/-
Property C132: which bytes a file keeps when it is opened and saved.
-/

namespace Astro

open Spec Header Reader Bin

theorem chain_all {P : Entry → Prop} : ∀ {es : List Entry} {p q : Nat}, Chain P p es q → ∀ e ∈ es, P e
  | [], _, _, _, e, he => by cases he
  | _ :: _, _, _, h, e, he => by
    rcases List.mem_cons.1 he with rfl | he
    · exact h.2.1
    · exact chain_all h.2.2 e he

theorem chain_mono {P Q : Entry → Prop} (h : ∀ e, P e → Q e) : ∀ {es : List Entry} {p q : Nat}, Chain P p es q → Chain Q p es q
  | [], _, _, c => c
  | _ :: _, _, _, c => ⟨c.1, h _ c.2.1, chain_mono h c.2.2⟩

/-- **C132** A file that was opened is saved with every HDU at its old place: the cards of every header, the pixels of every image and the data of every
binary table are the same bytes at the same positions; the data of an ASCII table is its cells, each right-justified in its column; every byte that belongs
to no HDU is a blank; the file ends where the last block ends.  (Every HDU must carry data that fits its header, and the file must stay below 2^63 - 5760
bytes.) -/
theorem C132_copy (F : FloatText) (content : Str) (es : List Entry) (q : Nat) (hf : Chain (Complete F content) 0 es q)
    (hfit : ∀ e ∈ es, DataFits e.header e.hdu) :
    ∃ s, writeAll (es.map (·.hdu)) = .ok s ∧ (s.content.length + 5760 < 2 ^ 63 → s.content.length = q ∧
      Chain (Complete F s.content) 0 es q ∧
      (∀ e ∈ es, ∀ i, InCards e i → s.content[i]? = content[i]?) ∧
      (∀ e ∈ es, (∀ t, e.hdu ≠ .ascii t) → ∀ i, InData e i → s.content[i]? = content[i]?) ∧
      (∀ e ∈ es, Holds e.hdu (cardsOf e.hdu) (dataOf s.content e)) ∧
      ∀ i, i < q → Filler es i → s.content[i]? = some 32) := by
  obtain ⟨s, e1, _, _, g⟩ := copy_chain es hf hfit create_atEnd rfl
  refine ⟨s, e1, fun hb => ?_⟩
  obtain ⟨g1, g2⟩ := g hb
  obtain ⟨g3, g4⟩ := g2 []
  rw [List.append_nil] at g3 g4
  have hall := chain_all g3
  have horig := chain_all hf
  have get : ∀ (p n i : Nat), p + n ≤ s.content.length → p + n ≤ content.length → window s.content p n = window content p n → p ≤ i → i < p + n →
      s.content[i]? = content[i]? := by
    intro p n i h1 h2 hw h3 h4
    have := window_get hw h3 h4
    rw [List.getD_eq_getElem?_getD, List.getD_eq_getElem?_getD, List.getElem?_eq_getElem (by omega), List.getElem?_eq_getElem (by omega)] at this
    rw [List.getElem?_eq_getElem (by omega), List.getElem?_eq_getElem (by omega)]
    exact congrArg some this
  refine ⟨g1, chain_mono (fun e h => h.complete) g3, ?_, ?_, fun e he => (hall e he).holds, fun i h1 h2 => g4 i (Nat.zero_le _) h1 h2⟩
  · intro e he i hi
    exact get _ _ i (hall e he).complete.cards (horig e he).cards (hall e he).cards hi.1 hi.2
  · intro e he hna i hi
    obtain ⟨h1, h2⟩ := hi
    have q1 := (hall e he).complete.inside.resolve_left (by omega)
    have q2 := (horig e he).inside.resolve_left (by omega)
    exact get _ _ i q1 q2 ((hall e he).data hna) h1 h2

/-- **C132** The saved file is the opened file, byte for byte, exactly when the opened file ends with its last block, has blanks in all bytes that belong
to no HDU, and has the cells of its ASCII tables right-justified. -/
theorem C132_same_iff (F : FloatText) (content : Str) (es : List Entry) (q : Nat) (hf : Chain (Complete F content) 0 es q)
    (hfit : ∀ e ∈ es, DataFits e.header e.hdu) (s : Stream) (hs : writeAll (es.map (·.hdu)) = .ok s) (hb : s.content.length + 5760 < 2 ^ 63) :
    s.content = content ↔ content.length = q ∧ (∀ i, i < q → Filler es i → content[i]? = some 32) ∧
      ∀ e ∈ es, ∀ t, e.hdu = .ascii t → Holds e.hdu (cardsOf e.hdu) (dataOf content e) := by
  obtain ⟨s', hs', g⟩ := C132_copy F content es q hf hfit
  rw [hs] at hs'
  cases hs'
  obtain ⟨g1, g2, g3, g4, g5, g6⟩ := g hb
  constructor
  · intro h
    rw [h] at g1 g5 g6
    exact ⟨g1, g6, fun e he _ _ => g5 e he⟩
  · rintro ⟨h1, h2, h3⟩
    apply List.ext_getElem?
    intro i
    rcases Nat.lt_or_ge i q with hi | hi
    · by_cases hfl : Filler es i
      · rw [g6 i hi hfl, h2 i hi hfl]
      · unfold Filler at hfl
        push Not at hfl
        obtain ⟨e, he, hin⟩ := hfl
        by_cases hc : InCards e i
        · exact g3 e he i hc
        · have hd := hin hc
          by_cases ha : ∀ t, e.hdu ≠ .ascii t
          · exact g4 e he ha i hd
          · push Not at ha
            obtain ⟨t, ht⟩ := ha
            have a := h3 e he t ht
            have b := g5 e he
            rw [ht] at a b
            have := window_get (holds_ascii_unique b a) hd.1 hd.2
            rw [List.getD_eq_getElem?_getD, List.getD_eq_getElem?_getD, List.getElem?_eq_getElem (by omega), List.getElem?_eq_getElem (by omega)] at this
            rw [List.getElem?_eq_getElem (by omega), List.getElem?_eq_getElem (by omega)]
            exact congrArg some this
    · rw [List.getElem?_eq_none (by omega), List.getElem?_eq_none (by omega)]

/-- **C132** A copy is a fixed point: opening the copy and saving it gives the copy, byte for byte. -/
theorem C132_again (F : FloatText) (content : Str) (es : List Entry) (hf : FileOf F content es)
    (hfit : ∀ e ∈ es, DataFits e.header e.hdu) (s : Stream) (hs : writeAll (es.map (·.hdu)) = .ok s) (hb : s.content.length + 5760 < 2 ^ 63) :
    FileOf F s.content es ∧ ∃ N r, (∀ fuel n, N ≤ fuel → N ≤ n → readEntire F fuel n (openFile s.content) = some (.ok r)) ∧ writeAll r.hdus = .ok s := by
  obtain ⟨q, hq, _⟩ := hf
  obtain ⟨s', hs', g⟩ := C132_copy F content es q hq hfit
  rw [hs] at hs'
  cases hs'
  obtain ⟨g1, g2, _⟩ := g hb
  have hfile : FileOf F s.content es := ⟨q, g2, by omega⟩
  obtain ⟨N, r, h1, h2⟩ := C31_open_total F s.content hb es hfile
  exact ⟨hfile, N, r, h1, by rw [h2, hs]⟩

/-! ## Example -/

/-- A file whose last block is not filled up, with other bytes than blanks behind the cards: the copy has blanks there and is filled up, and a second copy is the
same as the first. -/
example : let file := exPrimary.flatten ++ List.replicate (2880 - exPrimary.flatten.length) 46 ++ [0, 1, 255, 254]
    (match readEntire exNoFloats 6 2 (openFile file) with
    | some (.ok r) => (match writeAll r.hdus with
      | .ok s => decide (s.content.length = 5760 ∧ s.content.take 480 = exPrimary.flatten ∧ (s.content.drop 480).take 3 = [32, 32, 32] ∧
          (file.drop 480).take 3 = [46, 46, 46] ∧ (s.content.drop 2880).take 6 = [0, 1, 255, 254, 32, 32])
      | _ => false)
    | _ => false) = true := by
  decide +kernel

/-- A file whose header block is filled up with dots and whose data block is not filled up. -/
def exDots : Str := exPrimary.flatten ++ List.replicate (2880 - exPrimary.flatten.length) 46 ++ [0, 1, 255, 254]

/-- The hypotheses are met by this file. -/
theorem exDots_file : ∃ e, FileOf exNoFloats exDots [e] ∧ DataFits e.header e.hdu ∧ ∀ t, e.hdu ≠ .ascii t := by
  have h1 : (match readEntire exNoFloats 6 2 (openFile exDots) with
    | some (.ok r) => (match r.hdus with
      | [.primary p] => decide (p.data.kind = .B16) && decide (p.data.img.data.length = 2)
      | _ => false)
    | _ => false) = true := by decide +kernel
  have h2 : (match readHeader exNoFloats 6 Header.empty { Stream.openRead exDots with pos := 0 } with
    | some (.ok (h, _)) => decide (h.naxis = [2])
    | _ => false) = true := by decide +kernel
  have hlen : exDots.length + 5760 < 2 ^ 63 := by decide +kernel
  generalize exDots = file at *
  split at h1
  next r hr =>
    split at h1
    next p hp =>
      rw [Bool.and_eq_true, decide_eq_true_eq, decide_eq_true_eq] at h1
      obtain ⟨es, f1, f2⟩ := (C31_open_iff exNoFloats file hlen r.hdus).1 ⟨6, 2, r, hr, rfl⟩
      rw [hp] at f2
      have hes : ∃ e, es = [e] := List.length_eq_one_iff.1 (by simpa using (congrArg List.length f2).symm)
      obtain ⟨e, rfl⟩ := hes
      · simp only [List.map_cons, List.map_nil, List.cons.injEq, and_true] at f2
        refine ⟨e, f1, ?_, by rw [← f2]; nofun⟩
        split at h2
        next h s' hh =>
          have hn := of_decide_eq_true h2
          obtain ⟨q, ⟨c1, c2, _⟩, _⟩ := f1
          obtain ⟨fuel, s2, c3⟩ := c2.header
          rw [c1] at c3
          have a := readHeader_mono hh fuel
          have b := readHeader_mono c3 6
          rw [Nat.add_comm, b] at a
          simp only [Option.some.injEq, Except.ok.injEq, Prod.mk.injEq] at a
          rw [← f2, a.1]
          refine ⟨by rw [h1.1]; nofun, ?_, by rw [hn]; simp, by rw [hn, h1.2]; rfl⟩
          intro h0
          rw [h0] at h1
          exact absurd h1.2 (by simp)
        next => cases h2
    next => cases h1
  next => cases h1

/-- So its copy is another file, though the HDU of both is the same. -/
example : ∃ e s, FileOf exNoFloats exDots [e] ∧ writeAll [e.hdu] = .ok s ∧
    (s.content.length + 5760 < 2 ^ 63 → s.content ≠ exDots ∧ FileOf exNoFloats s.content [e]) := by
  obtain ⟨e, ⟨q, h1, h2⟩, h3, h4⟩ := exDots_file
  obtain ⟨s, g1, g2⟩ := C132_copy _ _ _ _ h1 (by simpa using h3)
  refine ⟨e, s, ⟨q, h1, h2⟩, g1, fun hb => ⟨?_, ?_⟩⟩
  · rw [Ne, C132_same_iff _ _ _ _ h1 (by simpa using h3) s g1 hb]
    rintro ⟨h, _⟩
    have hq : 2880 ∣ q := by
      obtain ⟨_, c, rfl⟩ := h1
      by_cases hz : e.header.dataSize = 0
      · rw [(c.noData hz).2]; exact c.dataLoc.1
      · exact (c.data hz).2.1
    rw [← h] at hq
    exact absurd hq (by decide +kernel)
  · exact (C132_again _ _ _ ⟨q, h1, h2⟩ (by simpa using h3) s g1 hb).1

end Astro
