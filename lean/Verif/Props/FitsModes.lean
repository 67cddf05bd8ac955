import Verif.Lemmas.FitsHeaders
import Verif.Props.FitsEmpty

/-
Properties C75 to C79: cut files, reused readers, and the headers-only mode.
-/

namespace Astro

open Spec Header Reader Bin

/-- If an HDU can be built from its header and data, it can be built from the header alone. -/
theorem construct_without {F : FloatText} {h1 : Header} {buf : Str} {x : Hdu} (ex : Hdu.construct F h1 buf = .ok x) :
    ∃ y, Hdu.construct F h1 [] = .ok y ∧ WithoutData x y := by
  unfold Hdu.construct at ex ⊢
  split at ex
  · rename_i hc
    rw [if_pos hc]
    obtain ⟨p0, e1, ex⟩ := bind_ok ex
    cases ex
    unfold Primary.make at e1 ⊢
    cases hb : h1.bitpix with
    | none => rw [hb] at e1; cases e1
    | some b =>
      rw [hb] at e1
      simp only at e1 ⊢
      obtain ⟨img, e2, e1⟩ := bind_ok e1
      obtain ⟨⟨h2, sv⟩, e3, e1⟩ := bind_ok e1
      obtain ⟨⟨h3, ev⟩, e4, e1⟩ := bind_ok e1
      cases e1
      unfold AnyImage.make at e2
      obtain ⟨im, e5, e2⟩ := bind_ok e2
      cases e2
      have him : im.width = some 0 ∧ im.height = some 0 := by
        unfold Image.readImage at e5
        split at e5
        · cases e5; exact ⟨rfl, rfl⟩
        · obtain ⟨_, _, e6⟩ := bind_ok e5
          cases e6; exact ⟨rfl, rfl⟩
      have hmk : AnyImage.make b [] = .ok ⟨b, Image.fresh⟩ := rfl
      rw [hmk]
      simp only [bind, Except.bind, pure, Except.pure, e3, e4]
      refine ⟨_, rfl, ?_⟩
      simp only [WithoutData]
      cases im
      simp only at him
      obtain ⟨rfl, rfl⟩ := him
      rfl
  · rename_i hc
    rw [if_neg hc]
    unfold Hdu.generateExtension at ex ⊢
    obtain ⟨⟨h2, k⟩, e1, e2⟩ := bind_ok ex
    rw [e1]
    simp only [bind, Except.bind] at e2 ⊢
    split at e2
    · rename_i hk
      rw [if_pos hk]
      obtain ⟨t0, e3, e2⟩ := bind_ok e2
      cases e2
      unfold Ascii.make at e3 ⊢
      obtain ⟨tb, e4, e3⟩ := bind_ok e3
      have hd : tb.data = [] := by
        unfold Table.base at e4
        obtain ⟨_, _, e4⟩ := bind_ok e4
        obtain ⟨_, _, e4⟩ := bind_ok e4
        obtain ⟨_, _, e4⟩ := bind_ok e4
        obtain ⟨_, _, e4⟩ := bind_ok e4
        cases e4; rfl
      rw [e4]
      simp only [bind, Except.bind]
      unfold Ascii.setInfo at e3 ⊢
      obtain ⟨⟨h5, cs⟩, e5, e3⟩ := bind_ok e3
      rw [e5]
      simp only [bind, Except.bind, List.isEmpty_nil, if_true, pure, Except.pure] at e3 ⊢
      refine ⟨_, rfl, ?_⟩
      simp only [WithoutData]
      split at e3
      · cases e3; rw [hd]
      · obtain ⟨_, _, e3⟩ := bind_ok e3
        obtain ⟨_, _, e3⟩ := bind_ok e3
        obtain ⟨_, _, e3⟩ := bind_ok e3
        cases e3; rw [hd]
    · rename_i hk
      rw [if_neg hk]
      split at e2
      · rename_i hk2
        rw [if_pos hk2]
        obtain ⟨t0, e3, e2⟩ := bind_ok e2
        cases e2
        unfold BinTable.make at e3 ⊢
        obtain ⟨tb, e4, e3⟩ := bind_ok e3
        have hd : tb.data = [] := by
          unfold Table.base at e4
          obtain ⟨_, _, e4⟩ := bind_ok e4
          obtain ⟨_, _, e4⟩ := bind_ok e4
          obtain ⟨_, _, e4⟩ := bind_ok e4
          obtain ⟨_, _, e4⟩ := bind_ok e4
          cases e4; rfl
        rw [e4]
        simp only [bind, Except.bind]
        unfold BinTable.setInfo at e3 ⊢
        obtain ⟨⟨h5, cs⟩, e5, e3⟩ := bind_ok e3
        rw [e5]
        simp only [bind, Except.bind, List.isEmpty_nil, if_true, pure, Except.pure] at e3 ⊢
        refine ⟨_, rfl, ?_⟩
        simp only [WithoutData]
        split at e3
        · cases e3; rw [hd]
        · obtain ⟨_, _, e3⟩ := bind_ok e3
          obtain ⟨_, _, e3⟩ := bind_ok e3
          obtain ⟨_, _, e3⟩ := bind_ok e3
          cases e3; rw [hd]
      · rename_i hk2
        rw [if_neg hk2]
        cases e2
        exact ⟨_, rfl, trivial⟩

/-- What the headers-only mode sees of an HDU. -/
theorem placed_listed {F : FloatText} {content : Str} {e : Entry} {buf : Str} (hp : Placed F content e) (hbu : Built F e buf)
    (hs : e.dataLoc + e.bytes + 2880 < 2 ^ 63) :
    ∃ y, Listed F content { e with hdu := y } ∧ WithoutData e.hdu y := by
  obtain ⟨h1, b1, b2⟩ := hbu
  obtain ⟨y, c1, c2⟩ := construct_without b2
  refine ⟨y, ⟨hp.header, hp.start, hp.cards, hp.dataLoc, hp.noData, ?_, h1, b1, c1⟩, c2⟩
  intro hz
  obtain ⟨d1, d2⟩ := hp.data hz
  refine ⟨d1, ?_, ?_⟩
  · rw [Nat.mod_eq_of_lt (by simp only; omega)]; exact d2
  · have := d2.2.2; simp only; omega

theorem complete_listed {F : FloatText} {content : Str} (hb : content.length + 5760 < 2 ^ 63) {e : Entry} (hc : Complete F content e) :
    ∃ y, Listed F content { e with hdu := y } ∧ WithoutData e.hdu y := by
  refine placed_listed hc.toPlaced hc.built ?_
  have h1 := hc.cards
  have h2 := hc.dataLoc.2.2
  rcases hc.inside with h | h
  · rw [h]; omega
  · omega

theorem chain_listed {F : FloatText} {content : Str} (hb : content.length + 5760 < 2 ^ 63) : ∀ {es : List Entry} {p q : Nat},
    Chain (Complete F content) p es q → ∃ fs, Chain (Listed F content) p fs q ∧ List.Forall₂ WithoutData (es.map (·.hdu)) (fs.map (·.hdu)) ∧
      fs.map (fun e => (e.name, e.loc, e.dataLoc)) = es.map (fun e => (e.name, e.loc, e.dataLoc))
  | [], p, q, h => ⟨[], h, .nil, rfl⟩
  | e :: es, p, q, h => by
    obtain ⟨y, h1, h2⟩ := complete_listed hb h.2.1
    obtain ⟨fs, g1, g2, g3⟩ := chain_listed hb h.2.2
    exact ⟨{ e with hdu := y } :: fs, ⟨h.1, h1, g1⟩, .cons h2 g2, by simp only [List.map_cons, g3]⟩

theorem addInfos_congr : ∀ {es fs : List Entry} (m : List (Str × Info)) (k : Nat),
    fs.map (fun e => (e.name, e.loc, e.dataLoc)) = es.map (fun e => (e.name, e.loc, e.dataLoc)) → addInfos m k fs = addInfos m k es
  | [], [], _, _, _ => rfl
  | [], _ :: _, _, _, h => by simp at h
  | _ :: _, [], _, _, h => by simp at h
  | e :: es, f :: fs, m, k, h => by
    simp only [List.map_cons, List.cons.injEq, Prod.mk.injEq] at h
    obtain ⟨⟨h1, h2, h3⟩, h4⟩ := h
    simp only [addInfos, h1, h2, h3]
    exact addInfos_congr _ _ h4

/-! ## C77 -/

/-- **C77** What the headers-only mode returns: exactly the HDUs whose headers follow each other, the data between them skipped by its announced length. -/
theorem C77_headers_iff (F : FloatText) (content : Str) (hb : content.length + 5760 < 2 ^ 63) (hdus : List Hdu) :
    (∃ fuel n r, readHeaders F fuel n (openFile content) = some (.ok r) ∧ r.hdus = hdus) ↔ ∃ es, HeadersOf F content es ∧ hdus = es.map (·.hdu) := by
  constructor
  · rintro ⟨fuel, n, r, e, rfl⟩
    obtain ⟨es, q, h1, h2, h3⟩ := readHeaders_ok hb n 0 _ _ rfl e
    refine ⟨es, ⟨q, h1, h2⟩, ?_⟩
    rw [h3]
    simp [openFile]
  · rintro ⟨es, ⟨q, h1, h2⟩, rfl⟩
    obtain ⟨N, h3⟩ := readHeaders_chain hb es 0 q h1
    refine ⟨N, 1 + es.length, ⟨{ rd content q with eof := true }, es.map (·.hdu), addInfos [] 0 es⟩, ?_, rfl⟩
    rw [h3 N (Nat.le_refl _) 1 (openFile content) rfl, readHeaders_end (n := 0) h2 rfl]
    simp [openFile]

/-- **C77** A file that can be opened completely can also be opened in the headers-only mode, which then gives the same HDUs without pixels and cells and
the same entries (name, position of header and data, index) in the control block. -/
theorem C77_same_layout (F : FloatText) (content : Str) (hb : content.length + 5760 < 2 ^ 63) (fuel n : Nat) (r : Reader)
    (e : readEntire F fuel n (openFile content) = some (.ok r)) :
    ∃ N r', (∀ fuel' n', N ≤ fuel' → N ≤ n' → readHeaders F fuel' n' (openFile content) = some (.ok r')) ∧ r'.infos = r.infos ∧
      List.Forall₂ WithoutData r.hdus r'.hdus := by
  obtain ⟨es, q, h1, h2, h3⟩ := readEntire_ok hb n 0 _ _ rfl e
  obtain ⟨fs, g1, g2, g3⟩ := chain_listed hb h1
  obtain ⟨N, k⟩ := readHeaders_chain hb fs 0 q g1
  refine ⟨max N (1 + fs.length), ⟨{ rd content q with eof := true }, fs.map (·.hdu), addInfos [] 0 fs⟩, ?_, ?_, ?_⟩
  · intro fuel' n' hf hn
    obtain ⟨k', hk⟩ : ∃ k', n' = (k' + 1) + fs.length := ⟨n' - 1 - fs.length, by omega⟩
    rw [hk, k fuel' (by omega) (k' + 1) (openFile content) rfl, readHeaders_end h2 rfl]
    simp [openFile]
  · rw [h3]
    exact addInfos_congr [] 0 g3
  · rw [h3]
    simpa [openFile] using g2

/-! ## C75 -/

/-- **C75** A file cut off inside the data of its last HDU cannot be opened completely: if that HDU can still be built (from its header and the bytes that are
there, completed by blanks) the reader does not come to an end. -/
theorem C75_cut_hangs (F : FloatText) (content : Str) (hb : content.length + 5760 < 2 ^ 63) (es : List Entry) (p : Nat)
    (hc : Chain (Complete F content) 0 es p) (e : Entry) (hloc : e.loc = p) (hp : Placed F content e) (hz : e.header.dataSize ≠ 0) (hn : e.bytes ≠ 0)
    (hcut : content.length < e.dataLoc + e.bytes) (h63 : e.bytes < 2 ^ 63) (hbu : Built F e (window content e.dataLoc e.bytes)) (fuel n : Nat) :
    readEntire F fuel n (openFile content) = none := by
  cases hx : readEntire F fuel n (openFile content) with
  | none => rfl
  | some x =>
    exfalso
    obtain ⟨fuel', n', r0, h1, h2, h3⟩ := readEntire_prefix hb hc hx
    obtain ⟨f0, s', h0⟩ := hp.header
    have h4 := readEntire_mono n' h3 f0 0
    cases n' with
    | zero => cases h3
    | succ n' =>
      have h5 := readHeader_mono h0 fuel'
      rw [openRead_at, Nat.add_comm] at h5
      obtain ⟨s4, k1, k2⟩ := extractData_cut (content := content) (d := e.dataLoc) hz (hp.data hz).1 hn hcut h63
      obtain ⟨g1, b1, b2⟩ := hbu
      rw [Nat.add_zero] at h4
      unfold readEntire at h4
      rw [h1, atEnd_rd_inside (by rw [← hloc]; exact hp.start)] at h4
      simp only at h4
      unfold entireTurn at h4
      rw [← hloc, Stream.tellg_good (rd_good _ _)] at h4
      simp only at h4
      rw [extractHeader_inside h5 hp.cards hp.dataLoc (by omega)] at h4
      simp only at h4
      rw [Stream.tellg_good (rd_good _ _)] at h4
      simp only at h4
      rw [k1] at h4
      simp only at h4
      rw [store_ok.2 ⟨g1, _, _, b1, b2, rfl⟩] at h4
      simp only at h4
      rw [readEntire_stuck F _ _ _ k2] at h4
      cases h4

/-- **C75** The headers-only mode opens the same cut file and lists all its HDUs, the cut one included. -/
theorem C75_cut_headers (F : FloatText) (content : Str) (hb : content.length + 5760 < 2 ^ 63) (es : List Entry) (p : Nat)
    (hc : Chain (Complete F content) 0 es p) (e : Entry) (hloc : e.loc = p) (hp : Placed F content e) (hz : e.header.dataSize ≠ 0)
    (hcut : content.length < e.dataLoc + e.bytes) (h63 : e.dataLoc + e.bytes + 2880 < 2 ^ 63) (hbu : Built F e (window content e.dataLoc e.bytes)) :
    ∃ fuel n r, readHeaders F fuel n (openFile content) = some (.ok r) ∧ List.Forall₂ WithoutData (es.map (·.hdu) ++ [e.hdu]) r.hdus := by
  obtain ⟨fs, g1, g2, g3⟩ := chain_listed hb hc
  obtain ⟨y, h1, h2⟩ := placed_listed hp hbu h63
  have hch : Chain (Listed F content) p [{ e with hdu := y }] e.next := ⟨hloc, h1, rfl⟩
  obtain ⟨fuel, n, r, h3, h4⟩ := (C77_headers_iff F content hb ((fs ++ [{ e with hdu := y }]).map Entry.hdu)).2
    ⟨fs ++ [{ e with hdu := y }], ⟨e.next, chain_append g1 hch, by have := (hp.data hz).2.2.1; omega⟩, rfl⟩
  refine ⟨fuel, n, r, h3, ?_⟩
  rw [h4, List.map_append]
  exact List.rel_append g2 (.cons h2 .nil)

/-! ## C76 -/

/-- **C76** A reader that is initialised with a second file keeps the HDUs of the first: they stay in front of the new ones, so access by index still gives
the old HDUs, while names and total_hdus refer to the new file only. -/
theorem C76_reused (F : FloatText) (content : Str) (hb : content.length + 5760 < 2 ^ 63) (r0 : Reader) (fuel n : Nat) (r : Reader)
    (e : readEntire F fuel n (r0.reinitialize content) = some (.ok r)) :
    ∃ es, FileOf F content es ∧ r.hdus = r0.hdus ++ es.map (·.hdu) ∧
      (∀ (i : Nat) (x : Hdu), r0.hdus[i]? = some x → r.at' i = .ok x) ∧
      (∀ (i : Nat) (en : Entry), es[i]? = some en → r.at' (r0.hdus.length + i : Nat) = .ok en.hdu) ∧
      (∀ name, (∀ (i : Nat) (en : Entry), es[i]? = some en → LastOf (es.map (·.name)) name i → r.byName name = .ok en.hdu) ∧
        (name ∉ es.map (·.name) → r.byName name = .error .outOfRange)) ∧
      r.totalHdus = (es.map (·.name)).dedup.length := by
  obtain ⟨es, q, h1, h2, h3⟩ := readEntire_ok hb n 0 _ _ rfl e
  have hr : r.infos = addInfos [] r0.hdus.length es := by rw [h3]; rfl
  have hh : r.hdus = r0.hdus ++ es.map (·.hdu) := by rw [h3]; rfl
  refine ⟨es, ⟨q, h1, h2⟩, hh, ?_, ?_, ?_, ?_⟩
  · intro i x hx
    apply (C33_index r i).1 i x rfl
    rw [hh, List.getElem?_append_left (List.getElem?_eq_some_iff.1 hx).1, hx]
  · intro i en hi
    apply (C33_index r _).1 _ _ rfl
    rw [hh, List.getElem?_append_right (by omega), Nat.add_sub_cancel_left, List.getElem?_map, hi]; rfl
  · intro name
    obtain ⟨k1, k2⟩ := addInfos_lookup es [] r0.hdus.length name
    unfold Reader.byName
    rw [hr, hh]
    unfold lookup at k1 k2
    constructor
    · intro i en hi hl
      have := k1 i en hi hl
      cases hf : (addInfos [] r0.hdus.length es).find? (fun p => p.1 == name) with
      | none => rw [hf] at this; cases this
      | some p =>
        rw [hf] at this
        obtain ⟨a, b⟩ := p
        simp only [Option.map_some, Option.some.injEq] at this
        subst this
        simp only
        rw [List.getElem?_append_right (by omega), Nat.add_sub_cancel_left, List.getElem?_map, hi]; rfl
    · intro hno
      have := k2 hno
      simp only [List.find?_nil, Option.map_none, Option.map_eq_none_iff] at this
      rw [this]
  · obtain ⟨k1, k2⟩ := addInfos_names es [] r0.hdus.length (by simp)
    unfold Reader.totalHdus
    rw [hr, ← List.length_map (f := (·.1))]
    apply List.Perm.length_eq
    rw [List.perm_ext_iff_of_nodup k1 (List.nodup_dedup _)]
    intro a
    rw [k2, List.mem_dedup]
    simp

/-! ## C78 -/

theorem readHeaders_back {F : FloatText} {content : Str} (hb : content.length + 5760 < 2 ^ 63) {e : Entry} (hc : Listed F content e) (hback : e.next = e.loc)
    (fuel : Nat) : ∀ (n : Nat) (r : Reader), r.file = rd content e.loc → readHeaders F fuel n r = none := by
  intro n
  induction n with
  | zero => intro r _; rfl
  | succ n ih =>
    intro r hr
    unfold readHeaders
    rw [hr, atEnd_rd_inside hc.start]
    simp only
    cases ht : headersTurn F fuel r (rd content e.loc) with
    | none => rfl
    | some x =>
      obtain ⟨N, hN⟩ := headersTurn_listed hc hb
      -- more time does not change the turn
      have hm : headersTurn F (fuel + N) r (rd content e.loc) = some x := by
        unfold headersTurn extractHeader at ht ⊢
        simp only at ht ⊢
        cases hr : readHeader F fuel Header.empty (rd content e.loc).tellg.1 with
        | none => rw [hr] at ht; cases ht
        | some y => rw [hr] at ht; rw [readHeader_mono hr N]; exact ht
      rw [hN (fuel + N) (by omega) r] at hm
      cases hm
      simp only
      exact ih _ (by rw [hback])

/-- **C78** The headers-only mode adds the announced length to the position in 64 bits.  When the sum wraps so that the block boundary behind it is where the
same header begins, the mode reads this header forever. -/
theorem C78_wraps (F : FloatText) (content : Str) (hb : content.length + 5760 < 2 ^ 63) (es : List Entry) (e : Entry)
    (hc : Chain (Listed F content) 0 es e.loc) (he : HeaderAt F content e.loc e.header) (hstart : e.loc < content.length)
    (hcards : e.loc + 80 * e.header.cards.length ≤ content.length) (hd : NextBoundary (e.loc + 80 * e.header.cards.length) e.dataLoc)
    (hz : e.header.dataSize ≠ 0) (hbytes : DataBytes e.header e.bytes) (hbu : Built F e [])
    (hwrap : NextBoundary ((e.dataLoc + e.bytes) % 2 ^ 64) e.loc) (fuel n : Nat) : readHeaders F fuel n (openFile content) = none := by
  have hl : Listed F content { e with next := e.loc } :=
    ⟨he, hstart, hcards, hd, fun h => absurd h hz, fun _ => ⟨hbytes, hwrap, by simp only; omega⟩, hbu⟩
  have hmono : ∀ (n fuel : Nat) (r : Reader) (x : Res Reader), readHeaders F fuel n r = some x → ∀ g k, readHeaders F (fuel + g) (n + k) r = some x := by
    intro n
    induction n with
    | zero => intro fuel r x e; cases e
    | succ n ih =>
      intro fuel r x ex g k
      rw [Nat.succ_add]
      unfold readHeaders at ex ⊢
      generalize r.file.atEnd = y at ex ⊢
      obtain ⟨s, b⟩ := y
      cases b with
      | true => exact ex
      | false =>
        simp only at ex ⊢
        cases ht : headersTurn F fuel r s with
        | none => rw [ht] at ex; cases ex
        | some z =>
          have hm : headersTurn F (fuel + g) r s = some z := by
            unfold headersTurn extractHeader at ht ⊢
            simp only at ht ⊢
            cases hr : readHeader F fuel Header.empty s.tellg.1 with
            | none => rw [hr] at ht; cases ht
            | some y => rw [hr] at ht; rw [readHeader_mono hr g]; exact ht
          rw [ht] at ex
          rw [hm]
          cases z with
          | error er => exact ex
          | ok r1 => exact ih _ _ _ ex g k
  cases hx : readHeaders F fuel n (openFile content) with
  | none => rfl
  | some x =>
    obtain ⟨N, h⟩ := readHeaders_chain hb es 0 e.loc hc
    have h1 := hmono n fuel _ _ hx N es.length
    rw [h (fuel + N) (by omega) n (openFile content) rfl, readHeaders_back hb hl rfl _ n _ rfl] at h1
    cases h1

/-! ## C79 -/

/-- **C79** A reader opened in the headers-only mode holds no pixels and cells: writing it gives, for every HDU of known kind, the cards and a block of blanks
in the place of the data, whatever the original file contained. -/
theorem C79_headers_write (F : FloatText) (content : Str) (hb : content.length + 5760 < 2 ^ 63) (fuel n : Nat) (r : Reader)
    (e : readHeaders F fuel n (openFile content) = some (.ok r)) :
    ∃ s, writeAll r.hdus = .ok s ∧ (s.content.length + 2880 < 2 ^ 63 → ∃ texts : List Str, s.content = texts.flatten ∧
      List.Forall₂ (fun x t => (x = .blank ∧ t = []) ∨ (x ≠ .blank ∧ ∃ t1, Filled (cardsOf x).flatten t1 ∧ t = t1 ++ List.replicate 2880 32)) r.hdus texts) := by
  obtain ⟨es, q, h1, h2, h3⟩ := readHeaders_ok hb n 0 _ _ rfl e
  have hh : r.hdus = es.map (·.hdu) := by rw [h3]; simp [openFile]
  have hmem : ∀ x ∈ r.hdus, x = .blank ∨ x.payload = some (cardsOf x, .ok []) := by
    intro x hx
    rw [hh] at hx
    obtain ⟨en, hen, rfl⟩ := List.mem_map.1 hx
    have hl : Listed F content en := by
      have : ∀ (es : List Entry) (p q : Nat), Chain (Listed F content) p es q → ∀ e ∈ es, Listed F content e := by
        intro es
        induction es with
        | nil => intro p q _ e he; simp at he
        | cons a es ih =>
          intro p q hc e he
          rcases List.mem_cons.1 he with rfl | he
          · exact hc.2.1
          · exact ih _ _ hc.2.2 e he
      exact this es 0 q h1 en hen
    by_cases hbl : en.hdu = .blank
    · exact .inl hbl
    · obtain ⟨h4, b1, b2⟩ := hl.built
      exact .inr (construct_nil_payload b2 hbl)
  have key : ∀ (xs : List Hdu), (∀ x ∈ xs, x = .blank ∨ x.payload = some (cardsOf x, .ok [])) → ∀ {s : Stream}, AtEnd s → 2880 ∣ s.content.length →
      ∃ s', xs.foldlM Hdu.writeTo s = .ok s' ∧ AtEnd s' ∧ s.content.length ≤ s'.content.length ∧
        (s'.content.length + 2880 < 2 ^ 63 → ∃ texts : List Str, s'.content = s.content ++ texts.flatten ∧
        List.Forall₂ (fun x t => (x = .blank ∧ t = []) ∨ (x ≠ .blank ∧ ∃ t1, Filled (cardsOf x).flatten t1 ∧ t = t1 ++ List.replicate 2880 32)) xs texts) := by
    intro xs
    induction xs with
    | nil => intro _ s hs _; exact ⟨s, rfl, hs, Nat.le_refl _, fun _ => ⟨[], by simp, .nil⟩⟩
    | cons x xs ih =>
      intro hx s hs hdiv
      by_cases hbl : x = .blank
      · subst hbl
        obtain ⟨s', g1, g2, g3, g4⟩ := ih (fun y hy => hx y (List.mem_cons_of_mem _ hy)) hs hdiv
        refine ⟨s', ?_, g2, g3, ?_⟩
        · rw [foldlM_cons]; exact g1
        · intro hl
          obtain ⟨texts, f1, f2⟩ := g4 hl
          exact ⟨[] :: texts, by rw [f1]; simp, .cons (.inl ⟨rfl, rfl⟩) f2⟩
      · have hp := (hx x List.mem_cons_self).resolve_left hbl
        obtain ⟨a1, k1, k2, c, hbd⟩ := hduStream_atEnd hs (cardsOf x) []
        have hw : Hdu.writeTo s x = .ok (hduStream s (cardsOf x) []) := by rw [Hdu.writeTo_eq hs, hp]
        have hcl := congrArg List.length c
        simp only [List.length_append, List.length_replicate, List.length_nil] at hcl
        have hdiv' : (hduStream s (cardsOf x) []).content.length + 2880 < 2 ^ 63 → 2880 ∣ (hduStream s (cardsOf x) []).content.length := by
          intro h
          obtain ⟨_, _, _, _, _, b6⟩ := hbd h
          rw [hcl]; simpa using b6
        by_cases hl0 : (hduStream s (cardsOf x) []).content.length + 2880 < 2 ^ 63
        · obtain ⟨s', g1, g2, g3, g4⟩ := ih (fun y hy => hx y (List.mem_cons_of_mem _ hy)) a1 (hdiv' hl0)
          refine ⟨s', ?_, g2, by omega, ?_⟩
          · rw [foldlM_cons, hw]; exact g1
          · intro hl
            obtain ⟨texts, f1, f2⟩ := g4 hl
            obtain ⟨b1, b2, b3, b4, b5, b6⟩ := hbd hl0
            have hk2 : k2 = 2880 := by simp only [List.length_nil] at b6; omega
            subst hk2
            refine ⟨((cardsOf x).flatten ++ List.replicate k1 32 ++ List.replicate 2880 32) :: texts, ?_, .cons (.inr ⟨hbl, _, ⟨k1, rfl, b1, b2, ?_⟩, rfl⟩) f2⟩
            · rw [f1, c]; simp only [List.flatten_cons, List.append_assoc, List.append_nil]
            · rw [List.length_append, List.length_replicate]; omega
        · have : ∀ (ys : List Hdu), (∀ y ∈ ys, y = .blank ∨ y.payload = some (cardsOf y, .ok [])) → ∀ {s : Stream}, AtEnd s →
              ∃ s', ys.foldlM Hdu.writeTo s = .ok s' ∧ AtEnd s' ∧ s.content.length ≤ s'.content.length := by
            intro ys
            induction ys with
            | nil => intro _ s hs; exact ⟨s, rfl, hs, Nat.le_refl _⟩
            | cons y ys ih2 =>
              intro hy s hs
              by_cases hbl : y = .blank
              · subst hbl
                obtain ⟨s', g1, g2, g3⟩ := ih2 (fun z hz => hy z (List.mem_cons_of_mem _ hz)) hs
                exact ⟨s', by rw [foldlM_cons]; exact g1, g2, g3⟩
              · have hp := (hy y List.mem_cons_self).resolve_left hbl
                obtain ⟨a1, k1, k2, c, _⟩ := hduStream_atEnd hs (cardsOf y) []
                have hw : Hdu.writeTo s y = .ok (hduStream s (cardsOf y) []) := by rw [Hdu.writeTo_eq hs, hp]
                have hcl := congrArg List.length c
                simp only [List.length_append, List.length_replicate, List.length_nil] at hcl
                obtain ⟨s', g1, g2, g3⟩ := ih2 (fun z hz => hy z (List.mem_cons_of_mem _ hz)) a1
                exact ⟨s', by rw [foldlM_cons, hw]; exact g1, g2, by omega⟩
          obtain ⟨s', g1, g2, g3⟩ := this xs (fun y hy => hx y (List.mem_cons_of_mem _ hy)) a1
          refine ⟨s', ?_, g2, by omega, fun hl => absurd hl (by omega)⟩
          rw [foldlM_cons, hw]; exact g1
  obtain ⟨s, g1, _, _, g4⟩ := key r.hdus hmem create_atEnd ⟨0, rfl⟩
  refine ⟨s, g1, fun hl => ?_⟩
  obtain ⟨texts, f1, f2⟩ := g4 hl
  exact ⟨texts, by rw [f1]; rfl, f2⟩

/-! ## Examples -/

/-- The primary HDU of the example file with two of its four data bytes: no result after 20 turns, one HDU in the headers-only mode, which is then written
without data. -/
example : let cut := exBlock exPrimary.flatten ++ [0, 1]
    (readEntire exNoFloats 20 20 (openFile cut)).isNone = true ∧
    (match readHeaders exNoFloats 6 2 (openFile cut) with
      | some (.ok r) => decide (r.hdus.length = 1 ∧ r.infos = [(b!"primary_hdu", ⟨0, 2880, 0⟩)]) && (match writeAll r.hdus with
        | .ok s => decide (s.content.length = 5760 ∧ (s.content.drop 2880).take 2 = [32, 32])
        | _ => false)
      | _ => false) = true := by
  decide +kernel

/-- The same file read twice with one reader: two HDUs, one name, index 1. -/
example : let file := exBlock exPrimary.flatten ++ [0, 1, 255, 254]
    (match readEntire exNoFloats 6 2 (openFile file) with
      | some (.ok r) => (match readEntire exNoFloats 6 2 (r.reinitialize file) with
        | some (.ok r') => decide (r'.hdus.length = 2 ∧ r'.infos = [(b!"primary_hdu", ⟨0, 2880, 1⟩)])
        | _ => false)
      | _ => false) = true := by
  decide +kernel

def exWrap : List Str :=
  [exCard b!"XTENSION= 'IMAGE   '", exCard b!"BITPIX  =                    8", exCard b!"NAXIS   =                    1",
   exCard b!"NAXIS1  = 18446744073709545856", exCard b!"END"]

/-- An image that announces 2^64 - 5760 bytes, in the second and last block of the file: 12 turns do not
suffice, and a turn leads from byte 2880 back to byte 2880. -/
example : (match readHeaders exNoFloats 5 12 (openFile (exBlock exEmpty.flatten ++ exBlock exWrap.flatten)),
      headersTurn exNoFloats 5 (openFile []) (rd (exBlock exEmpty.flatten ++ exBlock exWrap.flatten) 2880) with
    | none, some (.ok r) => decide (r.file.pos = 2880 ∧ r.file.fail = false ∧ r.hdus.length = 1)
    | _, _ => false) = true := by
  decide +kernel

end Astro
