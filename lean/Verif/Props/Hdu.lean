import Verif.Lemmas.TableAccept

/-
Properties C85 and C86: what primary HDUs, image extensions and tables take from their cards, and which are refused.
-/

namespace Astro

open Spec Header

/-! ## C85 -/

/-- **C85** An HDU with a SIMPLE card becomes a primary HDU if EXTEND is there and both are T or F; `simple`, `extend`, the pixel type and the pixels are
what cards and data say (nothing asks that SIMPLE be T).  Otherwise the failure is that of the first of the two that cannot be read. -/
theorem C85_primary (F : FloatText) (fuel : Nat) (s s' : Stream) (h h1 : Header) (hg : s.good = true)
    (e : readHeader F fuel Header.empty s = some (.ok (h, s'))) (hp : ∀ k, HeaderKey h k → ¬ Absent (h.cards.map (·.raw)) k)
    (name : Str) (en : h.getHduName F = (h1, .ok name)) (hs : ¬ Absent (h.cards.map (·.raw)) b!"SIMPLE") (buf : Str) :
    (∀ sv ev, Lookup F (h.cards.map (·.raw)) b!"SIMPLE" .bool (.ok (.bool sv)) → Lookup F (h.cards.map (·.raw)) b!"EXTEND" .bool (.ok (.bool ev)) →
      ∃ p, Hdu.construct F h1 buf = .ok (.primary p) ∧ p.simple = sv ∧ p.extend = ev ∧ h.bitpix = some p.data.kind ∧
        Pixels p.data.kind buf p.data.img.data ∧ p.header.cards.map (·.raw) = h.cards.map (·.raw) ∧ p.header.naxis = h.naxis ∧ p.header.bitpix = h.bitpix) ∧
    (∀ er, FirstError F (h.cards.map (·.raw)) [(b!"SIMPLE", .bool), (b!"EXTEND", .bool)] er → Hdu.construct F h1 buf = .error er) := by
  obtain ⟨hp1, n1, n3, n4⟩ := plain_name (plain_of_read hg e hp) en
  have hm : ¬ AxisKey b!"SIMPLE" := by rintro (h | ⟨d, h⟩) <;> simp at h
  have hx : ¬ AxisKey b!"EXTEND" := by rintro (h | ⟨d, h⟩) <;> simp at h
  have hc : h1.containsKeyword b!"SIMPLE" = true := by
    rw [C28_contains]
    refine Classical.byContradiction fun hn => hs ?_
    intro r hr hk
    rw [← n1] at hr
    obtain ⟨c, hc, rfl⟩ := List.mem_map.1 hr
    exact hn ⟨c, hc, hk⟩
  obtain ⟨_, _, _, b, _, _, _, hb, _⟩ := (C29_values F fuel s s' h hg e).1
  obtain ⟨img, i1, i2, _⟩ := readImage_pixels b buf
  have hmake : AnyImage.make b buf = .ok ⟨b, img⟩ := by
    unfold AnyImage.make; rw [i1]; rfl
  have hcon : Hdu.construct F h1 buf = (do
      let (h2, sv) ← h1.getBool F b!"SIMPLE"
      let (h3, ev) ← h2.getBool F b!"EXTEND"
      return .primary ⟨h3, ⟨b, img⟩, sv, ev⟩) := by
    unfold Hdu.construct Primary.make
    rw [if_pos hc, n4, hb]
    simp only [hmake, bind, Except.bind]
    cases h1.getBool F b!"SIMPLE" with
    | error er => rfl
    | ok x =>
      simp only
      cases x.1.getBool F b!"EXTEND" with
      | error er => rfl
      | ok y => rfl
  rw [← n1] at *
  have t1 : ∀ t', ((b!"SIMPLE" = b!"XTENSION" ∧ t' = Ty.string) ∨ (b!"SIMPLE" = b!"SIMPLE" ∧ t' = .bool)) → t' = .bool := by
    rintro t' (⟨h, _⟩ | ⟨_, h⟩)
    · simp at h
    · exact h
  constructor
  · intro sv ev ls le
    obtain ⟨h2, g1, g2, g3⟩ := plain_get hp1 hm t1 ls
    rw [← g2.raws] at le
    obtain ⟨h3, k1, k2, k3⟩ := plain_get (t := .bool) g3 hx (by
      rintro t' ((⟨h, _⟩ | ⟨h, _⟩) | ⟨h, _⟩) <;> simp at h) le
    have b1 : h1.getBool F b!"SIMPLE" = .ok (h2, sv) := by unfold Header.getBool; rw [g1]
    have b2 : h2.getBool F b!"EXTEND" = .ok (h3, ev) := by unfold Header.getBool; rw [k1]
    refine ⟨⟨h3, ⟨b, img⟩, sv, ev⟩, ?_, rfl, rfl, hb, i2, (g2.trans k2).raws, by rw [(g2.trans k2).naxis, n3], by rw [(g2.trans k2).bitpix, n4]⟩
    rw [hcon, b1]
    simp only [bind, Except.bind]
    rw [b2]; rfl
  · intro er hf
    rw [hcon]
    cases hf with
    | here hl =>
      have b1 : h1.getBool F b!"SIMPLE" = .error er := by unfold Header.getBool; rw [plain_get_error hp1 hm t1 hl]
      rw [b1]; rfl
    | @later _ _ _ _ v ls hf =>
      obtain ⟨h2, g1, g2, g3⟩ := plain_get hp1 hm t1 ls
      have hty := lookup_ty ls
      cases v <;> first | cases hty | skip
      rename_i sv
      have b1 : h1.getBool F b!"SIMPLE" = .ok (h2, sv) := by unfold Header.getBool; rw [g1]
      rw [b1]
      simp only [bind, Except.bind]
      cases hf with
      | here hl =>
        rw [← g2.raws] at hl
        have b2 : h2.getBool F b!"EXTEND" = .error er := by
          unfold Header.getBool; rw [plain_get_error (t := .bool) g3 hx (by rintro t' ((⟨h, _⟩ | ⟨h, _⟩) | ⟨h, _⟩) <;> simp at h) hl]
        rw [b2]
      | later _ hf => cases hf

/-- **C85** Asking an HDU for its image gives the image if its pixel type is asked for; any other type is undefined behaviour (a null pointer is
dereferenced), never an exception. -/
theorem C85_get_data (a : AnyImage) (b : Bitpix) : (∀ img : Image b, a.getData b = .ok img ↔ a = ⟨b, img⟩) ∧ (a.kind ≠ b ↔ a.getData b = .error .ub) := by
  obtain ⟨k, i⟩ := a
  unfold AnyImage.getData
  constructor
  · intro img
    constructor
    · intro h
      split at h
      · rename_i hk
        simp only at hk
        subst hk
        cases h; rfl
      · cases h
    · intro h
      cases h
      rw [dif_pos rfl]
  · constructor
    · intro h; rw [dif_neg h]
    · intro h hk
      rw [dif_pos hk] at h; cases h

/-- **C85** The same for image extensions (which the reader never builds): GCOUNT, PCOUNT and EXTNAME are needed, in this order. -/
theorem C85_image_extension (F : FloatText) (fuel : Nat) (s s' : Stream) (h : Header) (hg : s.good = true)
    (e : readHeader F fuel Header.empty s = some (.ok (h, s'))) (hp : ∀ k, HeaderKey h k → ¬ Absent (h.cards.map (·.raw)) k) (buf : Str) :
    (∀ g p x, Lookup F (h.cards.map (·.raw)) b!"GCOUNT" .int (.ok (.int g)) → Lookup F (h.cards.map (·.raw)) b!"PCOUNT" .int (.ok (.int p)) →
      Lookup F (h.cards.map (·.raw)) b!"EXTNAME" .string (.ok (.string x)) →
      ∃ i, ImageExt.make F h buf = .ok i ∧ i.gcount = g ∧ i.pcount = p ∧ i.extname = x ∧ h.bitpix = some i.data.kind ∧
        Pixels i.data.kind buf i.data.img.data ∧ i.header.cards.map (·.raw) = h.cards.map (·.raw) ∧ i.header.naxis = h.naxis ∧ i.header.bitpix = h.bitpix) ∧
    (∀ er, FirstError F (h.cards.map (·.raw)) [(b!"GCOUNT", .int), (b!"PCOUNT", .int), (b!"EXTNAME", .string)] er → ImageExt.make F h buf = .error er) := by
  have hp0 := plain_of_read hg e hp
  have k1 : ¬ AxisKey b!"GCOUNT" := by rintro (h | ⟨d, h⟩) <;> simp at h
  have k2 : ¬ AxisKey b!"PCOUNT" := by rintro (h | ⟨d, h⟩) <;> simp at h
  have k3 : ¬ AxisKey b!"EXTNAME" := by rintro (h | ⟨d, h⟩) <;> simp at h
  obtain ⟨_, _, _, b, _, _, _, hb, _⟩ := (C29_values F fuel s s' h hg e).1
  obtain ⟨img, i1, i2, _⟩ := readImage_pixels b buf
  have hmake : AnyImage.make b buf = .ok ⟨b, img⟩ := by
    unfold AnyImage.make; rw [i1]; rfl
  have u1 : ∀ t', False → t' = Ty.int := fun _ h => h.elim
  have u2 : ∀ t', (False ∨ (b!"PCOUNT" = b!"GCOUNT" ∧ t' = Ty.int)) → t' = Ty.int := by
    rintro t' (h | ⟨_, h⟩)
    · exact h.elim
    · exact h
  have u3 : ∀ t', ((False ∨ (b!"EXTNAME" = b!"GCOUNT" ∧ t' = Ty.int)) ∨ (b!"EXTNAME" = b!"PCOUNT" ∧ t' = Ty.int)) → t' = Ty.string := by
    rintro t' ((h | ⟨h, _⟩) | ⟨h, _⟩)
    · exact h.elim
    · simp at h
    · simp at h
  unfold ImageExt.make
  rw [hb]
  simp only [hmake]
  constructor
  · intro g p x l1 l2 l3
    obtain ⟨ha, a1, a2, a3⟩ := plain_get hp0 k1 u1 l1
    rw [← a2.raws] at l2
    obtain ⟨hb', b1, b2, b3⟩ := plain_get a3 k2 u2 l2
    have ab := a2.trans b2
    rw [← ab.raws] at l3
    obtain ⟨hc, c1, c2, c3⟩ := plain_get b3 k3 u3 l3
    have abc := ab.trans c2
    have d1 : h.getInt F b!"GCOUNT" = .ok (ha, g) := by unfold Header.getInt; rw [a1]
    have d2 : ha.getInt F b!"PCOUNT" = .ok (hb', p) := by unfold Header.getInt; rw [b1]
    have d3 : hb'.getStr F b!"EXTNAME" = .ok (hc, x) := by unfold Header.getStr; rw [c1]
    refine ⟨⟨hc, g, p, x, ⟨b, img⟩⟩, ?_, rfl, rfl, rfl, rfl, i2, abc.raws, abc.naxis, by rw [abc.bitpix, hb]⟩
    rw [d1]
    simp only [bind, Except.bind]
    rw [d2]
    simp only
    rw [d3]; rfl
  · intro er hf
    cases hf with
    | here hl =>
      have d1 : h.getInt F b!"GCOUNT" = .error er := by unfold Header.getInt; rw [plain_get_error hp0 k1 u1 hl]
      rw [d1]; rfl
    | @later _ _ _ _ v l1 hf =>
      obtain ⟨ha, a1, a2, a3⟩ := plain_get hp0 k1 u1 l1
      have hty := lookup_ty l1
      cases v <;> first | cases hty | skip
      rename_i g
      have d1 : h.getInt F b!"GCOUNT" = .ok (ha, g) := by unfold Header.getInt; rw [a1]
      rw [d1]
      simp only [bind, Except.bind]
      cases hf with
      | here hl =>
        rw [← a2.raws] at hl
        have d2 : ha.getInt F b!"PCOUNT" = .error er := by unfold Header.getInt; rw [plain_get_error a3 k2 u2 hl]
        rw [d2]
      | @later _ _ _ _ v l2 hf =>
        rw [← a2.raws] at l2
        obtain ⟨hb', b1, b2, b3⟩ := plain_get a3 k2 u2 l2
        have hty := lookup_ty l2
        cases v <;> first | cases hty | skip
        rename_i p
        have d2 : ha.getInt F b!"PCOUNT" = .ok (hb', p) := by unfold Header.getInt; rw [b1]
        rw [d2]
        simp only
        cases hf with
        | here hl =>
          rw [← (a2.trans b2).raws] at hl
          have d3 : hb'.getStr F b!"EXTNAME" = .error er := by unfold Header.getStr; rw [plain_get_error b3 k3 u3 hl]
          rw [d3]
        | later _ hf => cases hf

/-- **C85** Writing an image extension at the end of a file of whole blocks appends its cards and its big-endian pixels, each filled up to whole blocks. -/
theorem C85_image_extension_written (i : ImageExt) (s : Stream) (hs : AtEnd s) (hd : 2880 ∣ s.content.length)
    (hb : (i.writeTo s).content.length + 2880 < 2 ^ 63) :
    ∃ (px : List Str) (u1 u2 : Str), (i.writeTo s).content = s.content ++ u1 ++ u2 ∧ Filled (i.header.cards.map (·.raw)).flatten u1 ∧
      Filled px.flatten u2 ∧ px.length = i.data.img.data.length ∧
      ∀ (j : Nat) (v : BitVec (8 * i.data.kind.size)) (t : Str), i.data.img.data[j]? = some v → px[j]? = some t → IsBE i.data.kind.size v t := by
  have he : i.writeTo s = hduStream s (i.header.cards.map (·.raw)) i.data.bytes := by
    unfold ImageExt.writeTo hduStream; rw [writeHeader_eq]
  obtain ⟨_, k1, k2, hc, hk⟩ := hduStream_atEnd hs (i.header.cards.map (·.raw)) i.data.bytes
  rw [he] at hb ⊢
  obtain ⟨a1, a2, a3, b1, b2, b3⟩ := hk hb
  obtain ⟨_, px, p1, p2, p3⟩ := payload_holds (x := .primary ⟨i.header, i.data, true, true⟩) rfl
  refine ⟨px, (i.header.cards.map (·.raw)).flatten ++ List.replicate k1 32, i.data.bytes ++ List.replicate k2 32, by rw [hc]; simp only [List.append_assoc],
    ⟨k1, rfl, a1, a2, ?_⟩, ⟨k2, by rw [p1], b1, b2, ?_⟩, p2, p3⟩
  · simp only [List.length_append, List.length_replicate]
    omega
  · simp only [List.length_append, List.length_replicate]
    omega

/-- A 16-bit image (its pixels read big-endian), SIMPLE = F; and the same without EXTEND. -/
example : (match readHeader exNoFloats 6 Header.empty (Stream.openRead ([exCard b!"SIMPLE  =                    F", exCard b!"BITPIX  =                   16",
      exCard b!"NAXIS   =                    1", exCard b!"NAXIS1  =                    2", exCard b!"EXTEND  =                    T", exCard b!"END"].flatten)),
    readHeader exNoFloats 5 Header.empty (Stream.openRead ([exCard b!"SIMPLE  =                    F", exCard b!"BITPIX  =                   16",
      exCard b!"NAXIS   =                    1", exCard b!"NAXIS1  =                    2", exCard b!"END"].flatten)) with
    | some (.ok (h, _)), some (.ok (g, _)) => (match h.getHduName exNoFloats, g.getHduName exNoFloats with
      | (h1, .ok _), (g1, .ok _) => (match Hdu.construct exNoFloats h1 [1, 2, 255, 254], Hdu.construct exNoFloats g1 [1, 2, 255, 254] with
        | .ok (.primary p), .error e => decide (p.simple = false ∧ p.extend = true ∧ p.data.img.data.map BitVec.toNat = [258, 65534] ∧ e = .outOfRange)
        | _, _ => false)
      | _, _ => false)
    | _, _ => false) = true := by decide +kernel

/-- An image extension with two 8-bit pixels: they come out as zeros. -/
example : (match readHeader exNoFloats 8 Header.empty (Stream.openRead ([exCard b!"XTENSION= 'IMAGE   '", exCard b!"BITPIX  =                    8",
      exCard b!"NAXIS   =                    1", exCard b!"NAXIS1  =                    2", exCard b!"PCOUNT  =                    0",
      exCard b!"GCOUNT  =                    1", exCard b!"EXTNAME = 'E'", exCard b!"END"].flatten)) with
    | some (.ok (h, _)) => (match ImageExt.make exNoFloats h [7, 9] with
      | .ok i => decide (i.gcount = 1 ∧ i.pcount = 0 ∧ i.extname = b!"E" ∧ i.data.img.data.map BitVec.toNat = [0, 0])
      | _ => false)
    | _ => false) = true := by decide +kernel

/-! ## C86 -/

section

variable (F : FloatText) (fuel : Nat) (s s' : Stream) (h h1 : Header) (hg : s.good = true)
  (e : readHeader F fuel Header.empty s = some (.ok (h, s'))) (hp : ∀ k, HeaderKey h k → ¬ Absent (h.cards.map (·.raw)) k)
  (name : Str) (en : h.getHduName F = (h1, .ok name)) (hs : Absent (h.cards.map (·.raw)) b!"SIMPLE")
  (hn : TextNames F (h.cards.map (·.raw))) (buf : Str)

include hg e hp en hs hn in
/-- **C86** Exactly which ASCII tables are accepted: the mandatory cards can be read, the optional ones are absent or can be read, and (unless there are
no data) every cell lies inside the data. -/
theorem C86_ascii (hx : Lookup F (h.cards.map (·.raw)) b!"XTENSION" .string (.ok (.string b!"TABLE"))) :
    (∃ t, Hdu.construct F h1 buf = .ok (.ascii t)) ↔
      ∃ n, AsciiCards F (h.cards.map (·.raw)) n ∧ (buf = [] ∨ AsciiFits F (h.cards.map (·.raw)) n h.naxis buf) := by
  obtain ⟨h2, p2, r2, x2, hc⟩ := construct_table F fuel s s' h h1 hg e hp name en hs buf hx
  rw [← r2] at hn ⊢
  rw [hc, if_pos rfl, ← x2, ← (ascii_make_accept p2 hn buf).1]
  cases Ascii.make F h2 buf with
  | error er => exact ⟨fun ⟨_, h⟩ => (by cases h), fun ⟨_, h⟩ => (by cases h)⟩
  | ok t => exact ⟨fun _ => ⟨_, rfl⟩, fun _ => ⟨_, rfl⟩⟩

include hg e hp en hs hn in
/-- **C86** Exactly which binary tables are accepted. -/
theorem C86_binary (hx : Lookup F (h.cards.map (·.raw)) b!"XTENSION" .string (.ok (.string b!"BINTABLE"))) :
    (∃ t, Hdu.construct F h1 buf = .ok (.binary t)) ↔
      ∃ n, BinaryCards F (h.cards.map (·.raw)) n ∧ (buf = [] ∨ BinaryFits F (h.cards.map (·.raw)) n h.naxis buf) := by
  obtain ⟨h2, p2, r2, x2, hc⟩ := construct_table F fuel s s' h h1 hg e hp name en hs buf hx
  rw [← r2] at hn ⊢
  rw [hc, if_neg (by decide), if_pos rfl, ← x2, ← (binary_make_accept p2 hn buf).1]
  cases BinTable.make F h2 buf with
  | error er => exact ⟨fun ⟨_, h⟩ => (by cases h), fun ⟨_, h⟩ => (by cases h)⟩
  | ok t => exact ⟨fun _ => ⟨_, rfl⟩, fun _ => ⟨_, rfl⟩⟩

include hg e hp en hs in
/-- **C86** Of the four cards every table needs, the first that is missing or unreadable decides the exception. -/
theorem C86_first_error (hx : Lookup F (h.cards.map (·.raw)) b!"XTENSION" .string (.ok (.string b!"TABLE")) ∨
      Lookup F (h.cards.map (·.raw)) b!"XTENSION" .string (.ok (.string b!"BINTABLE"))) (er : Err)
    (hf : FirstError F (h.cards.map (·.raw)) [(b!"GCOUNT", .int), (b!"PCOUNT", .int), (b!"EXTNAME", .string), (b!"TFIELDS", .sizeT)] er) :
    Hdu.construct F h1 buf = .error er := by
  have key : ∀ h2, PlainT F h2 → h2.cards.map (·.raw) = h.cards.map (·.raw) → Table.base F h2 = .error er := by
    intro h2 p2 r2
    rw [← r2] at hf
    rcases out_base p2 with ⟨t, v, a1, a2, a3, a4, a5, _⟩ | ⟨er', a1, a2⟩
    · refine absurd ?_ (firstError_not hf)
      simp only [List.mem_cons, List.not_mem_nil, or_false]
      rintro p (rfl | rfl | rfl | rfl)
      exacts [a2, a3, a4, ⟨_, a5⟩]
    · rw [a1, firstError_fun a2 hf]
  rcases hx with hx | hx
  · obtain ⟨h2, p2, r2, x2, hc⟩ := construct_table F fuel s s' h h1 hg e hp name en hs buf hx
    rw [hc, if_pos rfl]
    unfold Ascii.make
    rw [key h2 p2 r2]; rfl
  · obtain ⟨h2, p2, r2, x2, hc⟩ := construct_table F fuel s s' h h1 hg e hp name en hs buf hx
    rw [hc, if_neg (by decide), if_pos rfl]
    unfold BinTable.make
    rw [key h2 p2 r2]; rfl

include hg e hp en hs hn in
/-- **C86** Data that do not hold what acceptable cards announce are not refused: parsing reads outside the buffer, which is undefined. -/
theorem C86_ascii_undefined (hx : Lookup F (h.cards.map (·.raw)) b!"XTENSION" .string (.ok (.string b!"TABLE"))) (n : Nat)
    (hc : AsciiCards F (h.cards.map (·.raw)) n) (hb : buf ≠ []) (hfit : ¬ AsciiFits F (h.cards.map (·.raw)) n h.naxis buf)
    (hw : ∀ i d f, 1 ≤ i → i ≤ n → IsNat d i → Lookup F (h.cards.map (·.raw)) (b!"TFORM" ++ d) .string (.ok (.string f)) → ∃ w, AsciiWidth f w) :
    Hdu.construct F h1 buf = .error .ub := by
  have hno := (C86_ascii F fuel s s' h h1 hg e hp name en hs hn buf hx).not.2 (by
    rintro ⟨m, hm, hm' | hm'⟩
    · exact hb hm'
    · obtain ⟨v, hv, rfl⟩ := hm.table.tfields
      obtain ⟨v', hv', rfl⟩ := hc.table.tfields
      cases lookup_fun hv hv'
      exact hfit hm')
  obtain ⟨h2, p2, r2, x2, hcon⟩ := construct_table F fuel s s' h h1 hg e hp name en hs buf hx
  rw [← r2] at hn hc hw
  rw [hcon, if_pos rfl] at hno ⊢
  rcases (ascii_make_accept p2 hn buf).2 n hc hw with ⟨t, ht⟩ | ht
  · rw [ht] at hno; exact absurd ⟨t, rfl⟩ hno
  · rw [ht]; rfl

include hg e hp en hs hn in
/-- **C86** The same for binary tables. -/
theorem C86_binary_undefined (hx : Lookup F (h.cards.map (·.raw)) b!"XTENSION" .string (.ok (.string b!"BINTABLE"))) (n : Nat)
    (hc : BinaryCards F (h.cards.map (·.raw)) n) (hb : buf ≠ []) (hfit : ¬ BinaryFits F (h.cards.map (·.raw)) n h.naxis buf) :
    Hdu.construct F h1 buf = .error .ub := by
  have hno := (C86_binary F fuel s s' h h1 hg e hp name en hs hn buf hx).not.2 (by
    rintro ⟨m, hm, hm' | hm'⟩
    · exact hb hm'
    · obtain ⟨v, hv, rfl⟩ := hm.table.tfields
      obtain ⟨v', hv', rfl⟩ := hc.table.tfields
      cases lookup_fun hv hv'
      exact hfit hm')
  obtain ⟨h2, p2, r2, x2, hcon⟩ := construct_table F fuel s s' h h1 hg e hp name en hs buf hx
  rw [← r2] at hn hc
  rw [hcon, if_neg (by decide), if_pos rfl] at hno ⊢
  rcases (binary_make_accept p2 hn buf).2 n hc with ⟨t, ht⟩ | ht
  · rw [ht] at hno; exact absurd ⟨t, rfl⟩ hno
  · rw [ht]; rfl

end

def exBinCards : List Str :=
  [exCard b!"XTENSION= 'BINTABLE'", exCard b!"BITPIX  =                    8", exCard b!"NAXIS   =                    2",
   exCard b!"NAXIS1  =                    3", exCard b!"NAXIS2  =                    2", exCard b!"PCOUNT  =                    0",
   exCard b!"GCOUNT  =                    1", exCard b!"TFIELDS =                    2", exCard b!"EXTNAME = 'E'",
   exCard b!"TFORM1  = '1I'", exCard b!"TFORM2  = 'A'", exCard b!"END"]

/-- What becomes of a header with these cards and these data. -/
def exBuild (cards : List Str) (buf : Str) : Option (Res Hdu) :=
  match readHeader exNoFloats cards.length Header.empty (Stream.openRead cards.flatten) with
  | some (.ok (h, _)) => match h.getHduName exNoFloats with
    | (h1, .ok _) => some (Hdu.construct exNoFloats h1 buf)
    | _ => none
  | _ => none

/-- Two rows of three bytes are accepted, five bytes are undefined behaviour, a table without EXTNAME or with a column of unknown type is refused. -/
example : (match exBuild exBinCards [1, 2, 65, 3, 4, 66], exBuild exBinCards [1, 2, 65, 3, 4],
      exBuild (exBinCards.take 8 ++ exBinCards.drop 9) [1, 2, 65, 3, 4, 66],
      exBuild (exBinCards.take 10 ++ [exCard b!"TFORM2  = 'Z'", exCard b!"END"]) [1, 2, 65, 3, 4, 66] with
    | some (.ok (.binary t)), some (.error e1), some (.error e2), some (.error e3) =>
      decide (t.data = [[[1, 2], [65]], [[3, 4], [66]]] ∧ e1 = .ub ∧ e2 = .outOfRange ∧ e3 = .invalidTableFormat)
    | _, _, _, _ => false) = true := by decide +kernel

def exAsciiCards : List Str :=
  [exCard b!"XTENSION= 'TABLE'", exCard b!"BITPIX  =                    8", exCard b!"NAXIS   =                    2",
   exCard b!"NAXIS1  =                    3", exCard b!"NAXIS2  =                    2", exCard b!"PCOUNT  =                    0",
   exCard b!"GCOUNT  =                    1", exCard b!"TFIELDS =                    1", exCard b!"EXTNAME = 'E'",
   exCard b!"TFORM1  = 'I2'", exCard b!"TBCOL1  =                    2", exCard b!"END"]

/-- One column in the second and third byte of two rows; TBCOL is mandatory; data that end inside a cell are undefined behaviour. -/
example : (match exBuild exAsciiCards b!"x12y 3", exBuild exAsciiCards b!"x12y ", exBuild (exAsciiCards.take 10 ++ exAsciiCards.drop 11) b!"x12y 3" with
    | some (.ok (.ascii t)), some (.error e1), some (.error e2) => decide (t.data = [[b!"12"], [b!"3"]] ∧ e1 = .ub ∧ e2 = .outOfRange)
    | _, _, _ => false) = true := by decide +kernel

end Astro
