import Verif.Spec.ForeignFiles
import Verif.Props.ForeignTable

/-
Property C151: whole files of other programs.
-/

namespace Astro

open Spec Header Reader

/-- The object `x` is what the standard sees in the HDU `u` (8-bit pixels apart, see C21); of extensions of other kinds nothing is left. -/
inductive Shows (F : FloatText) (u : ForeignHdu) : Hdu → Prop
  | image {p : Primary} (b : Bitpix) (axes : List Nat) (ext : Bool) : ImageCards u.cards b axes → Says u.cards b!"EXTEND" (if ext then b!"T" else b!"F") →
      p.header.cards.map (·.raw) = u.cards → p.simple = true → p.extend = ext → p.header.naxis = axes → p.data.kind = b →
      u.data.length = pixelCount axes * b.size → Pixels p.data.kind u.data p.data.img.data → Shows F u (.primary p)
  | binary {t : Table} (rowLen rows : Nat) (cols : List (Nat × Byte)) : BinaryTableCards F u.cards rowLen rows 0 cols → u.data.length = rowLen * rows →
      ShowsBinary t u.cards rowLen rows cols u.data → Shows F u (.binary t)
  | ascii {t : Table} (rowLen rows : Nat) (cols : List (Nat × Nat)) : AsciiTableCards F u.cards rowLen rows 0 cols → u.data.length = rowLen * rows →
      ShowsAscii t u.cards rowLen rows cols u.data → Shows F u (.ascii t)
  | other (kind : Str) : SaysString u.cards b!"XTENSION" kind → kind ≠ b!"TABLE" ∧ kind ≠ b!"BINTABLE" → Shows F u .blank

theorem supported_size {F : FloatText} {u : ForeignHdu} (h : Supported F u) : u.cards.flatten.length = 80 * u.cards.length := by
  obtain ⟨_, _, _, h, _⟩ | ⟨_, _, _, _, h, _⟩ | ⟨_, _, _, _, h, _⟩ | ⟨_, _, _, h, _⟩ := h <;>
    exact flatten_length80 _ fun r hr => (h.size r hr).1

theorem readHeader_same {F : FloatText} {f g : Nat} {h h' : Header} {s t t' : Stream} (e : readHeader F f Header.empty s = some (.ok (h, t)))
    (e' : readHeader F g Header.empty s = some (.ok (h', t'))) : h = h' := by
  have e := readHeader_mono e g
  have e' := readHeader_mono e' f
  rw [Nat.add_comm, e] at e'
  exact congrArg Prod.fst (Except.ok.inj (Option.some.inj e'))

theorem supported_name {F : FloatText} {content pre rest : Str} {u : ForeignHdu} (hs : Supported F u) (hc : content = pre ++ u.cards.flatten ++ rest) {e : Entry}
    (he : Complete F content e) (hl : e.loc = pre.length) : FiledAs u e.name := by
  have shape : ∃ b axes, ShapeCards u.cards b axes := by
    obtain ⟨_, _, _, h, _⟩ | ⟨_, _, _, _, h, _⟩ | ⟨_, _, _, _, h, _⟩ | ⟨_, _, _, h, _⟩ := hs <;> exact ⟨_, _, by first | exact h.toShapeCards | exact h⟩
  obtain ⟨b, axes, hsh⟩ := shape
  obtain ⟨h, s, e1, e2, _, _, e3⟩ := shapeCards_read (F := F) hsh pre rest
  rw [← hc] at e1
  obtain ⟨fuel, s', e4⟩ := he.header
  rw [hl] at e4
  obtain ⟨h1, e5, _⟩ := he.built
  have hh : e.header = h := readHeader_same e4 e1
  rw [hh] at e5
  have hn := C34_name F _ _ _ h rfl e1 e3
  rw [e5, e2] at hn
  simp only [Except.ok.injEq] at hn
  have ext : ∀ kind, SaysString u.cards b!"XTENSION" kind → FiledAs u e.name := fun kind hk => by
    rw [hn.1 kind (says_string hk)]; exact .extension kind hk
  obtain ⟨_, _, _, h, _⟩ | ⟨_, _, _, _, h, _⟩ | ⟨_, _, _, _, h, _⟩ | ⟨_, _, _, _, _, h, _⟩ := hs
  · rw [hn.2.2.1 h.noXtension true (lookup_ok.1 (imageCards_simple h))]; exact .primary h.noXtension
  · exact ext _ h.xtension
  · exact ext _ h.xtension
  · exact ext _ h

theorem shown {F : FloatText} {us : List ForeignHdu} {es : List Entry} (h : List.Forall₂ (fun u (e : Entry) => Shows F u e.hdu ∧ FiledAs u e.name) us es) :
    List.Forall₂ (Shows F) us (es.map (·.hdu)) :=
  List.forall₂_map_right_iff.2 (h.imp fun _ _ h => h.1)

/-- One supported HDU at its place. -/
theorem supported_entry {F : FloatText} {content pre fill rest : Str} {u : ForeignHdu} (hs : Supported F u) (h36 : ¬ 36 ∣ u.cards.length)
    (hc : content = pre ++ u.cards.flatten ++ fill ++ u.data ++ rest) (hpre : 2880 ∣ pre.length)
    (hfill : 80 * u.cards.length + fill.length = roundUp (80 * u.cards.length)) (hb : content.length + 5760 < 2 ^ 63) :
    ∃ e, Complete F content e ∧ e.loc = pre.length ∧ (Shows F u e.hdu ∧ FiledAs u e.name) ∧
      e.next = pre.length + roundUp (80 * u.cards.length) + roundUp u.data.length + (if u.data ≠ [] ∧ 2880 ∣ u.data.length then 2880 else 0) := by
  have hname : ∀ e, Complete F content e → e.loc = pre.length → FiledAs u e.name := fun e =>
    supported_name (rest := fill ++ u.data ++ rest) hs (by rw [hc]; simp only [List.append_assoc])
  have hne : u.data = [] ↔ u.data.length = 0 := List.length_eq_zero_iff.symm
  cases hs with
  | image b axes ext h1 h2 h3 =>
    obtain ⟨e, p, k1, k2, k3, k4, k5, k6, k7, k8, k9, k10⟩ := C149_image F content pre fill u.data rest u.cards b axes ext hc hpre h1 h2 h36 hfill h3 hb
    exact ⟨e, k1, k3, ⟨k2 ▸ .image b axes ext h1 h2 k4 k6 k7 k8 k9 h3 k10, hname e k1 k3⟩, k5⟩
  | binary rowLen rows cols x h1 h2 h3 h4 h5 h6 =>
    obtain ⟨e, t, k1, k2, k3, k4, k5⟩ := C150_binary F content pre fill u.data rest x u.cards rowLen rows 0 cols hc hpre h1 h2 h3 h4 h36 hfill h5 h6 hb
    refine ⟨e, k1, k3, ⟨k2 ▸ .binary rowLen rows cols h1 h5 k5, hname e k1 k3⟩, ?_⟩
    have : u.data ≠ [] ↔ rows ≠ 0 := by rw [ne_eq, hne, h5, Nat.mul_eq_zero]; omega
    simp only [k4, this, h5]
  | ascii rowLen rows cols x h1 h2 h3 h4 h5 =>
    obtain ⟨e, t, k1, k2, k3, k4, k5⟩ := C150_ascii F content pre fill u.data rest x u.cards rowLen rows 0 cols hc hpre h1 h3 h4 h36 hfill h5 h2 hb
    refine ⟨e, k1, k3, ⟨k2 ▸ .ascii rowLen rows cols h1 h5 k5, hname e k1 k3⟩, ?_⟩
    have hr : 0 < rowLen := by
      obtain ⟨c, hc⟩ := List.exists_mem_of_ne_nil _ h2
      have := h1.inside c hc; omega
    have : u.data ≠ [] ↔ rows ≠ 0 := by rw [ne_eq, hne, h5, Nat.mul_eq_zero]; omega
    simp only [k4, this, h5]
  | other kind b axes h1 h2 h3 h4 h5 =>
    obtain ⟨e, k1, k2, k3, k4⟩ := C150_other F content pre fill u.data rest kind u.cards b axes hc hpre h1 h2 h3 h4 h36 hfill h5 hb
    exact ⟨e, k1, k3, ⟨k2 ▸ .other kind h3 h4, hname e k1 k3⟩, k4⟩

theorem laid_append {us vs : List ForeignHdu} {c : Str} (h : Laid (us ++ vs) c) : ∃ c1 c2, c = c1 ++ c2 ∧ Laid us c1 ∧ Laid vs c2 := by
  induction us generalizing c with
  | nil => exact ⟨[], c, rfl, .nil, h⟩
  | cons u us ih =>
    obtain _ | ⟨h1, h2, h3⟩ := h
    obtain ⟨c1, c2, rfl, k1, k2⟩ := ih h3
    exact ⟨_, c2, by simp only [List.append_assoc], .cons h1 h2 k1, k2⟩

theorem laid_blocks {F : FloatText} {us : List ForeignHdu} {c : Str} (h : Laid us c) (hs : ∀ u ∈ us, Supported F u) : 2880 ∣ c.length := by
  induction h with
  | nil => simp
  | @cons u us fill tail more h1 h2 _ ih =>
    have := ih fun v hv => hs v (List.mem_cons_of_mem _ hv)
    have hf := supported_size (hs u List.mem_cons_self)
    simp only [List.length_append, hf]
    unfold roundUp at h1 h2
    omega

/-- Supported HDUs, none of whose units ends at a block boundary, are all found. -/
theorem laid_chain {F : FloatText} {content rest : Str} {us : List ForeignHdu} {part : Str} (h : Laid us part) (hs : ∀ u ∈ us, Supported F u)
    (h36 : ∀ u ∈ us, ¬ 36 ∣ u.cards.length) (hd : ∀ u ∈ us, u.data = [] ∨ ¬ 2880 ∣ u.data.length) (hb : content.length + 5760 < 2 ^ 63) :
    ∀ pre, content = pre ++ part ++ rest → 2880 ∣ pre.length →
    ∃ es, Chain (Complete F content) pre.length es (pre.length + part.length) ∧ List.Forall₂ (fun u (e : Entry) => Shows F u e.hdu ∧ FiledAs u e.name) us es ∧
      ∀ e ∈ es, e.loc < pre.length + part.length := by
  induction h with
  | nil => intro pre _ _; exact ⟨[], rfl, .nil, by simp⟩
  | @cons u us fill tail more h1 h2 _ ih =>
    intro pre hc hpre
    have hu := hs u List.mem_cons_self
    have hf := supported_size hu
    obtain ⟨e, k1, k2, k3, k4⟩ := supported_entry (rest := tail ++ more ++ rest) hu (h36 u List.mem_cons_self) (by rw [hc]; simp) hpre h1 hb
    rw [if_neg (fun h => (hd u List.mem_cons_self).elim h.1 (· h.2))] at k4
    obtain ⟨es, g1, g2, g3⟩ := ih (fun v hv => hs v (List.mem_cons_of_mem _ hv)) (fun v hv => h36 v (List.mem_cons_of_mem _ hv))
      (fun v hv => hd v (List.mem_cons_of_mem _ hv)) (pre ++ u.cards.flatten ++ fill ++ u.data ++ tail) (by rw [hc]; simp)
      (by simp only [List.length_append, hf]; unfold roundUp at h1 h2; omega)
    have hl : (pre ++ u.cards.flatten ++ fill ++ u.data ++ tail).length = e.next := by simp only [List.length_append, hf]; omega
    have hl' : pre.length + (u.cards.flatten ++ fill ++ u.data ++ tail ++ more).length = e.next + more.length := by rw [← hl]; simp only [List.length_append]; omega
    rw [hl] at g1 g3
    have h0 : u.cards.length ≠ 0 := by intro h; have := h36 u List.mem_cons_self; rw [h] at this; simp at this
    rw [hl']
    refine ⟨e :: es, ⟨k2, k1, g1⟩, .cons k3 g2, ?_⟩
    intro e' he'
    rcases List.mem_cons.1 he' with rfl | he'
    · unfold roundUp at k4; omega
    · exact g3 e' he'

theorem chain_then {P : Entry → Prop} : ∀ {es fs : List Entry} {p q r : Nat}, Chain P p es q → Chain P q fs r → Chain P p (es ++ fs) r
  | [], _, _, _, _, h, h' => by cases h; exact h'
  | _ :: _, _, _, _, _, ⟨h1, h2, h3⟩, h' => ⟨h1, h2, chain_then h3 h'⟩

/-- Another way through the file meets the same places, or others behind them. -/
theorem chain_places {F : FloatText} {content : Str} : ∀ {es es' : List Entry} {a p q : Nat}, Chain (Complete F content) a es p → Chain (Complete F content) a es' q →
    ∀ e ∈ es', (∃ o ∈ es, o.loc = e.loc) ∨ p ≤ e.loc
  | _, [], _, _, _, _, _ => by simp
  | [], e :: es', a, p, q, h, h' => by
    cases h
    exact fun x hx => .inr (chain_from h' x hx)
  | e :: es, e' :: es', a, p, q, ⟨h1, h2, h3⟩, ⟨g1, g2, g3⟩ => by
    intro x hx
    rcases List.mem_cons.1 hx with rfl | hx
    · exact .inl ⟨e, List.mem_cons_self, h1.trans g1.symm⟩
    · rw [complete_same g2 h2 (g1.trans h1.symm)] at g3
      rcases chain_places h3 g3 x hx with ⟨o, ho, hl⟩ | h
      · exact .inl ⟨o, List.mem_cons_of_mem _ ho, hl⟩
      · exact .inr h

/-- The HDUs up to one whose data may fill its blocks exactly. -/
theorem laid_last {F : FloatText} {content part rest : Str} {us : List ForeignHdu} {u : ForeignHdu} (h : Laid (us ++ [u]) part) (hc : content = part ++ rest)
    (hs : ∀ v ∈ us ++ [u], Supported F v) (h36 : ∀ v ∈ us ++ [u], ¬ 36 ∣ v.cards.length) (hd : ∀ v ∈ us, v.data = [] ∨ ¬ 2880 ∣ v.data.length)
    (hb : content.length + 5760 < 2 ^ 63) :
    ∃ es, Chain (Complete F content) 0 es (part.length + (if u.data ≠ [] ∧ 2880 ∣ u.data.length then 2880 else 0)) ∧ List.Forall₂ (fun u (e : Entry) => Shows F u e.hdu ∧ FiledAs u e.name) (us ++ [u]) es ∧
      ∀ e ∈ es, e.loc < part.length := by
  obtain ⟨c1, c2, rfl, k1, k2⟩ := laid_append h
  have hs' : ∀ v ∈ us, Supported F v := fun v hv => hs v (List.mem_append_left _ hv)
  obtain ⟨es, g1, g2, g3⟩ := laid_chain (rest := c2 ++ rest) k1 hs' (fun v hv => h36 v (List.mem_append_left _ hv)) hd hb [] (by rw [hc]; simp) (by simp)
  generalize hv : [u] = vs at k2
  cases k2 with
  | nil => simp at hv
  | @cons u' _ fill tail more q1 q2 q3 =>
    simp only [List.cons.injEq] at hv
    obtain ⟨rfl, rfl⟩ := hv
    cases q3
    have hu := hs u (by simp)
    have h0 : u.cards.length ≠ 0 := by intro h; have := h36 u (by simp); rw [h] at this; simp at this
    obtain ⟨e, r1, r2, r3, r4⟩ := supported_entry (content := content) (rest := tail ++ [] ++ rest) (pre := c1) hu (h36 u (by simp)) (by rw [hc]; simp only [List.append_assoc]) (laid_blocks k1 hs') q1 hb
    have hf := supported_size hu
    have hl : (c1 ++ (u.cards.flatten ++ fill ++ u.data ++ tail ++ [])).length = c1.length + roundUp (80 * u.cards.length) + roundUp u.data.length := by
      simp only [List.length_append, hf, List.length_nil]; omega
    rw [hl, ← r4]
    simp only [List.length_nil, Nat.zero_add] at g1 g3
    refine ⟨es ++ [e], chain_then g1 ⟨r2, r1, rfl⟩, ?_, ?_⟩
    · exact List.rel_append g2 (.cons r3 .nil)
    · intro x hx
      rcases List.mem_append.1 hx with hx | hx
      · have := g3 x hx; omega
      · rw [List.mem_singleton.1 hx, r2]; unfold roundUp; omega

/-- **C151** A file of another program with any number of HDUs is opened with all of them, in order and as the standard sees them, if none of its headers has a multiple of 36 cards,
no data but the last fill their blocks exactly, and every HDU is one that can be read. -/
theorem C151_opened (F : FloatText) (content : Str) (us : List ForeignHdu) (h : Laid us content) (hs : ∀ u ∈ us, Supported F u)
    (h36 : ∀ u ∈ us, ¬ 36 ∣ u.cards.length) (hd : ∀ u ∈ us.dropLast, u.data = [] ∨ ¬ 2880 ∣ u.data.length) (hb : content.length + 5760 < 2 ^ 63) :
    ∃ xs, EndsIn (fun cards turns => readEntire F cards turns (openFile content)) (.opened xs) ∧ List.Forall₂ (Shows F) us xs := by
  rcases List.eq_nil_or_concat us with rfl | ⟨us, u, rfl⟩
  · cases h
    exact ⟨[], (C134_entire F [] hb _).2 (.inl ⟨[], ⟨0, rfl, by simp⟩, rfl⟩), .nil⟩
  rw [List.concat_eq_append] at *
  rw [List.dropLast_concat] at hd
  obtain ⟨es, g1, g2, _⟩ := laid_last (rest := []) h (by simp) hs h36 hd hb
  exact ⟨_, (C134_entire F _ hb _).2 (.inl ⟨es, ⟨_, g1, by omega⟩, rfl⟩), shown g2⟩

/-- **C151** If the data of an HDU that is not the last fill their blocks exactly, the HDU behind it (which begins at byte `p`) is never read: no opened file has an HDU from there.
If it is the last one and takes one block only (no data), it disappears without a trace. -/
theorem C151_skipped (F : FloatText) (content : Str) (us : List ForeignHdu) (u v : ForeignHdu) (vs : List ForeignHdu) (h : Laid (us ++ u :: v :: vs) content)
    (hs : ∀ w ∈ us ++ [u], Supported F w) (h36 : ∀ w ∈ us ++ [u], ¬ 36 ∣ w.cards.length) (hd : ∀ w ∈ us, w.data = [] ∨ ¬ 2880 ∣ w.data.length)
    (hu : u.data ≠ [] ∧ 2880 ∣ u.data.length) (hb : content.length + 5760 < 2 ^ 63) :
    ∃ p, Laid (us ++ [u]) (content.take p) ∧ Laid (v :: vs) (content.drop p) ∧
      (∀ xs, EndsIn (fun cards turns => readEntire F cards turns (openFile content)) (.opened xs) →
        ∃ es, FileOf F content es ∧ xs = es.map (·.hdu) ∧ ∀ e ∈ es, e.loc ≠ p) ∧
      (vs = [] → v.data = [] → v.cards.length ≤ 36 → (∀ r ∈ v.cards, r.length = 80) →
        ∃ xs, EndsIn (fun cards turns => readEntire F cards turns (openFile content)) (.opened xs) ∧ List.Forall₂ (Shows F) (us ++ [u]) xs) := by
  rw [show us ++ u :: v :: vs = (us ++ [u]) ++ (v :: vs) by simp] at h
  obtain ⟨c1, c2, rfl, k1, k2⟩ := laid_append h
  obtain ⟨es, g1, g2, g3⟩ := laid_last (rest := c2) k1 rfl hs h36 hd hb
  rw [if_pos hu] at g1
  refine ⟨c1.length, by rw [List.take_left]; exact k1, by rw [List.drop_left]; exact k2, ?_, ?_⟩
  · intro xs hx
    rcases (C134_entire F _ hb _).1 hx with ⟨fs, ⟨q, hq, hq2⟩, ho⟩ | ⟨_, _, _, _, hbr⟩
    · cases ho
      refine ⟨fs, ⟨q, hq, hq2⟩, rfl, fun e he => ?_⟩
      rcases chain_places g1 hq e he with ⟨o, ho, hl⟩ | h
      · have := g3 o ho; omega
      · omega
    · cases hbr
  · rintro rfl hv hl hr
    refine ⟨_, (C134_entire F _ hb _).2 (.inl ⟨es, ⟨_, g1, ?_⟩, rfl⟩), shown g2⟩
    generalize hw : [v] = ws at k2
    cases k2 with
    | nil => simp at hw
    | @cons v' _ fill tail more q1 q2 q3 =>
      simp only [List.cons.injEq] at hw
      obtain ⟨rfl, rfl⟩ := hw
      cases q3
      have hf := flatten_length80 _ hr
      simp only [List.length_append, hf, List.length_nil, hv] at q2 ⊢
      unfold roundUp at q1 q2
      omega

/-- **C151** An image whose header has a multiple of 36 cards, in a file that goes on for at least one block behind its data: the image is accepted, but its pixels are those
of the bytes that begin 2880 bytes too late; the first 2880 bytes of the data are lost and what follows the data is taken for pixels. -/
theorem C151_shifted (F : FloatText) (content pre data rest : Str) (cards : List Str) (b : Bitpix) (axes : List Nat) (ext : Bool)
    (hc : content = pre ++ cards.flatten ++ data ++ rest) (hpre : 2880 ∣ pre.length) (hh : ImageCards cards b axes)
    (hx : Says cards b!"EXTEND" (if ext then b!"T" else b!"F")) (h36 : 36 ∣ cards.length) (hd : data.length = pixelCount axes * b.size) (hne : data ≠ [])
    (hr : 2880 ≤ rest.length) (hb : content.length + 5760 < 2 ^ 63) :
    ∃ e p, Complete F content e ∧ e.loc = pre.length ∧ e.hdu = .primary p ∧ p.header.naxis = axes ∧ p.data.kind = b ∧
      Pixels p.data.kind (((data ++ rest).drop 2880).take data.length) p.data.img.data := by
  obtain ⟨h, s', he, hraw, hbp, hn, hp⟩ := shapeCards_read (F := F) hh.toShapeCards pre (data ++ rest)
  have e0 : pre ++ cards.flatten ++ (data ++ rest) = content := by rw [hc]; simp
  rw [e0] at he
  obtain ⟨h1, en⟩ := imageCards_name hh rfl he hraw hp
  have hs : ¬ Absent (h.cards.map (·.raw)) b!"SIMPLE" := by
    rw [hraw]; obtain ⟨_, _, _, _, g, _⟩ := hh.simple; exact lastWith_not_absent g
  have hflat : cards.flatten.length = 80 * cards.length := flatten_length80 cards fun r hr => (hh.size r hr).1
  have hlen : content.length = pre.length + 80 * cards.length + data.length + rest.length := by
    rw [hc]; simp only [List.length_append, hflat]
  have hcl : h.cards.length = cards.length := by rw [← hraw, List.length_map]
  have hpos : 0 < data.length := List.length_pos_iff.2 hne
  obtain ⟨d1, d2, d3⟩ := announces_image (n := data.length) hbp hn hd (by omega)
  have hw : window content (pre.length + 80 * cards.length + 2880) data.length = ((data ++ rest).drop 2880).take data.length := by
    have hl : (((data ++ rest).drop 2880).take data.length).length = data.length := by
      rw [List.length_take, List.length_drop, List.length_append]; omega
    have := window_at (pre ++ cards.flatten ++ (data ++ rest).take 2880) (((data ++ rest).drop 2880).take data.length) (((data ++ rest).drop 2880).drop data.length)
    have e1 : (pre ++ cards.flatten ++ (data ++ rest).take 2880).length = pre.length + 80 * cards.length + 2880 := by
      simp only [List.length_append, hflat, List.length_take]; omega
    rw [e1, hl] at this
    rw [← this, ← e0]
    congr 1
    simp only [List.append_assoc, List.take_append_drop]
  obtain ⟨p, c1, c2, c3, c4, c5, c6, c7, _⟩ := (C85_primary F _ _ _ h h1 rfl he hp _ en hs (((data ++ rest).drop 2880).take data.length)).1 true ext
    (by rw [hraw]; exact imageCards_simple hh) (by rw [hraw]; exact lookup_ok.2 (says_logical hx))
  obtain ⟨q, hq⟩ := nextBoundary_exists (pre.length + 80 * cards.length + 2880 + data.length)
  refine ⟨⟨pre.length, h, pre.length + 80 * cards.length + 2880, data.length, q, _, .primary p⟩, p, ⟨⟨⟨_, s', he⟩, ?_, ?_, ?_, ?_, ?_⟩, .inr ?_, h1, en, ?_⟩, rfl, rfl,
    c7.trans hn, ?_, c5⟩
  · simp only; omega
  · simp only; rw [hcl]; omega
  · simp only; rw [hcl]; unfold NextBoundary; omega
  · intro hz; exact absurd (d2.1 hz) (by omega)
  · intro _; exact ⟨d3, hq⟩
  · simp only; omega
  · simp only; rw [hw]; exact c1
  · rw [hbp] at c4; exact (Option.some.inj c4).symm

theorem exPlain {cards : List Str} (i lead gap : Nat) {k text raw : Str} (hi : cards[i]? = some raw) (hk : trim (raw.take 8) = k)
    (hl : ∀ j < cards.length, i < j → trim ((cards.getD j []).take 8) ≠ k)
    (hr : slash ∉ raw.take 8 ∧ raw = raw.take 8 ++ b!"= " ++ List.replicate lead 32 ++ text ++ List.replicate gap 32 ++ [] ∧ raw.length = 80) : Says cards k text :=
  exSays i lead gap none hi hk hl hr.1 hr.2.1 hr.2.2 (.inl rfl)

theorem exNoImage_supported (F : FloatText) : Supported F ⟨exNoImage, []⟩ :=
  .image .B8 [] true exNoImage_cards (exPlain 3 0 69 rfl (by decide) (by decide) (by decide)) rfl

theorem exStars_supported (F : FloatText) (data : Str) (h : data.length = 12) : Supported F ⟨exStars, data⟩ :=
  .binary 6 2 [(1, 74), (2, 65)] b!"STARS" (exStars_binary F) (by decide) (exStars_names F)
    ⟨3, exStars_plain 11 0 60 _ _ _ rfl (by decide) (by decide) (by decide), by unfold PlainText; decide, by decide, by decide, by decide, by decide⟩ h (by decide)

/-- A primary HDU without data and two tables of stars: all three are found. -/
example (F : FloatText) : ∃ p t t', EndsIn (fun cards turns => readEntire F cards turns (openFile
      (exNoImage.flatten ++ List.replicate 2480 32 ++ [] ++ [] ++ (exStars.flatten ++ List.replicate 1840 32 ++ b!"0001AB0002CD" ++ List.replicate 2868 0 ++
        (exStars.flatten ++ List.replicate 1840 32 ++ b!"0003EF0004GH" ++ List.replicate 2868 0 ++ [])))))
      (.opened [.primary p, .binary t, .binary t']) ∧ t.data[0]? ≠ none ∧ t'.data[2]? = none := by
  have hf : exNoImage.flatten.length = 400 := by decide +kernel
  have hg : exStars.flatten.length = 1040 := by decide +kernel
  have hl : Laid [⟨exNoImage, []⟩, ⟨exStars, b!"0001AB0002CD"⟩, ⟨exStars, b!"0003EF0004GH"⟩] _ :=
    .cons (fill := List.replicate 2480 32) (tail := []) (by rw [List.length_replicate]; rfl) rfl
      (.cons (fill := List.replicate 1840 32) (tail := List.replicate 2868 0) (by rw [List.length_replicate]; rfl) (by rw [List.length_replicate]; rfl)
        (.cons (fill := List.replicate 1840 32) (tail := List.replicate 2868 0) (by rw [List.length_replicate]; rfl) (by rw [List.length_replicate]; rfl) .nil))
  obtain ⟨xs, h1, h2⟩ := C151_opened F _ _ hl
    (by
      intro u hu
      rcases List.mem_cons.1 hu with rfl | hu
      · exact exNoImage_supported F
      · rcases List.mem_cons.1 hu with rfl | hu
        · exact exStars_supported F _ rfl
        · rw [List.mem_singleton.1 hu]; exact exStars_supported F _ rfl)
    (by intro u hu; rcases List.mem_cons.1 hu with rfl | hu
        · decide
        · rcases List.mem_cons.1 hu with rfl | hu
          · decide
          · rw [List.mem_singleton.1 hu]; decide)
    (by intro u hu; rcases List.mem_cons.1 hu with rfl | hu
        · exact .inl rfl
        · rw [List.mem_singleton.1 hu]; exact .inr (by decide))
    (by simp only [List.length_append, hf, hg, List.length_replicate]; decide)
  have noX : Absent exNoImage b!"XTENSION" := exNoImage_cards.noXtension
  have noS : Absent exStars b!"SIMPLE" := exStars_absent _ (by decide)
  have hxt : SaysString exStars b!"XTENSION" b!"BINTABLE" := (exStars_binary F).xtension
  have first : ∀ x, Shows F ⟨exNoImage, []⟩ x → ∃ p, x = .primary p := by
    rintro _ (⟨_, _, _, _, _, _, _, _, _, _, _, _⟩ | ⟨_, _, _, h, _, _⟩ | ⟨_, _, _, h, _, _⟩ | ⟨_, h, _⟩)
    · exact ⟨_, rfl⟩
    · obtain ⟨_, ⟨_, _, _, _, g, _⟩, _⟩ := h.xtension; exact absurd noX (lastWith_not_absent g)
    · obtain ⟨_, ⟨_, _, _, _, g, _⟩, _⟩ := h.xtension; exact absurd noX (lastWith_not_absent g)
    · obtain ⟨_, ⟨_, _, _, _, g, _⟩, _⟩ := h; exact absurd noX (lastWith_not_absent g)
  have stars : ∀ d x, Shows F ⟨exStars, d⟩ x → ∃ t rowLen rows cols, x = .binary t ∧ BinaryTableCards F exStars rowLen rows 0 cols ∧ ShowsBinary t exStars rowLen rows cols d := by
    rintro d _ (⟨_, _, _, h, _, _, _, _, _, _, _, _⟩ | ⟨_, _, _, h, _, h'⟩ | ⟨_, _, _, h, _, _⟩ | ⟨_, h, h'⟩)
    · obtain ⟨_, _, _, _, g, _⟩ := h.simple; exact absurd noS (lastWith_not_absent g)
    · exact ⟨_, _, _, _, rfl, h, h'⟩
    · have := says_string_fun h.xtension (says_string (F := F) hxt); exact absurd this (by decide)
    · have := says_string_fun h (says_string (F := F) hxt); exact absurd this.symm h'.2
  obtain _ | ⟨a1, _ | ⟨a2, _ | ⟨a3, ⟨⟩⟩⟩⟩ := h2
  obtain ⟨p, rfl⟩ := first _ a1
  obtain ⟨t, l, r, c, rfl, q1, q2⟩ := stars _ _ a2
  obtain ⟨t', l', r', c', rfl, q3, q4⟩ := stars _ _ a3
  have rows2 : ∀ l r c, BinaryTableCards F exStars l r 0 c → r = 2 := by
    intro l r c h
    obtain ⟨k1, k2⟩ := h.axis 1 r b!"2" rfl (isNat_iff.2 rfl)
    obtain ⟨k3, _⟩ := exStars_shape.axis 1 2 b!"2" rfl (isNat_iff.2 rfl)
    have g1 := says_declares (F := F) (v := .sizeT (BitVec.ofNat 64 r)) k1 (by simp only [numberOf, BitVec.toNat_ofNat, Nat.mod_eq_of_lt k2])
    have g2 := says_declares (F := F) (v := .sizeT 2) k3 rfl
    have := lookup_fun (lookup_ok.2 g1) (lookup_ok.2 g2)
    simp only [Except.ok.injEq, Val.sizeT.injEq] at this
    have := congrArg BitVec.toNat this
    rw [BitVec.toNat_ofNat, Nat.mod_eq_of_lt k2] at this
    exact this
  refine ⟨p, t, t', h1, ?_, ?_⟩
  · have := q2.rows
    rw [rows2 _ _ _ q1] at this
    rw [ne_eq, List.getElem?_eq_none_iff]; omega
  · have := q4.rows
    rw [rows2 _ _ _ q3] at this
    rw [List.getElem?_eq_none_iff]; omega

/-- The header of an image of 2880 bytes. -/
def exExact : List Str :=
  [exCard b!"SIMPLE  = T", exCard b!"BITPIX  = 8", exCard b!"NAXIS   = 1", exCard b!"NAXIS1  = 2880", exCard b!"EXTEND  = T", exCard b!"END"]

theorem exExact_cards : ImageCards exExact .B8 [2880] := by
  refine ⟨⟨?_, ⟨exExact.dropLast, exCard b!"END", by decide, by unfold IsEnd; decide, ?_⟩, ?_, ⟨?_, by decide⟩, ?_⟩, ?_, ?_⟩
  · intro r hr
    have h1 : r.length = 80 ∧ Card.ofRaw r = .ok ⟨r, none⟩ := by revert r; decide
    refine ⟨h1.1, Classical.byContradiction fun hn => ?_⟩
    rw [ofRaw_piece_bad h1.1 hn] at h1
    exact nomatch h1.2
  · intro r hr; revert r; unfold IsEnd; decide
  · exact ⟨8, ⟨b!"8", b!"8", exPlain 1 0 69 rfl (by decide) (by decide) (by decide), ⟨by decide, by decide⟩, .inl ⟨rfl, by decide⟩⟩, rfl⟩
  · exact ⟨b!"1", b!"1", exPlain 2 0 69 rfl (by decide) (by decide) (by decide), ⟨by decide, by decide⟩, .inl ⟨rfl, by decide⟩⟩
  · intro j a d ha hd
    obtain rfl := isNat_iff.1 hd
    match j, ha with
    | 0, ha =>
      cases ha
      exact ⟨⟨b!"2880", b!"2880", exPlain 3 0 66 rfl (by decide) (by decide) (by decide), ⟨by decide, by decide⟩, .inl ⟨rfl, by decide⟩⟩, by decide⟩
    | j + 1, ha => simp at ha
  · exact exPlain 0 0 69 rfl (by decide) (by decide) (by decide)
  · intro r hr; rw [keywordIs_iff]; revert r; decide

theorem exExact_supported (F : FloatText) (data : Str) (h : data.length = 2880) : Supported F ⟨exExact, data⟩ :=
  .image .B8 [2880] true exExact_cards (show Says exExact _ _ from exPlain 4 0 69 rfl (by decide) (by decide) (by decide)) (by rw [h]; rfl)

/-- An image that fills its block and an extension without data behind it: the extension is lost. -/
example (F : FloatText) (data : Str) (hd : data.length = 2880) : ∃ x, EndsIn (fun cards turns => readEntire F cards turns (openFile
      (exExact.flatten ++ List.replicate 2400 32 ++ data ++ [] ++ (exPicture.flatten ++ List.replicate 2240 32 ++ [] ++ [] ++ [])))) (.opened [x]) := by
  have hf : exExact.flatten.length = 480 := by decide +kernel
  have hg : exPicture.flatten.length = 640 := by decide +kernel
  have hl : Laid ([] ++ ⟨exExact, data⟩ :: ⟨exPicture, []⟩ :: []) (exExact.flatten ++ List.replicate 2400 32 ++ data ++ [] ++ (exPicture.flatten ++ List.replicate 2240 32 ++ [] ++ [] ++ [])) :=
    .cons (by rw [List.length_replicate]; show 80 * 6 + 2400 = roundUp (80 * 6); rfl) (by rw [hd]; rfl) (.cons (by rw [List.length_replicate]; rfl) rfl .nil)
  obtain ⟨_, _, _, _, h⟩ := C151_skipped F _ [] _ _ [] hl
    (by intro u hu; rw [List.mem_singleton.1 hu]; exact exExact_supported F data hd)
    (by intro u hu; rw [List.mem_singleton.1 hu]; show ¬ 36 ∣ 6; decide) (by simp)
    ⟨fun h => absurd (congrArg List.length h) (by rw [hd]; decide), by rw [hd]⟩ (by simp only [List.length_append, hf, hg, hd, List.length_replicate]; decide)
  obtain ⟨xs, h1, h2⟩ := h rfl rfl (by decide) (by decide)
  obtain ⟨x, rfl⟩ := List.length_eq_one_iff.1 h2.length_eq.symm
  exact ⟨x, h1⟩

/-- A header of 36 cards: an image of one 16-bit pixel, and remarks. -/
def exLong : List Str :=
  [exCard b!"SIMPLE  = T", exCard b!"BITPIX  = 16", exCard b!"NAXIS   = 1", exCard b!"NAXIS1  = 1", exCard b!"EXTEND  = T"] ++
    List.replicate 30 (exCard b!"COMMENT remark") ++ [exCard b!"END"]

theorem exLong_cards : ImageCards exLong .B16 [1] := by
  refine ⟨⟨?_, ⟨exLong.dropLast, exCard b!"END", by decide +kernel, by unfold IsEnd; decide, ?_⟩, ?_, ⟨?_, by decide⟩, ?_⟩, ?_, ?_⟩
  · intro r hr
    have h1 : r.length = 80 ∧ Card.ofRaw r = .ok ⟨r, none⟩ := by revert r; decide +kernel
    refine ⟨h1.1, Classical.byContradiction fun hn => ?_⟩
    rw [ofRaw_piece_bad h1.1 hn] at h1
    exact nomatch h1.2
  · intro r hr; revert r; unfold IsEnd; decide +kernel
  · exact ⟨16, ⟨b!"16", b!"16", exPlain 1 0 68 rfl (by decide) (by decide +kernel) (by decide), ⟨by decide, by decide⟩, .inl ⟨rfl, by decide⟩⟩, rfl⟩
  · exact ⟨b!"1", b!"1", exPlain 2 0 69 rfl (by decide) (by decide +kernel) (by decide), ⟨by decide, by decide⟩, .inl ⟨rfl, by decide⟩⟩
  · intro j a d ha hd
    obtain rfl := isNat_iff.1 hd
    match j, ha with
    | 0, ha =>
      cases ha
      exact ⟨⟨b!"1", b!"1", exPlain 3 0 69 rfl (by decide) (by decide +kernel) (by decide), ⟨by decide, by decide⟩, .inl ⟨rfl, by decide⟩⟩, by decide⟩
    | j + 1, ha => simp at ha
  · exact exPlain 0 0 69 rfl (by decide) (by decide +kernel) (by decide)
  · intro r hr; rw [keywordIs_iff]; revert r; decide +kernel

/-- The pixel of the file is 5; the one that is read is the 9 in the next block. -/
example (F : FloatText) : ∃ e p, Complete F (exLong.flatten ++ [0, 5] ++ (List.replicate 2878 0 ++ [0, 9] ++ List.replicate 2878 0)) e ∧ e.hdu = .primary p ∧
    Pixels p.data.kind [0, 9] p.data.img.data := by
  have hf : exLong.flatten.length = 2880 := by decide +kernel
  obtain ⟨e, p, h1, _, h3, _, _, h6⟩ := C151_shifted F (exLong.flatten ++ [0, 5] ++ (List.replicate 2878 0 ++ [0, 9] ++ List.replicate 2878 0)) [] [0, 5]
    (List.replicate 2878 0 ++ [0, 9] ++ List.replicate 2878 0) exLong .B16 [1] true rfl (by simp) exLong_cards
    (exPlain 4 0 69 rfl (by decide) (by decide +kernel) (by decide)) (by decide) rfl (by simp)
    (by simp only [List.length_append, List.length_replicate]; decide) (by simp only [List.length_append, List.length_replicate, hf]; decide)
  refine ⟨e, p, h1, h3, ?_⟩
  have e1 : (([0, 5] ++ (List.replicate 2878 0 ++ [0, 9] ++ List.replicate 2878 0) : Str).drop 2880).take 2 = [0, 9] := by
    rw [show ([0, 5] ++ (List.replicate 2878 0 ++ [0, 9] ++ List.replicate 2878 0) : Str) = ([0, 5] ++ List.replicate 2878 0) ++ ([0, 9] ++ List.replicate 2878 0) by
      simp only [List.append_assoc], List.drop_left' (by simp only [List.length_append, List.length_replicate]; rfl)]
    rfl
  rw [show ([0, 5] : Str).length = 2 from rfl, e1] at h6
  exact h6

end Astro
