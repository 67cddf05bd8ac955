import Verif.Lemmas.Session
import Verif.Props.FitsModes

/-
Property C125: open a file, work with its tables, write it, open it again.
-/

namespace Astro

open Spec Header Reader

variable {F : FloatText} {G : StreamText} {tyA : Nat → Str → AsciiTag} {tyB : Nat → Str → BinTag}

/-! ## C125 -/

/-- **C125** `open` reads whole HDUs, or only headers, as it is told: it succeeds exactly for the files that consist of such HDUs. -/
theorem C125_open (F : FloatText) (content : Str) (hb : content.length + 5760 < 2 ^ 63) (hdus : List Hdu) :
    ((∃ fuel n r, openWith F fuel n content .entireHdus = some (.ok r) ∧ r.hdus = hdus) ↔ ∃ es, FileOf F content es ∧ hdus = es.map (·.hdu)) ∧
    ((∃ fuel n r, openWith F fuel n content .onlyHeaders = some (.ok r) ∧ r.hdus = hdus) ↔ ∃ es, HeadersOf F content es ∧ hdus = es.map (·.hdu)) :=
  ⟨C31_open_iff F content hb hdus, C77_headers_iff F content hb hdus⟩

/-- **C125** `convert_to<ascii_table>(file[k])` fails with out_of_range if there is no HDU `k`, with bad_get if it is not an ASCII table, and otherwise is the
table itself: what is done to it is done to the table in the file object.  No other HDU is touched. -/
theorem C125_ascii {β : Type} (live : List (Live F G)) (k : Int) (f : Obj (asciiFamily F G) → Obj (asciiFamily F G) × β) :
    ((k < 0 ∨ (live.length : Int) ≤ k) → atHdu live k (fun x => x.inAscii f) = (live, .error .outOfRange)) ∧
    (∀ x, 0 ≤ k → live[k.toNat]? = some x → (∀ t v, x ≠ .ascii t v) → atHdu live k (fun x => x.inAscii f) = (live, .error .badGet)) ∧
    (∀ t v, 0 ≤ k → live[k.toNat]? = some (.ascii t v) → ∃ live', atHdu live k (fun x => x.inAscii f) = (live', .ok (f ⟨t.cols, t.data, v⟩).2) ∧
      live'[k.toNat]? = some (.ascii { t with cols := (f ⟨t.cols, t.data, v⟩).1.cols, data := (f ⟨t.cols, t.data, v⟩).1.data } (f ⟨t.cols, t.data, v⟩).1.views) ∧
      live'.length = live.length ∧ ∀ j, j ≠ k.toNat → live'[j]? = live[j]?) := by
  refine ⟨fun h => ?_, fun x h0 hx hn => ?_, fun t v h0 hx => ?_⟩
  · unfold atHdu
    split
    · rfl
    · rw [List.getElem?_eq_none (by omega)]
  · unfold atHdu
    rw [if_neg (by omega), hx]
    have := (List.getElem?_eq_some_iff.1 hx).2
    cases x with
    | ascii t v => exact absurd rfl (hn t v)
    | _ => simp only [Live.inAscii]; rw [← this]; simp
  · refine ⟨_, by unfold atHdu; rw [if_neg (by omega), hx]; rfl, ?_, by simp, ?_⟩
    · exact List.getElem?_set_self (List.getElem?_eq_some_iff.1 hx).1
    · intro j hj
      exact List.getElem?_set_ne (Ne.symm hj)

/-- **C125** The same for binary tables. -/
theorem C125_binary {β : Type} (live : List (Live F G)) (k : Int) (f : Obj binFamily → Obj binFamily × β) :
    ((k < 0 ∨ (live.length : Int) ≤ k) → atHdu live k (fun x => x.inBinary f) = (live, .error .outOfRange)) ∧
    (∀ x, 0 ≤ k → live[k.toNat]? = some x → (∀ t v, x ≠ .binary t v) → atHdu live k (fun x => x.inBinary f) = (live, .error .badGet)) ∧
    (∀ t v, 0 ≤ k → live[k.toNat]? = some (.binary t v) → ∃ live', atHdu live k (fun x => x.inBinary f) = (live', .ok (f ⟨t.cols, t.data, v⟩).2) ∧
      live'[k.toNat]? = some (.binary { t with cols := (f ⟨t.cols, t.data, v⟩).1.cols, data := (f ⟨t.cols, t.data, v⟩).1.data } (f ⟨t.cols, t.data, v⟩).1.views) ∧
      live'.length = live.length ∧ ∀ j, j ≠ k.toNat → live'[j]? = live[j]?) := by
  refine ⟨fun h => ?_, fun x h0 hx hn => ?_, fun t v h0 hx => ?_⟩
  · unfold atHdu
    split
    · rfl
    · rw [List.getElem?_eq_none (by omega)]
  · unfold atHdu
    rw [if_neg (by omega), hx]
    have := (List.getElem?_eq_some_iff.1 hx).2
    cases x with
    | binary t v => exact absurd rfl (hn t v)
    | _ => simp only [Live.inBinary]; rw [← this]; simp
  · refine ⟨_, by unfold atHdu; rw [if_neg (by omega), hx]; rfl, ?_, by simp, ?_⟩
    · exact List.getElem?_set_self (List.getElem?_eq_some_iff.1 hx).1
    · intro j hj
      exact List.getElem?_set_ne (Ne.symm hj)

/-- The statement uses a table of its kind, a column and a row that exist; the value it writes, if it writes one, can be stored without loss (`AsciiWrites`,
`BinWrites`) and its text fits into the column. -/
def SOp.Fine (hdus : List Hdu) : SOp F G tyA tyB → Prop
  | .ascii k op => ∃ t, hdus[k]? = some (.ascii t) ∧ op.Valid (t.cols.map (·.name)) t.data.length ∧ AsciiWrites F G op ∧ VOp.Stores (FitsAscii t.cols) op
  | .binary k op => ∃ t, hdus[k]? = some (.binary t) ∧ op.Valid (t.cols.map (·.name)) t.data.length ∧ BinWrites t.cols op ∧
      VOp.Stores (FitsBinary t.cols) op

theorem asciiOps_fine {hdus : List Hdu} {k : Nat} {t : Table} (hk : hdus[k]? = some (.ascii t)) : ∀ {ops : List (SOp F G tyA tyB)},
    (∀ op ∈ ops, SOp.Fine hdus op) → ∀ op ∈ asciiOps k ops, op.Valid (t.cols.map (·.name)) t.data.length ∧ AsciiWrites F G op ∧ VOp.Stores (FitsAscii t.cols) op
  | [], _, op, h => by cases h
  | .ascii j o :: ops, hf, op, h => by
    simp only [asciiOps] at h
    split at h
    next e =>
      subst e
      rcases List.mem_cons.1 h with rfl | h
      · obtain ⟨t', e', g⟩ := hf _ List.mem_cons_self
        rw [hk] at e'; cases e'; exact g
      · exact asciiOps_fine hk (fun o ho => hf o (List.mem_cons_of_mem _ ho)) op h
    next => exact asciiOps_fine hk (fun o ho => hf o (List.mem_cons_of_mem _ ho)) op h
  | .binary j o :: ops, hf, op, h => asciiOps_fine hk (fun o ho => hf o (List.mem_cons_of_mem _ ho)) op h

theorem binaryOps_fine {hdus : List Hdu} {k : Nat} {t : Table} (hk : hdus[k]? = some (.binary t)) : ∀ {ops : List (SOp F G tyA tyB)},
    (∀ op ∈ ops, SOp.Fine hdus op) → ∀ op ∈ binaryOps k ops, op.Valid (t.cols.map (·.name)) t.data.length ∧ BinWrites t.cols op ∧ VOp.Stores (FitsBinary t.cols) op
  | [], _, op, h => by cases h
  | .binary j o :: ops, hf, op, h => by
    simp only [binaryOps] at h
    split at h
    next e =>
      subst e
      rcases List.mem_cons.1 h with rfl | h
      · obtain ⟨t', e', g⟩ := hf _ List.mem_cons_self
        rw [hk] at e'; cases e'; exact g
      · exact binaryOps_fine hk (fun o ho => hf o (List.mem_cons_of_mem _ ho)) op h
    next => exact binaryOps_fine hk (fun o ho => hf o (List.mem_cons_of_mem _ ho)) op h
  | .ascii j o :: ops, hf, op, h => binaryOps_fine hk (fun o ho => hf o (List.mem_cons_of_mem _ ho)) op h

theorem chain_mem {P : Entry → Prop} : ∀ {es : List Entry} {p q : Nat}, Chain P p es q → ∀ e ∈ es, P e
  | [], _, _, _, e, he => by cases he
  | _ :: _, _, _, h, e, he => by
    rcases List.mem_cons.1 he with rfl | he
    · exact h.2.1
    · exact chain_mem h.2.2 e he

/-- A table that was read has columns numbered from 1 on and full rows. -/
theorem built_layout {F : FloatText} {e : Entry} {buf : Str} (h : Built F e buf) {t : Table} (ht : e.hdu = .ascii t ∨ e.hdu = .binary t) : Layout t.cols t.data := by
  obtain ⟨h1, _, hc⟩ := h
  unfold Hdu.construct at hc
  split at hc
  · obtain ⟨p, _, hc⟩ := bind_ok hc
    have hc : Hdu.primary p = e.hdu := Except.ok.inj hc
    rcases ht with ht | ht <;> (rw [← hc] at ht; cases ht)
  · unfold Hdu.generateExtension at hc
    obtain ⟨⟨h2, name⟩, _, hc⟩ := bind_ok hc
    simp only at hc
    split at hc
    · obtain ⟨u, hu, hc⟩ := bind_ok hc
      have hc : Hdu.ascii u = e.hdu := Except.ok.inj hc
      rcases ht with ht | ht <;> (rw [← hc] at ht; cases ht)
      exact C42_layout_of_made F _ _ _ (Or.inl hu)
    · split at hc
      · obtain ⟨u, hu, hc⟩ := bind_ok hc
        have hc : Hdu.binary u = e.hdu := Except.ok.inj hc
        rcases ht with ht | ht <;> (rw [← hc] at ht; cases ht)
        exact C42_layout_of_made F _ _ _ (Or.inr hu)
      · have hc : Hdu.blank = e.hdu := Except.ok.inj hc
        rcases ht with ht | ht <;> (rw [← hc] at ht; cases ht)

/-- Arrays: an element that no operation changes keeps its value. -/
theorem val_kept {Φ : Family} {ty : Str → Φ.Tag} (number : Str → Nat) (rows : Nat) (name : Str) (row : Nat) : ∀ (ops : List (VOp Φ ty)),
    (∀ op ∈ ops, ¬ VOp.Changes name row op) → ∀ a : Arrays Φ ty, (a.run number rows ops).1.val name row = a.val name row
  | [], _, _ => rfl
  | op :: ops, hno, a => by
    simp only [Arrays.run]
    rw [val_kept number rows name row ops fun o ho => hno o (List.mem_cons_of_mem _ ho)]
    have h1 := hno op List.mem_cons_self
    have hset : ∀ n r (x : Φ.El (ty n)), ¬ (n = name ∧ r = row) → (a.set number n r x).val name row = a.val name row := by
      intro n r x h
      simp only [Arrays.set]
      split
      next e =>
        subst e
        rw [if_neg fun e' => h ⟨rfl, e'.symm⟩]
      next => rfl
    cases op with
    | read n r => rfl
    | iterate n => rfl
    | write n r x => exact hset n r x h1
    | assign n r x =>
      simp only [Arrays.step]
      split
      · exact hset n r x h1
      · rfl

theorem arrays_append {Φ : Family} {ty : Str → Φ.Tag} (number : Str → Nat) (rows : Nat) : ∀ (ops ops' : List (VOp Φ ty)) (a : Arrays Φ ty),
    (a.run number rows (ops ++ ops')).1 = ((a.run number rows ops).1.run number rows ops').1
  | [], _, _ => rfl
  | op :: ops, ops', a => arrays_append number rows ops ops' (a.step number rows op).1

/-- Arrays: the last value written. -/
theorem val_written {Φ : Family} {ty : Str → Φ.Tag} (number : Str → Nat) (rows : Nat) (name : Str) (row : Nat) (x : Φ.El (ty name)) (ops ops' : List (VOp Φ ty))
    (hno : ∀ op ∈ ops', ¬ VOp.Changes name row op) (a : Arrays Φ ty) :
    (a.run number rows (ops ++ .write name row x :: ops')).1.val name row = .ok x := by
  rw [arrays_append]
  show ((((a.run number rows ops).1.set number name row x).run number rows ops').1).val name row = _
  rw [val_kept number rows name row ops' hno]
  simp [Arrays.set]

theorem ascii_fits {h : Header} {t : Table} {ty : Str → AsciiTag} (hl : Layout t.cols t.data) (hf : DataFits h (.ascii t)) (ops : List (VOp (asciiFamily F G) ty))
    (hv : ∀ op ∈ ops, op.Valid (t.cols.map (·.name)) t.data.length) (hs : ∀ op ∈ ops, VOp.Stores (FitsAscii t.cols) op) :
    DataFits h (.ascii { t with data := ((Obj.fresh t.cols t.data : Obj (asciiFamily F G)).run ops).1.data }) := by
  obtain ⟨ws, h1, h2, h3, h4, h5, h6, h7, h8⟩ := hf
  obtain ⟨g1, g2, g3⟩ := rows_run hl ops hv (fun i s => NoOuterWhite s ∧ ∀ w, ws[i - 1]? = some w → s.length ≤ w)
    (fun row hr j s e => ⟨(h8 row hr).2.2 s (List.mem_iff_getElem?.2 ⟨j, e⟩), fun w hw => (h8 row hr).2.1 j s w e (by rwa [Nat.add_sub_cancel] at hw)⟩)
    (fun op ho => stores_number hl h1 (· ≤ ·) (hv op ho) (hs op ho))
  have hlen : ws.length = t.cols.length := by rw [widths_length h1, List.length_map]
  refine ⟨ws, h1, h2, by simp only; rw [g2]; exact h3, h4, ?_, h6, h7, fun row hr => ⟨?_, fun j x w e hw => ?_, fun x hx => ?_⟩⟩
  · intro e
    have e : ((Obj.fresh t.cols t.data : Obj (asciiFamily F G)).run ops).1.data = [] := e
    rw [e] at g2
    exact h5 (List.length_eq_zero_iff.1 g2.symm)
  · rw [g1.width row hr, hlen]
  · exact (g3 row hr j x e).2 w (by rwa [Nat.add_sub_cancel])
  · obtain ⟨j, hj⟩ := List.mem_iff_getElem?.1 hx
    exact (g3 row hr j x hj).1

theorem binary_fits {h : Header} {t : Table} {ty : Str → BinTag} (hl : Layout t.cols t.data) (hf : DataFits h (.binary t)) (ops : List (VOp binFamily ty))
    (hv : ∀ op ∈ ops, op.Valid (t.cols.map (·.name)) t.data.length) (hs : ∀ op ∈ ops, VOp.Stores (FitsBinary t.cols) op) :
    DataFits h (.binary { t with data := ((Obj.fresh t.cols t.data : Obj binFamily).run ops).1.data }) := by
  obtain ⟨ws, h1, h2, h3, h4, h5, h8⟩ := hf
  obtain ⟨g1, g2, g3⟩ := rows_run hl ops hv (fun i s => NoOuterWhite s ∧ ∀ w, ws[i - 1]? = some w → s.length = w)
    (fun row hr j s e => ⟨(h8 row hr).2 s (List.mem_iff_getElem?.2 ⟨j, e⟩), fun w hw => by
      rw [Nat.add_sub_cancel, ← (h8 row hr).1, List.getElem?_map, e] at hw
      exact Option.some.inj hw⟩)
    (fun op ho => stores_number hl h1 (· = ·) (hv op ho) (hs op ho))
  have hlen : ws.length = t.cols.length := by rw [widths_length h1, List.length_map]
  refine ⟨ws, h1, h2, by simp only; rw [g2]; exact h3, h4, ?_, fun row hr => ⟨?_, fun x hx => ?_⟩⟩
  · intro e
    have e : ((Obj.fresh t.cols t.data : Obj binFamily).run ops).1.data = [] := e
    rw [e] at g2
    exact h5 (List.length_eq_zero_iff.1 g2.symm)
  · have hw := g1.width row hr
    apply List.ext_getElem (by rw [List.length_map, hw, hlen])
    intro j hj hj'
    rw [List.getElem_map]
    have hj : j < row.length := by simpa using hj
    exact (g3 row hr j row[j] (List.getElem?_eq_getElem hj)).2 _ (by rw [Nat.add_sub_cancel]; exact List.getElem?_eq_getElem hj')
  · obtain ⟨j, hj⟩ := List.mem_iff_getElem?.1 hx
    exact (g3 row hr j x hj).1

/-- Typed reading of a fresh table over the matrix a session leaves behind gives the value in the arrays. -/
theorem fresh_read {Φ : Family} {ty : Str → Φ.Tag} {cols : List Column} {data : List (List Str)} (hl : Layout cols data) (ops : List (VOp Φ ty))
    (hv : ∀ op ∈ ops, op.Valid (cols.map (·.name)) data.length) (hst : ∀ op ∈ ops, VOp.Storable cols op) (name : Str) (hname : name ∈ cols.map (·.name))
    (row : Nat) (hr : row < data.length) :
    ((Obj.fresh cols ((Obj.fresh cols data : Obj Φ).run ops).1.data : Obj Φ).read name (ty name) row).2 =
      ((initialArrays ty cols data).run (columnNumber cols) data.length ops).1.val name row := by
  rw [reload_read hl ops hv hst name hname row hr]
  obtain ⟨_, _, g3⟩ := run_agree data.length ops (agree_initial (Φ := Φ) (ty := ty) hl) rfl hv
  obtain ⟨c, hc⟩ := exists_column hname
  obtain ⟨o2, e2, _, _⟩ := read_agree g3 hc row
  rw [e2]

theorem ascii_storable {cols : List Column} {ty : Str → AsciiTag} {op : VOp (asciiFamily F G) ty} (h : AsciiWrites F G op) : VOp.Storable cols op := by
  cases op with
  | read => trivial
  | iterate => trivial
  | write n r x => intro c hc; exact (C87_ascii_decode F G _ x _).2 h
  | assign n r x => intro c hc; exact (C87_ascii_decode F G _ x _).2 h

theorem bin_storable {cols : List Column} {ty : Str → BinTag} {op : VOp binFamily ty} (h : BinWrites cols op) : VOp.Storable cols op := by
  cases op with
  | read => trivial
  | iterate => trivial
  | write n r x => intro c hc; exact C87_decode _ h.1 x _ (h.2 c hc) _ ((C87_encode _ _ _).1 rfl)
  | assign n r x => intro c hc; exact C87_decode _ h.1 x _ (h.2 c hc) _ ((C87_encode _ _ _).1 rfl)

/-- **C125** During the session every table behaves as if it were alone and its columns plain arrays: the results of the statements that use HDU `k` are those
of the arrays its cells stand for. -/
theorem C125_alone (content : Str) (es : List Entry) (hf : FileOf F content es) (ops : List (SOp F G tyA tyB)) (k : Nat) (e : Entry) (he : es[k]? = some e) (t : Table) :
    (e.hdu = .ascii t → (∀ op ∈ asciiOps k ops, op.Valid (t.cols.map (·.name)) t.data.length) →
      asciiOuts k (sessionRun ((es.map (·.hdu)).map Live.ofHdu) ops).2 =
        ((initialArrays (tyA k) t.cols t.data : Arrays (asciiFamily F G) _).run (columnNumber t.cols) t.data.length (asciiOps k ops)).2.map .ok) ∧
    (e.hdu = .binary t → (∀ op ∈ binaryOps k ops, op.Valid (t.cols.map (·.name)) t.data.length) →
      binaryOuts k (sessionRun ((es.map (·.hdu)).map (Live.ofHdu (F := F) (G := G))) ops).2 =
        ((initialArrays (tyB k) t.cols t.data : Arrays binFamily _).run (columnNumber t.cols) t.data.length (binaryOps k ops)).2.map .ok) := by
  obtain ⟨q, hq, _⟩ := hf
  have hc := chain_mem hq e (List.mem_iff_getElem?.2 ⟨k, he⟩)
  refine ⟨fun ht hv => ?_, fun ht hv => ?_⟩
  · have hl := built_layout hc.built (Or.inl ht)
    rw [session_ascii_outs ops _ k t (fun _ => none) (by simp [he, ht, Live.ofHdu])]
    exact congrArg (List.map Except.ok) (C42_plain_arrays (Φ := asciiFamily F G) (ty := tyA k) t.cols t.data hl _ hv).1
  · have hl := built_layout hc.built (Or.inr ht)
    rw [session_binary_outs ops _ k t (fun _ => none) (by simp [he, ht, Live.ofHdu])]
    exact congrArg (List.map Except.ok) (C42_plain_arrays (Φ := binFamily) (ty := tyB k) t.cols t.data hl _ hv).1

/-- **C125** A file is opened, its tables are read and written through their columns, it is written to a new file, and that file is opened.  If all HDUs carry
data that fit their headers and every value written can be stored without loss and fits its column, then the new file has the same HDUs in the same order,
with the same headers, columns, images and numbers of rows, and every typed cell holds what the session left in it: the value last written, or else
what it held in the old file (`C125_last`). -/
theorem C125_save (content : Str) (es : List Entry) (hf : FileOf F content es) (hfit : ∀ e ∈ es, DataFits e.header e.hdu)
    (ops : List (SOp F G tyA tyB)) (hops : ∀ op ∈ ops, SOp.Fine (es.map (·.hdu)) op) :
    ∃ s, saveAll (sessionRun ((es.map (·.hdu)).map Live.ofHdu) ops).1 = .ok s ∧ (s.content.length + 5760 < 2 ^ 63 →
      ∃ N r, (∀ fuel n, N ≤ fuel → N ≤ n → openWith F fuel n s.content .entireHdus = some (.ok r)) ∧ r.hdus.length = es.length ∧
        ∀ (k : Nat) (e : Entry), es[k]? = some e →
          (∀ p, e.hdu = .primary p → r.hdus[k]? = some (.primary p)) ∧
          (∀ t, e.hdu = .ascii t → ∃ d, r.hdus[k]? = some (.ascii { t with data := d }) ∧ d.length = t.data.length ∧
            ∀ name ∈ t.cols.map (·.name), ∀ row < t.data.length, ((Obj.fresh t.cols d : Obj (asciiFamily F G)).read name (tyA k name) row).2 =
              ((initialArrays (tyA k) t.cols t.data : Arrays (asciiFamily F G) _).run (columnNumber t.cols) t.data.length (asciiOps k ops)).1.val name row) ∧
          (∀ t, e.hdu = .binary t → ∃ d, r.hdus[k]? = some (.binary { t with data := d }) ∧ d.length = t.data.length ∧
            ∀ name ∈ t.cols.map (·.name), ∀ row < t.data.length, ((Obj.fresh t.cols d : Obj binFamily).read name (tyB k name) row).2 =
              ((initialArrays (tyB k) t.cols t.data : Arrays binFamily _).run (columnNumber t.cols) t.data.length (binaryOps k ops)).1.val name row)) := by
  obtain ⟨q, hq, _⟩ := hf
  have hc : ∀ e ∈ es, Complete F content e := chain_mem hq
  have hget : ∀ k : Nat, ((sessionRun ((es.map (·.hdu)).map Live.ofHdu) ops).1.map Live.hdu)[k]? =
      es[k]?.map fun e => ((Live.ofHdu e.hdu : Live F G).after (asciiOps k ops) (binaryOps k ops)).hdu := by
    intro k
    rw [List.getElem?_map, session_hdu]
    simp only [List.getElem?_map, Option.map_map]
    rfl
  have hready : ∀ x ∈ (sessionRun ((es.map (·.hdu)).map Live.ofHdu) ops).1.map Live.hdu, ∃ h, Ready F h x := by
    intro x hx
    obtain ⟨k, hk⟩ := List.mem_iff_getElem?.1 hx
    rw [hget k] at hk
    cases he : es[k]? with
    | none => rw [he] at hk; cases hk
    | some e =>
      rw [he] at hk
      have hx : ((Live.ofHdu e.hdu : Live F G).after (asciiOps k ops) (binaryOps k ops)).hdu = x := Option.some.inj hk
      have hm := List.mem_iff_getElem?.2 ⟨k, he⟩
      have hke : (es.map (·.hdu))[k]? = some e.hdu := by rw [List.getElem?_map, he]; rfl
      obtain ⟨fuel, s', hh⟩ := (hc e hm).header
      obtain ⟨h1, hn, hcon⟩ := (hc e hm).built
      have hfe := hfit e hm
      refine ⟨e.header, ⟨fuel, _, s', rfl, hh⟩, ⟨h1, e.name, _, e.hdu, hn, hcon, ?_⟩, ?_⟩
      · rw [← hx]
        cases hu : e.hdu with
        | blank => rw [hu] at hfe; exact absurd hfe id
        | primary p => exact ⟨p.data.img.data, rfl⟩
        | ascii t => exact ⟨_, rfl⟩
        | binary t => exact ⟨_, rfl⟩
      · rw [← hx]
        cases hu : e.hdu with
        | blank => rw [hu] at hfe; exact absurd hfe id
        | primary p => rw [hu] at hfe; exact hfe
        | ascii t =>
          rw [hu] at hfe hke
          have hg := asciiOps_fine hke hops
          exact ascii_fits (built_layout (hc e hm).built (Or.inl hu)) hfe _ (fun op ho => (hg op ho).1) (fun op ho => (hg op ho).2.2)
        | binary t =>
          rw [hu] at hfe hke
          have hg := binaryOps_fine hke hops
          exact binary_fits (built_layout (hc e hm).built (Or.inr hu)) hfe _ (fun op ho => (hg op ho).1) (fun op ho => (hg op ho).2.2)
  obtain ⟨s, hs, hopen⟩ := C31_write_open F _ hready
  refine ⟨s, hs, fun hb => ?_⟩
  obtain ⟨N, r, h1, h2⟩ := hopen hb
  have hr : ∀ k : Nat, r.hdus[k]? = es[k]?.map fun e => ((Live.ofHdu e.hdu : Live F G).after (asciiOps k ops) (binaryOps k ops)).hdu := by
    rw [h2]; exact hget
  refine ⟨N, r, h1, ?_, fun k e he => ⟨fun p hp => ?_, fun t ht => ?_, fun t ht => ?_⟩⟩
  · have hlen : ∀ (a : List Hdu) (b : List Entry), (∀ k : Nat, a[k]? = none ↔ b[k]? = none) → a.length = b.length := by
      intro a b h
      have h1 := (h a.length).1 (List.getElem?_eq_none (Nat.le_refl _))
      have h2 := (h b.length).2 (List.getElem?_eq_none (Nat.le_refl _))
      rw [List.getElem?_eq_none_iff] at h1 h2
      omega
    exact hlen _ _ fun k => by rw [hr k]; cases es[k]? <;> simp
  · rw [hr k, he, Option.map_some, hp]; rfl
  · have hm := List.mem_iff_getElem?.2 ⟨k, he⟩
    have hke : (es.map (·.hdu))[k]? = some (.ascii t) := by rw [List.getElem?_map, he, ← ht]; rfl
    have hg := asciiOps_fine hke hops
    have hl := built_layout (hc e hm).built (Or.inl ht)
    refine ⟨((Obj.fresh t.cols t.data : Obj (asciiFamily F G)).run (asciiOps k ops)).1.data, by rw [hr k, he, Option.map_some, ht]; rfl, ?_, ?_⟩
    · exact (C42_plain_arrays (Φ := asciiFamily F G) (ty := tyA k) t.cols t.data hl _ fun op ho => (hg op ho).1).2.1
    · exact fun name hname row hrow => fresh_read (Φ := asciiFamily F G) hl _ (fun op ho => (hg op ho).1) (fun op ho => ascii_storable (hg op ho).2.1) name hname row hrow
  · have hm := List.mem_iff_getElem?.2 ⟨k, he⟩
    have hke : (es.map (·.hdu))[k]? = some (.binary t) := by rw [List.getElem?_map, he, ← ht]; rfl
    have hg := binaryOps_fine hke hops
    have hl := built_layout (hc e hm).built (Or.inr ht)
    refine ⟨((Obj.fresh t.cols t.data : Obj binFamily).run (binaryOps k ops)).1.data, by rw [hr k, he, Option.map_some, ht]; rfl, ?_, ?_⟩
    · exact (C42_plain_arrays (Φ := binFamily) (ty := tyB k) t.cols t.data hl _ fun op ho => (hg op ho).1).2.1
    · exact fun name hname row hrow => fresh_read (Φ := binFamily) hl _ (fun op ho => (hg op ho).1) (fun op ho => bin_storable (hg op ho).2.1) name hname row hrow

theorem asciiOps_append (k : Nat) : ∀ (ops ops' : List (SOp F G tyA tyB)), asciiOps k (ops ++ ops') = asciiOps k ops ++ asciiOps k ops'
  | [], _ => rfl
  | .ascii j op :: ops, ops' => by
    simp only [asciiOps, List.cons_append]
    rw [asciiOps_append k ops ops']
    split <;> rfl
  | .binary j op :: ops, ops' => by
    simp only [asciiOps, List.cons_append]
    exact asciiOps_append k ops ops'

theorem binaryOps_append (k : Nat) : ∀ (ops ops' : List (SOp F G tyA tyB)), binaryOps k (ops ++ ops') = binaryOps k ops ++ binaryOps k ops'
  | [], _ => rfl
  | .binary j op :: ops, ops' => by
    simp only [binaryOps, List.cons_append]
    rw [binaryOps_append k ops ops']
    split <;> rfl
  | .ascii j op :: ops, ops' => by
    simp only [binaryOps, List.cons_append]
    exact binaryOps_append k ops ops'

theorem initial_read {Φ : Family} {ty : Str → Φ.Tag} {cols : List Column} {data : List (List Str)} (hl : Layout cols data) {name : Str}
    (hname : name ∈ cols.map (·.name)) (row : Nat) :
    ((Obj.fresh cols data : Obj Φ).read name (ty name) row).2 = (initialArrays ty cols data).val name row := by
  obtain ⟨c, hc⟩ := exists_column hname
  obtain ⟨o1, e1, _, _⟩ := read_agree (agree_initial (Φ := Φ) (ty := ty) hl) hc row
  rw [e1]

/-- **C125** What the session leaves in a cell of an ASCII table: the value last written to it; what was read from the old file if none was. -/
theorem C125_last_ascii (t : Table) (hl : Layout t.cols t.data) (k : Nat) (name : Str) (row : Nat) :
    (∀ (before after : List (SOp F G tyA tyB)) (x : AsciiTag.El (tyA k name)), (∀ op ∈ asciiOps k after, ¬ VOp.Changes name row op) →
      ((initialArrays (tyA k) t.cols t.data : Arrays (asciiFamily F G) _).run (columnNumber t.cols) t.data.length
        (asciiOps k (before ++ .ascii k (.write name row x) :: after))).1.val name row = .ok x) ∧
    (∀ ops : List (SOp F G tyA tyB), name ∈ t.cols.map (·.name) → (∀ op ∈ asciiOps k ops, ¬ VOp.Changes name row op) →
      ((initialArrays (tyA k) t.cols t.data : Arrays (asciiFamily F G) _).run (columnNumber t.cols) t.data.length (asciiOps k ops)).1.val name row =
        ((Obj.fresh t.cols t.data : Obj (asciiFamily F G)).read name (tyA k name) row).2) := by
  refine ⟨fun before after x hno => ?_, fun ops hname hno => ?_⟩
  · rw [asciiOps_append]
    have : asciiOps k (.ascii k (.write name row x) :: after) = .write name row x :: asciiOps k after := by simp only [asciiOps, dif_pos]
    rw [this]
    exact val_written (Φ := asciiFamily F G) _ _ name row x _ _ hno _
  · rw [val_kept (Φ := asciiFamily F G) _ _ name row _ hno]
    exact (initial_read (Φ := asciiFamily F G) (ty := tyA k) hl hname row).symm

/-- **C125** The same for binary tables. -/
theorem C125_last_binary (t : Table) (hl : Layout t.cols t.data) (k : Nat) (name : Str) (row : Nat) :
    (∀ (before after : List (SOp F G tyA tyB)) (x : BinTag.El (tyB k name)), (∀ op ∈ binaryOps k after, ¬ VOp.Changes name row op) →
      ((initialArrays (tyB k) t.cols t.data : Arrays binFamily _).run (columnNumber t.cols) t.data.length
        (binaryOps k (before ++ .binary k (.write name row x) :: after))).1.val name row = .ok x) ∧
    (∀ ops : List (SOp F G tyA tyB), name ∈ t.cols.map (·.name) → (∀ op ∈ binaryOps k ops, ¬ VOp.Changes name row op) →
      ((initialArrays (tyB k) t.cols t.data : Arrays binFamily _).run (columnNumber t.cols) t.data.length (binaryOps k ops)).1.val name row =
        ((Obj.fresh t.cols t.data : Obj binFamily).read name (tyB k name) row).2) := by
  refine ⟨fun before after x hno => ?_, fun ops hname hno => ?_⟩
  · rw [binaryOps_append]
    have : binaryOps k (.binary k (.write name row x) :: after) = .write name row x :: binaryOps k after := by simp only [binaryOps, dif_pos]
    rw [this]
    exact val_written (Φ := binFamily) _ _ name row x _ _ hno _
  · rw [val_kept (Φ := binFamily) _ _ name row _ hno]
    exact (initial_read (Φ := binFamily) (ty := tyB k) hl hname row).symm

/-- **C125** An image taken from the file is a copy of the pixels of the primary HDU; other HDUs give bad_get, another pixel type is undefined behaviour. -/
theorem C125_image (x : Live F G) (b : Bitpix) :
    (∀ p, x = .primary p → (∀ im, x.image b = .ok im ↔ p.data = ⟨b, im⟩) ∧ (p.data.kind ≠ b → x.image b = .error .ub)) ∧
    ((∀ p, x ≠ .primary p) → x.image b = .error .badGet) := by
  refine ⟨?_, fun h => ?_⟩
  · rintro p rfl
    obtain ⟨hd, ⟨kind, img⟩, s, e⟩ := p
    refine ⟨fun im => ?_, fun hk => ?_⟩
    · simp only [Live.image, AnyImage.getData]
      by_cases hk : kind = b
      · subst hk; simp
      · simp only [dif_neg hk, reduceCtorEq, false_iff]; rintro h; cases h; exact hk rfl
    · simp only [Live.image, AnyImage.getData]
      exact dif_neg hk
  · cases x with
    | primary p => exact absurd rfl (h p)
    | _ => rfl

/-! ## Example: a number in the second column of a table is read, changed to 77 and saved -/

def exSheet : List Str :=
  [exCard b!"XTENSION= 'TABLE   '", exCard b!"BITPIX  =                    8", exCard b!"NAXIS   =                    2",
   exCard b!"NAXIS1  =                    6", exCard b!"NAXIS2  =                    2", exCard b!"PCOUNT  =                    0",
   exCard b!"GCOUNT  =                    1", exCard b!"EXTNAME = 'first   '", exCard b!"TFIELDS =                    2",
   exCard b!"TBCOL1  =                    1", exCard b!"TFORM1  = 'A3      '", exCard b!"TBCOL2  =                    4",
   exCard b!"TFORM2  = 'I3      '", exCard b!"TTYPE2  = 'NUM     '", exCard b!"END"]

def exSheetFile : Str := exBlock exPrimary.flatten ++ exBlock [0, 1, 255, 254] ++ exBlock exSheet.flatten ++ exBlock b!"ab   1c    2"

def exNoStream : StreamText := ⟨fun _ => [], fun _ => []⟩

def exSheetOps : List (SOp exNoFloats exNoStream (fun _ _ => .longlong) (fun _ _ => ⟨.byte, false⟩)) :=
  [.ascii 1 (.read b!"NUM" 1), .ascii 1 (.write b!"NUM" 0 (77 : BitVec 64)), .binary 1 (.read b!"NUM" 0), .ascii 2 (.read b!"NUM" 0)]

example : (match openWith exNoFloats 15 3 exSheetFile .entireHdus with
    | some (.ok r) => (match sessionRun (r.hdus.map Live.ofHdu) exSheetOps with
      | (live, [.ascii 1 (.ok (.value _ (.ok _))), .ascii 1 (.ok (.done (.ok ()))), .binary 1 (.error .badGet), .ascii 2 (.error .outOfRange)]) =>
        (match saveAll live with
        | .ok s => decide ((s.content.drop 8640).take 15 = b!" ab 77  c  2   ")
        | _ => false)
      | _ => false)
    | _ => false) = true := by
  decide +kernel

/-- The number 77 fits into this column of three characters, 7777 does not. -/
example : let cols : List Column := [⟨1, [], 1, b!"A3", [], none, none, [], [], [], 0⟩, ⟨2, b!"NUM", 4, b!"I3", [], none, none, [], [], [], 0⟩]
    SOp.Fine (F := exNoFloats) (G := exNoStream) (tyA := fun _ _ => .longlong) (tyB := fun _ _ => ⟨.byte, false⟩)
      [.blank, .ascii ⟨Header.empty, 1, 0, [], 2, cols, [[b!"ab", b!"1"], [b!"c", b!"2"]]⟩] (.ascii 1 (.write b!"NUM" 0 (77 : BitVec 64))) ∧
    FitsAscii cols b!"NUM" (asciiSer exNoStream .longlong (77 : BitVec 64)) ∧ ¬ FitsAscii cols b!"NUM" (asciiSer exNoStream .longlong (7777 : BitVec 64)) := by
  have hw : AsciiWidth b!"I3" 3 := ascii_columnSize_iff.1 (by decide +kernel)
  have h1 : FitsAscii [⟨1, [], 1, b!"A3", [], none, none, [], [], [], 0⟩, ⟨2, b!"NUM", 4, b!"I3", [], none, none, [], [], [], 0⟩] b!"NUM"
      (asciiSer exNoStream .longlong (77 : BitVec 64)) := by
    refine ⟨trim_eq_iff.1 (by decide +kernel), fun c w hc hcw => ?_⟩
    cases hc
    rw [asciiWidth_unique _ _ _ hcw hw]
    decide +kernel
  refine ⟨⟨_, rfl, ⟨by decide +kernel, by decide +kernel⟩, trivial, h1⟩, h1, fun h => ?_⟩
  have := h.2 _ 3 rfl hw
  revert this
  decide +kernel

/-! ## Example: the hypotheses of `C125_save` are met, and 77 is in the new file -/

/-- A file with this table only. -/
def exOneSheet : Str := exBlock exSheet.flatten ++ exBlock b!"ab   1c    2"

theorem exOneSheet_file : ∃ e t c d, FileOf exNoFloats exOneSheet [e] ∧ e.hdu = .ascii t ∧ t.cols = [c, d] ∧ d.name = b!"NUM" ∧ d.format = b!"I3" ∧
    Table.columnMetadata t.cols b!"NUM" = .ok d ∧ t.data.length = 2 ∧ Layout t.cols t.data ∧ DataFits e.header e.hdu := by
  have h1 : (match readEntire exNoFloats 15 2 (openFile exOneSheet) with
    | some (.ok r) => (match r.hdus with
      | [.ascii t] => (match t.cols with
        | [c, d] => decide (c.format = b!"A3" ∧ c.start = 1 ∧ c.name = [] ∧ d.format = b!"I3" ∧ d.start = 4 ∧ d.name = b!"NUM" ∧
            t.data = [[b!"ab", b!"1"], [b!"c", b!"2"]])
        | _ => false)
      | _ => false)
    | _ => false) = true := by decide +kernel
  have h2 : (match readHeader exNoFloats 15 Header.empty { Stream.openRead exOneSheet with pos := 0 } with
    | some (.ok (h, _)) => decide (h.naxis = [6, 2] ∧ h.bitpix = some .B8)
    | _ => false) = true := by decide +kernel
  have hlen : exOneSheet.length + 5760 < 2 ^ 63 := by decide +kernel
  generalize exOneSheet = file at *
  split at h1
  next r hr =>
    split at h1
    next t ht =>
      split at h1
      next c d hcd =>
        obtain ⟨a1, a2, a3, a4, a5, a6, a7⟩ := of_decide_eq_true h1
        obtain ⟨es, f1, f2⟩ := (C31_open_iff exNoFloats file hlen r.hdus).1 ⟨15, 2, r, hr, rfl⟩
        rw [ht] at f2
        obtain ⟨e, rfl⟩ : ∃ e, es = [e] := List.length_eq_one_iff.1 (by simpa using (congrArg List.length f2).symm)
        simp only [List.map_cons, List.map_nil, List.cons.injEq, and_true] at f2
        have hcomp := f1
        obtain ⟨q, ⟨c1, c2, _⟩, _⟩ := hcomp
        refine ⟨e, t, c, d, f1, f2.symm, hcd, a6, a4, ?_, by rw [a7]; rfl, built_layout c2.built (Or.inl f2.symm), ?_⟩
        · rw [hcd]; simp [Table.columnMetadata, a3, a6]
        split at h2
        next h s' hh =>
          obtain ⟨hn, hb⟩ := of_decide_eq_true h2
          obtain ⟨fuel, s2, c3⟩ := c2.header
          rw [c1] at c3
          have a := readHeader_mono hh fuel
          have b := readHeader_mono c3 15
          rw [Nat.add_comm, b] at a
          simp only [Option.some.injEq, Except.ok.injEq, Prod.mk.injEq] at a
          rw [← f2, a.1]
          refine ⟨[3, 3], ?_, hb, by rw [hn, a7]; rfl, by simp, by rw [a7]; simp, by simp, ?_, ?_⟩
          · rw [hcd]
            simp only [List.map_cons, List.map_nil, a1, a4]
            exact ⟨ascii_columnSize_iff.1 (by decide +kernel), ascii_columnSize_iff.1 (by decide +kernel), trivial⟩
          · rw [hcd]
            rintro (_ | _ | j) x hx
            · cases hx; exact a2
            · cases hx; exact a5
            · simp at hx
          · rw [a7]
            have hx : ∀ x ∈ [b!"ab", b!"1", b!"c", b!"2"], x.length ≤ 3 ∧ NoOuterWhite x := fun x hx => by
              refine ⟨?_, trim_eq_iff.1 ?_⟩ <;> revert x <;> decide +kernel
            intro row hr
            have hw : ∀ (j w : Nat), [3, 3][j]? = some w → w = 3 := by
              rintro (_ | _ | j) w h <;> simp at h <;> exact h.symm
            have hsub : ∀ x ∈ row, x ∈ [b!"ab", b!"1", b!"c", b!"2"] := by revert row; decide +kernel
            refine ⟨by revert row; decide +kernel, fun j x w h3 h4 => ?_, fun x h => (hx x (hsub x h)).2⟩
            rw [hw j w h4]
            exact (hx x (hsub x (List.mem_of_getElem? h3))).1
        next => cases h2
      next => cases h1
    next => cases h1
  next => cases h1

/-- The file is opened, 77 is written to the first row of NUM, and the file is saved: the new file has this one table, with 77 in that place and the old number
in the second row. -/
example : ∃ e t s, FileOf exNoFloats exOneSheet [e] ∧ e.hdu = .ascii t ∧
    saveAll (sessionRun [Live.ofHdu e.hdu]
      ([.ascii 0 (.write b!"NUM" 0 (77 : BitVec 64))] : List (SOp exNoFloats exNoStream (fun _ _ => .longlong) (fun _ _ => ⟨.byte, false⟩)))).1 = .ok s ∧
    (s.content.length + 5760 < 2 ^ 63 → ∃ N r d, (∀ fuel n, N ≤ fuel → N ≤ n → openWith exNoFloats fuel n s.content .entireHdus = some (.ok r)) ∧
      r.hdus = [.ascii { t with data := d }] ∧
      ((Obj.fresh t.cols d : Obj (asciiFamily exNoFloats exNoStream)).read b!"NUM" .longlong 0).2 = .ok (77 : BitVec 64) ∧
      ((Obj.fresh t.cols d : Obj (asciiFamily exNoFloats exNoStream)).read b!"NUM" .longlong 1).2 =
        ((Obj.fresh t.cols t.data : Obj (asciiFamily exNoFloats exNoStream)).read b!"NUM" .longlong 1).2) := by
  obtain ⟨e, t, c, d, hf, ht, hcd, hn, hfm, hmeta, hrows, hl, hfit⟩ := exOneSheet_file
  have hmem : b!"NUM" ∈ t.cols.map (·.name) := by rw [hcd]; simp [hn]
  have hw : AsciiWidth b!"I3" 3 := ascii_columnSize_iff.1 (by decide +kernel)
  obtain ⟨s, hs, g⟩ := C125_save (F := exNoFloats) (G := exNoStream) (tyA := fun _ _ => .longlong) (tyB := fun _ _ => ⟨.byte, false⟩) exOneSheet [e] hf
    (by simpa using hfit) [.ascii 0 (.write b!"NUM" 0 (77 : BitVec 64))] (by
      intro op ho
      rw [List.mem_singleton] at ho
      subst ho
      refine ⟨t, by simp [ht], ⟨hmem, by omega⟩, trivial, trim_eq_iff.1 (by decide +kernel), fun c' w h1 h2 => ?_⟩
      rw [hmeta] at h1
      cases h1
      rw [hfm] at h2
      rw [asciiWidth_unique _ _ _ h2 hw]
      decide +kernel)
  refine ⟨e, t, s, hf, ht, hs, fun hb => ?_⟩
  obtain ⟨N, r, g1, g2, g3⟩ := g hb
  obtain ⟨_, g4, _⟩ := g3 0 e rfl
  obtain ⟨d', g5, g6, g7⟩ := g4 t ht
  obtain ⟨x, hx⟩ := List.length_eq_one_iff.1 g2
  rw [hx] at g5
  have hlast := C125_last_ascii (F := exNoFloats) (G := exNoStream) (tyA := fun _ _ => .longlong) (tyB := fun _ _ => ⟨.byte, false⟩) t hl 0 b!"NUM"
  refine ⟨N, r, d', g1, by rw [hx]; simpa using g5, ?_, ?_⟩
  · rw [g7 _ hmem 0 (by omega)]
    exact (hlast 0).1 [] [] (77 : BitVec 64) (fun op ho => by cases ho)
  · rw [g7 _ hmem 1 (by omega)]
    refine (hlast 1).2 _ hmem fun op ho => ?_
    simp only [asciiOps, dite_true, List.mem_singleton] at ho
    subst ho
    rintro ⟨_, h⟩
    cases h

end Astro
