import Verif.Spec.Session
import Verif.Props.FitsRoundTrip
import Verif.Props.TableNames
import Verif.Props.Cell

/-
Helper lemmas about sessions with an open file.
-/

namespace Astro

open Spec Header Reader

variable {F : FloatText} {G : StreamText} {tyA : Nat → Str → AsciiTag} {tyB : Nat → Str → BinTag}

/-- One statement. -/
def sessionStep (live : List (Live F G)) : SOp F G tyA tyB → List (Live F G) × SOut F G tyA tyB
  | .ascii k op => ((atHdu live k fun x => x.inAscii fun o => o.step op).1, .ascii k (atHdu live k fun x => x.inAscii fun o => o.step op).2)
  | .binary k op => ((atHdu live k fun x => x.inBinary fun o => o.step op).1, .binary k (atHdu live k fun x => x.inBinary fun o => o.step op).2)

/-- A program. -/
def sessionRun (live : List (Live F G)) : List (SOp F G tyA tyB) → List (Live F G) × List (SOut F G tyA tyB)
  | [] => (live, [])
  | op :: ops =>
    let (live1, out) := sessionStep live op
    let (live2, outs) := sessionRun live1 ops
    (live2, out :: outs)

section

variable {Φ : Family} {ty : Str → Φ.Tag}

theorem getColumn_cols (o : Obj Φ) (name : Str) (t : Φ.Tag) : (o.getColumn name t).1.cols = o.cols := by
  unfold Obj.getColumn
  split
  · split <;> rfl
  · split <;> rfl

theorem read_cols (o : Obj Φ) (name : Str) (t : Φ.Tag) (row : Nat) : (o.read name t row).1.cols = o.cols := by
  have h := getColumn_cols o name t
  unfold Obj.read
  split
  next o' e he => rw [he] at h; exact h
  next o' v he => rw [he] at h; exact h

theorem update_cols (o : Obj Φ) (name : Str) (t : Φ.Tag) (row : Nat) (x : Φ.El t) : (o.update name t row x).1.cols = o.cols := by
  have h := getColumn_cols o name t
  unfold Obj.update
  split
  next o' e he => rw [he] at h; exact h
  next o' v he =>
    rw [he] at h
    simp only
    split <;> exact h

theorem assign_cols (o : Obj Φ) (name : Str) (t : Φ.Tag) (row : Nat) (x : Φ.El t) : (o.assign name t row x).1.cols = o.cols := by
  have h := read_cols o name t row
  unfold Obj.assign
  split
  next o' e he => rw [he] at h; exact h
  next o' v he => rw [he] at h; rw [update_cols]; exact h

theorem iterateFrom_cols (name : Str) (t : Φ.Tag) : ∀ (n i : Nat) (o : Obj Φ), (Obj.iterateFrom name t n i o).1.cols = o.cols
  | 0, _, _ => rfl
  | n + 1, i, o => by
    have h := read_cols o name t i
    unfold Obj.iterateFrom
    split
    next o' e he => rw [he] at h; exact h
    next o' v he =>
      rw [he] at h
      have h2 := iterateFrom_cols name t n (i + 1) o'
      split
      next o'' e he2 => rw [he2] at h2; exact h2.trans h
      next o'' l he2 => rw [he2] at h2; exact h2.trans h

theorem iterate_cols (o : Obj Φ) (name : Str) (t : Φ.Tag) : (o.iterate name t).1.cols = o.cols := by
  have h := getColumn_cols o name t
  unfold Obj.iterate
  split
  next o' e he => rw [he] at h; exact h
  next o' v he => rw [he] at h; rw [iterateFrom_cols]; exact h

theorem step_cols (o : Obj Φ) (op : VOp Φ ty) : (o.step op).1.cols = o.cols := by
  cases op with
  | read n r => exact read_cols o n _ r
  | write n r x => exact update_cols o n _ r x
  | assign n r x => exact assign_cols o n _ r x
  | iterate n => exact iterate_cols o n _

theorem run_cols : ∀ (ops : List (VOp Φ ty)) (o : Obj Φ), (o.run ops).1.cols = o.cols
  | [], _ => rfl
  | op :: ops, o => by
    simp only [Obj.run]
    rw [run_cols ops, step_cols]

/-- What is stored after a number of operations was stored before or was written by one of them. -/
theorem texts_run (number : Str → Nat) (rows : Nat) (Q : Nat → Str → Prop) : ∀ (ops : List (VOp Φ ty)) (a : Arrays Φ ty),
    (∀ r i s, a.text r i = some s → Q i s) → (∀ op ∈ ops, VOp.Stores (fun name s => Q (number name) s) op) →
    ∀ r i s, (a.run number rows ops).1.text r i = some s → Q i s
  | [], _, h, _ => h
  | op :: ops, a, h, ho => by
    simp only [Arrays.run]
    refine texts_run number rows Q ops _ ?_ fun o hm => ho o (List.mem_cons_of_mem _ hm)
    have h1 := ho op List.mem_cons_self
    have hset : ∀ name row (x : Φ.El (ty name)), Q (number name) (Φ.ser (ty name) x) → ∀ r i s, (a.set number name row x).text r i = some s → Q i s := by
      intro name row x hq r i s e
      simp only [Arrays.set] at e
      split at e
      next hc => cases e; rw [hc.2]; exact hq
      next => exact h r i s e
    cases op with
    | read n r => exact h
    | iterate n => exact h
    | write n r x => exact hset n r x h1
    | assign n r x =>
      simp only [Arrays.step]
      split
      · exact hset n r x h1
      · exact h

/-- The rows of a table after a number of operations have the shape they had. -/
theorem rows_run {cols : List Column} {data : List (List Str)} (hl : Layout cols data) (ops : List (VOp Φ ty))
    (hv : ∀ op ∈ ops, op.Valid (cols.map (·.name)) data.length) (Q : Nat → Str → Prop)
    (hq : ∀ row ∈ data, ∀ (j : Nat) (s : Str), row[j]? = some s → Q (j + 1) s)
    (ho : ∀ op ∈ ops, VOp.Stores (fun name s => Q (columnNumber cols name) s) op) :
    Layout cols ((Obj.fresh cols data : Obj Φ).run ops).1.data ∧ ((Obj.fresh cols data : Obj Φ).run ops).1.data.length = data.length ∧
    ∀ row ∈ ((Obj.fresh cols data : Obj Φ).run ops).1.data, ∀ (j : Nat) (s : Str), row[j]? = some s → Q (j + 1) s := by
  obtain ⟨_, g2, g3⟩ := run_agree data.length ops (agree_initial (Φ := Φ) (ty := ty) hl) rfl hv
  refine ⟨g3.layout, g2, ?_⟩
  have ht := texts_run (columnNumber cols) data.length Q ops (initialArrays ty cols data) (by
    intro r i s e
    have e' := ((agree_initial (Φ := Φ) (ty := ty) hl).text r i s).1 e
    obtain ⟨h1, row, h2, h3⟩ := cellAt_ok.1 e'
    have := hq row (List.mem_iff_getElem?.2 ⟨r, h2⟩) (i - 1) s h3
    rwa [Nat.sub_add_cancel h1] at this) ho
  intro row hr j s hs
  obtain ⟨r, hr⟩ := List.mem_iff_getElem?.1 hr
  refine ht r (j + 1) s ((g3.text _ _ _).2 (cellAt_ok.2 ⟨by omega, row, hr, ?_⟩))
  rw [Nat.add_sub_cancel]; exact hs

end

/-! ### what a session does to each HDU -/

/-- An HDU that only some statements concern. -/
def Live.after (x : Live F G) (opsA : List (VOp (asciiFamily F G) ty)) {ty' : Str → BinTag} (opsB : List (VOp binFamily ty')) : Live F G :=
  match x with
  | .ascii t v => .ascii { t with data := ((⟨t.cols, t.data, v⟩ : Obj (asciiFamily F G)).run opsA).1.data }
      ((⟨t.cols, t.data, v⟩ : Obj (asciiFamily F G)).run opsA).1.views
  | .binary t v => .binary { t with data := ((⟨t.cols, t.data, v⟩ : Obj binFamily).run opsB).1.data } ((⟨t.cols, t.data, v⟩ : Obj binFamily).run opsB).1.views
  | y => y

theorem after_nil (x : Live F G) {ty : Str → AsciiTag} {ty' : Str → BinTag} : x.after (ty := ty) [] (ty' := ty') [] = x := by
  cases x <;> rfl

theorem with_cols {cols : List Column} {t : Table} (h : cols = t.cols) (d : List (List Str)) :
    ({ t with cols := cols, data := d } : Table) = { t with data := d } := by subst h; rfl

theorem after_ascii (x : Live F G) {ty : Str → AsciiTag} {ty' : Str → BinTag} (op : VOp (asciiFamily F G) ty) (opsA : List (VOp (asciiFamily F G) ty))
    (opsB : List (VOp binFamily ty')) : (x.inAscii fun o => o.step op).1.after opsA opsB = x.after (op :: opsA) opsB := by
  cases x with
  | ascii t v => exact congrArg (fun u => Live.ascii u _) (with_cols (step_cols (⟨t.cols, t.data, v⟩ : Obj (asciiFamily F G)) op) _)
  | _ => rfl

theorem after_binary (x : Live F G) {ty : Str → AsciiTag} {ty' : Str → BinTag} (op : VOp binFamily ty') (opsA : List (VOp (asciiFamily F G) ty))
    (opsB : List (VOp binFamily ty')) : (x.inBinary fun o => o.step op).1.after opsA opsB = x.after opsA (op :: opsB) := by
  cases x with
  | binary t v => exact congrArg (fun u => Live.binary u _) (with_cols (step_cols (⟨t.cols, t.data, v⟩ : Obj binFamily) op) _)
  | _ => rfl

theorem atHdu_get {β : Type} (live : List (Live F G)) (j : Nat) (f : Live F G → Live F G × Res β) (k : Nat) :
    (atHdu live (j : Int) f).1[k]? = if j = k then live[k]?.map (fun x => (f x).1) else live[k]? := by
  unfold atHdu
  rw [if_neg (by omega)]
  simp only [Int.toNat_natCast]
  cases hx : live[j]? with
  | none =>
    by_cases hjk : j = k
    · subst hjk; simp [hx]
    · simp [hjk]
  | some x =>
    simp only
    by_cases hjk : j = k
    · subst hjk
      have := (List.getElem?_eq_some_iff.1 hx).1
      rw [if_pos rfl, hx, List.getElem?_set_self this]; rfl
    · simp [hjk]

theorem atHdu_out {β : Type} (live : List (Live F G)) (j : Nat) (f : Live F G → Live F G × Res β) :
    (atHdu live (j : Int) f).2 = match live[j]? with | none => .error .outOfRange | some x => (f x).2 := by
  unfold atHdu
  rw [if_neg (by omega)]
  simp only [Int.toNat_natCast]
  cases hx : live[j]? <;> rfl

/-- Every HDU is changed by the statements that concern it, and by no others. -/
theorem session_hdu : ∀ (ops : List (SOp F G tyA tyB)) (live : List (Live F G)) (k : Nat),
    (sessionRun live ops).1[k]? = live[k]?.map fun x => x.after (asciiOps k ops) (binaryOps k ops)
  | [], live, k => by
    simp only [sessionRun, asciiOps, binaryOps]
    cases live[k]? with
    | none => rfl
    | some x => simp [after_nil]
  | .ascii j op :: ops, live, k => by
    simp only [sessionRun, sessionStep, asciiOps, binaryOps]
    rw [session_hdu ops, atHdu_get]
    by_cases hjk : j = k
    · subst hjk
      simp only [if_pos, dif_pos, Option.map_map]
      congr 1
      funext x
      exact after_ascii x op _ _
    · simp only [if_neg hjk, dif_neg hjk]
  | .binary j op :: ops, live, k => by
    simp only [sessionRun, sessionStep, asciiOps, binaryOps]
    rw [session_hdu ops, atHdu_get]
    by_cases hjk : j = k
    · subst hjk
      simp only [if_pos, dif_pos, Option.map_map]
      congr 1
      funext x
      exact after_binary x op _ _
    · simp only [if_neg hjk, dif_neg hjk]

theorem session_ascii_outs : ∀ (ops : List (SOp F G tyA tyB)) (live : List (Live F G)) (k : Nat) (t : Table) (v : Views (asciiFamily F G)),
    live[k]? = some (.ascii t v) →
    asciiOuts k (sessionRun live ops).2 = ((⟨t.cols, t.data, v⟩ : Obj (asciiFamily F G)).run (asciiOps k ops)).2.map .ok
  | [], live, k, t, v, h => rfl
  | .ascii j op :: ops, live, k, t, v, h => by
    simp only [sessionRun, sessionStep, asciiOps, asciiOuts]
    by_cases hjk : j = k
    · subst hjk
      have hg := atHdu_get live j (fun x => x.inAscii fun o => o.step op) j
      rw [if_pos rfl, h] at hg
      simp only [dif_pos, Obj.run, List.map_cons]
      exact List.cons_eq_cons.2 ⟨by rw [atHdu_out, h]; rfl, session_ascii_outs ops _ j _ _ hg⟩
    · have hg := atHdu_get live j (fun x => x.inAscii fun o => o.step op) k
      rw [if_neg hjk, h] at hg
      simp only [dif_neg hjk]
      exact session_ascii_outs ops _ k _ _ hg
  | .binary j op :: ops, live, k, t, v, h => by
    simp only [sessionRun, sessionStep, asciiOps, asciiOuts]
    have hg := atHdu_get live j (fun x => x.inBinary fun o => o.step op) k
    rw [h] at hg
    have : (atHdu live (j : Int) (fun x => x.inBinary fun o => o.step op)).1[k]? = some (.ascii t v) := by
      rw [hg]; split <;> rfl
    exact session_ascii_outs ops _ k _ _ this

theorem session_binary_outs : ∀ (ops : List (SOp F G tyA tyB)) (live : List (Live F G)) (k : Nat) (t : Table) (v : Views binFamily),
    live[k]? = some (.binary t v) →
    binaryOuts k (sessionRun live ops).2 = ((⟨t.cols, t.data, v⟩ : Obj binFamily).run (binaryOps k ops)).2.map .ok
  | [], live, k, t, v, h => rfl
  | .binary j op :: ops, live, k, t, v, h => by
    simp only [sessionRun, sessionStep, binaryOps, binaryOuts]
    by_cases hjk : j = k
    · subst hjk
      have hg := atHdu_get live j (fun x => x.inBinary fun o => o.step op) j
      rw [if_pos rfl, h] at hg
      simp only [dif_pos, Obj.run, List.map_cons]
      exact List.cons_eq_cons.2 ⟨by rw [atHdu_out, h]; rfl, session_binary_outs ops _ j _ _ hg⟩
    · have hg := atHdu_get live j (fun x => x.inBinary fun o => o.step op) k
      rw [if_neg hjk, h] at hg
      simp only [dif_neg hjk]
      exact session_binary_outs ops _ k _ _ hg
  | .ascii j op :: ops, live, k, t, v, h => by
    simp only [sessionRun, sessionStep, binaryOps, binaryOuts]
    have hg := atHdu_get live j (fun x => x.inAscii fun o => o.step op) k
    rw [h] at hg
    have : (atHdu live (j : Int) (fun x => x.inAscii fun o => o.step op)).1[k]? = some (.binary t v) := by
      rw [hg]; split <;> rfl
    exact session_binary_outs ops _ k _ _ this

/-! ### what fits before fits afterwards -/

theorem number_get {cols : List Column} {data : List (List Str)} (hl : Layout cols data) {name : Str} {c : Column}
    (hc : Table.columnMetadata cols name = .ok c) : 1 ≤ columnNumber cols name ∧ cols[columnNumber cols name - 1]? = some c := by
  obtain ⟨a, b, e, _, _⟩ := (C43_first cols name c).1 hc
  have hj : cols[a.length]? = some c := by rw [e]; simp
  have hi := hl.index _ c hj
  have hn : columnNumber cols name = c.index := by unfold columnNumber; rw [hc]
  rw [hn, hi]
  exact ⟨by omega, by rw [Nat.add_sub_cancel]; exact hj⟩

/-- The column exists. -/
def VOp.name' {Φ : Family} {ty : Str → Φ.Tag} : VOp Φ ty → Str
  | .read n _ => n
  | .write n _ _ => n
  | .assign n _ _ => n
  | .iterate n => n

theorem stores_number {Φ : Family} {ty : Str → Φ.Tag} {cols : List Column} {data : List (List Str)} (hl : Layout cols data) {W : Str → Nat → Prop}
    {ws : List Nat} (hw : Widths W (cols.map (·.format)) ws) (R : Nat → Nat → Prop) {op : VOp Φ ty} (hv : op.Valid (cols.map (·.name)) data.length)
    (hs : VOp.Stores (fun name s => NoOuterWhite s ∧ ∀ c w, Table.columnMetadata cols name = .ok c → W c.format w → R s.length w) op) :
    VOp.Stores (fun name s => NoOuterWhite s ∧ ∀ w, ws[columnNumber cols name - 1]? = some w → R s.length w) op := by
  have key : ∀ name s, name ∈ cols.map (·.name) →
      (NoOuterWhite s ∧ ∀ c w, Table.columnMetadata cols name = .ok c → W c.format w → R s.length w) →
      (NoOuterWhite s ∧ ∀ w, ws[columnNumber cols name - 1]? = some w → R s.length w) := by
    intro name s hn h
    obtain ⟨c, hc⟩ := exists_column hn
    refine ⟨h.1, fun w hw' => h.2 c w hc ?_⟩
    obtain ⟨_, g⟩ := number_get hl hc
    exact widths_get hw _ c.format w (by rw [List.getElem?_map, g]; rfl) hw'
  cases op with
  | read n r => trivial
  | iterate n => trivial
  | write n r x => exact key n _ hv.1 hs
  | assign n r x => exact key n _ hv.1 hs

end Astro
