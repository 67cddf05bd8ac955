import Verif.Spec.Cell
import Verif.Props.View
import Mathlib.Tactic.Ring

/-
Helper lemmas about typed cells.
-/

namespace Astro

open Spec Bin

theorem encodes1_iff : ∀ (t : BinScalar) (x : t.El) (s : Str), Encodes1 t x s ↔ s = binSer1 t x
  | .bool, v, s => by cases v <;> exact Iff.rfl
  | .int16, v, s => isBE_iff_serialize
  | .int32, v, s => isBE_iff_serialize
  | .float, v, s => isBE_iff_serialize
  | .double, v, s => isBE_iff_serialize
  | .pair, v, s => by
    constructor
    · rintro ⟨a, b, rfl, h1, h2⟩; rw [isBE_iff_serialize.1 h1, isBE_iff_serialize.1 h2]; rfl
    · rintro rfl; exact ⟨_, _, rfl, serialize_isBE _ _, serialize_isBE _ _⟩
  | .complexFloat, v, s => by
    constructor
    · rintro ⟨a, b, rfl, h1, h2⟩; rw [isBE_iff_serialize.1 h1, isBE_iff_serialize.1 h2]; rfl
    · rintro rfl; exact ⟨_, _, rfl, serialize_isBE _ _, serialize_isBE _ _⟩
  | .complexDouble, v, s => by
    constructor
    · rintro ⟨a, b, rfl, h1, h2⟩; rw [isBE_iff_serialize.1 h1, isBE_iff_serialize.1 h2]; rfl
    · rintro rfl; exact ⟨_, _, rfl, serialize_isBE _ _, serialize_isBE _ _⟩
  | .byte, v, s => Iff.rfl
  | .char, v, s => Iff.rfl

theorem binSerN_eq (t : BinScalar) (l : List t.El) : binSerN t l = serializeAll (binSer1 t) l := by
  cases t with
  | bool =>
    show serializeBools l = _
    induction l with
    | nil => rfl
    | cons x l ih =>
      rw [serializeAll_cons, ← ih]
      cases x <;> rfl
  | _ => rfl

theorem encodesN_iff (t : BinScalar) (l : List t.El) (s : Str) : EncodesN t l s ↔ s = binSerN t l := by
  rw [binSerN_eq]
  induction l generalizing s with
  | nil => exact Iff.rfl
  | cons x l ih =>
    rw [serializeAll_cons]
    constructor
    · rintro ⟨a, b, rfl, h1, h2⟩
      rw [(encodes1_iff t x a).1 h1, (ih b).1 h2]
    · rintro rfl
      exact ⟨_, _, rfl, (encodes1_iff t x _).2 rfl, (ih _).2 rfl⟩

theorem encodes1_length : ∀ {t : BinScalar} {x : t.El} {s : Str}, Encodes1 t x s → s.length = cellSize t
  | .bool, v, s, h => by cases v <;> (cases h; rfl)
  | .int16, v, s, h => h.1
  | .int32, v, s, h => h.1
  | .float, v, s, h => h.1
  | .double, v, s, h => h.1
  | .pair, v, s, ⟨a, b, e, h1, h2⟩ => by rw [e, List.length_append, h1.1, h2.1]; rfl
  | .complexFloat, v, s, ⟨a, b, e, h1, h2⟩ => by rw [e, List.length_append, h1.1, h2.1]; rfl
  | .complexDouble, v, s, ⟨a, b, e, h1, h2⟩ => by rw [e, List.length_append, h1.1, h2.1]; rfl
  | .byte, v, s, h => by cases h; rfl
  | .char, v, s, h => by cases h; rfl

theorem encodesN_length {t : BinScalar} : ∀ {l : List t.El} {s : Str}, EncodesN t l s → s.length = l.length * cellSize t
  | [], s, h => by cases h; simp
  | x :: l, s, ⟨a, b, e, h1, h2⟩ => by
    rw [e, List.length_append, encodes1_length h1, encodesN_length h2, List.length_cons, Nat.succ_mul]; omega

/-- A field that lost a byte cannot be completed by a zero byte to what it was. -/
theorem trim_no_zero {s s' : Str} (h : IsTrim s s') (hne : ¬ NoOuterWhite s) : s ≠ s' ++ [0] := by
  have hlt : s'.length < s.length := by
    have := (isTrim_iff.1 h)
    rw [← this]
    exact trim_shorter fun he => hne (trim_eq_iff.1 he)
  obtain ⟨a, b, e, ha, hb, _, _⟩ := h
  intro e2
  have hz : ¬ White 0 := by unfold White; decide
  have hl : a.length + b.length = 1 := by
    have h1 := congrArg List.length e
    have h2 := congrArg List.length e2
    simp only [List.length_append, List.length_singleton] at h1 h2
    omega
  rcases List.eq_nil_or_concat b with rfl | ⟨b', c, rfl⟩
  · obtain ⟨c, rfl⟩ : ∃ c, a = [c] := List.length_eq_one_iff.1 (by simpa using hl)
    simp only [List.append_nil] at e
    rw [e] at e2
    have : ∀ (l : Str), [c] ++ l = l ++ [0] → c = 0 := by
      intro l
      induction l with
      | nil => intro h; simpa using h
      | cons y l ih =>
        intro h
        simp only [List.cons_append, List.nil_append, List.cons.injEq] at h
        obtain ⟨rfl, h⟩ := h
        exact ih h
    exact hz (this _ e2 ▸ ha c (by simp))
  · have e3 := e.symm.trans e2
    have : c = 0 := by
      have := congrArg List.getLast? e3
      simpa [← List.append_assoc] using this
    exact hz (this ▸ hb c (by simp))

/-- What decoding a scalar reads. -/
theorem reads1 : ∀ {t : BinScalar} {x : t.El} {s : Str}, t ≠ .bool → binDeser1 t s = .ok x →
    cellSize t ≤ s.length + 1 ∧ Encodes1 t x ((s ++ [0]).take (cellSize t)) := by
  have num : ∀ (w : Nat) (x : BitVec (8 * w)) (s : Str), elementToNumeric w s = .ok x → w ≤ s.length + 1 ∧ IsBE w x ((s ++ [0]).take w) := by
    intro w x s h
    obtain ⟨h1, h2, _⟩ := C15_decode w s
    by_cases hl : w ≤ s.length + 1
    · obtain ⟨v, hv, hb⟩ := h2 hl
      rw [h] at hv; cases hv
      exact ⟨hl, by simp; omega, hb⟩
    · rw [h1 (by omega)] at h; cases h
  have cpx : ∀ (w : Nat) (x : BitVec (8 * w) × BitVec (8 * w)) (s : Str), elementToComplex w s = .ok x →
      2 * w ≤ s.length + 1 ∧ ∃ a b, (s ++ [0]).take (2 * w) = a ++ b ∧ IsBE w x.1 a ∧ IsBE w x.2 b := by
    intro w x s h
    by_cases hl : 2 * w ≤ s.length + 1
    · refine ⟨hl, (s ++ [0]).take w, ((s ++ [0]).drop w).take w, ?_, ?_⟩
      · rw [Nat.two_mul, List.take_add]
      · unfold elementToComplex at h
        rw [peek_ok (by omega), peek_ok (by omega)] at h
        cases h
        exact ⟨decode_isBE (by simp [cstr]; omega), decode_isBE (by simp [cstr]; omega)⟩
    · exfalso
      unfold elementToComplex at h
      rw [peek_error (off := w) (by omega)] at h
      by_cases h0 : w ≤ s.length + 1
      · rw [peek_ok (by omega)] at h; cases h
      · rw [peek_error (by omega)] at h; cases h
  have byt : ∀ (x : Byte) (s : Str), elementToByte s = .ok x → 1 ≤ s.length + 1 ∧ (s ++ [0]).take 1 = [x] := by
    intro x s h
    have := ((C15_byte s).1 x).1 h
    subst this
    exact ⟨by simp, rfl⟩
  intro t x s hb h
  cases t with
  | bool => exact absurd rfl hb
  | int16 => exact num 2 x s h
  | int32 => exact num 4 x s h
  | float => exact num 4 x s h
  | double => exact num 8 x s h
  | pair => exact cpx 4 x s h
  | complexFloat => exact cpx 4 x s h
  | complexDouble => exact cpx 8 x s h
  | byte => exact byt x s h
  | char => exact byt x s h

theorem encodesN_of_get {t : BinScalar} : ∀ {l : List t.El} {buf : Str},
    (∀ k (hk : k < l.length), Encodes1 t l[k] ((buf.drop (k * cellSize t)).take (cellSize t))) → EncodesN t l (buf.take (l.length * cellSize t)) := by
  intro l
  induction l with
  | nil => intro buf _; simp [EncodesN]
  | cons x l ih =>
    intro buf h
    refine ⟨buf.take (cellSize t), (buf.drop (cellSize t)).take (l.length * cellSize t), ?_, ?_, ih ?_⟩
    · rw [List.length_cons, Nat.succ_mul, Nat.add_comm, List.take_add]
    · have := h 0 (by simp)
      rw [Nat.zero_mul, List.drop_zero] at this
      exact this
    · intro k hk
      have := h (k + 1) (by simpa using hk)
      rw [Nat.succ_mul, Nat.add_comm (k * _)] at this
      rw [List.drop_drop]
      exact this

/-- What decoding an array reads. -/
theorem readsN : ∀ {t : BinScalar} {l : List t.El} {s : Str} {n : Nat}, t ≠ .bool → t ≠ .pair → binDeserN t s n = .ok l →
    l.length = n ∧ n * cellSize t ≤ s.length + 1 ∧ EncodesN t l ((s ++ [0]).take (n * cellSize t)) := by
  have lenAux : ∀ (w n k : Nat) (s : Str), n * w ≤ s.length + 1 → k < n → (((s ++ [0]).drop (k * w)).take w).length = w := by
    intro w n k s h hk
    have := Nat.mul_le_mul_right w hk
    rw [Nat.succ_mul] at this
    simp; omega
  have num : ∀ (w : Nat) (l : List (BitVec (8 * w))) (s : Str) (n : Nat), elementsToNumeric w s n = .ok l →
      l.length = n ∧ n * w ≤ s.length + 1 ∧ ∀ k (hk : k < l.length), IsBE w l[k] (((s ++ [0]).drop (k * w)).take w) := by
    intro w l s n h
    obtain ⟨h1, h2⟩ := C16_vector_decode w s n
    by_cases hl : n * w ≤ s.length + 1
    · obtain ⟨l', g1, g2, g3⟩ := h1 hl
      rw [h] at g1; cases g1
      exact ⟨g2, hl, fun k hk => ⟨lenAux w n k s hl (by omega), g3 k hk⟩⟩
    · rw [h2 (by omega)] at h; cases h
  have cpx : ∀ (w : Nat) (l : List (BitVec (8 * w) × BitVec (8 * w))) (s : Str) (n : Nat), elementsToComplex w s n = .ok l →
      l.length = n ∧ n * (2 * w) ≤ s.length + 1 ∧ ∀ k (hk : k < l.length), ∃ a b, ((s ++ [0]).drop (k * (2 * w))).take (2 * w) = a ++ b ∧
        IsBE w l[k].1 a ∧ IsBE w l[k].2 b := by
    intro w l s n h
    obtain ⟨h1, h2⟩ := C16_complex_vector_decode w s n
    rw [Nat.mul_comm w 2] at h1 h2
    by_cases hl : n * (2 * w) ≤ s.length + 1
    · obtain ⟨l', g1, g2, g3⟩ := h1 hl
      rw [h] at g1; cases g1
      refine ⟨g2, hl, fun k hk => ⟨((s ++ [0]).drop (2 * k * w)).take w, ((s ++ [0]).drop ((2 * k + 1) * w)).take w, ?_, ?_, ?_⟩⟩
      · rw [Nat.two_mul w, List.take_add, List.drop_drop]
        congr 2
        · congr 1; ring
        · congr 1; ring
      · refine ⟨lenAux w (2 * n) (2 * k) s ?_ (by omega), (g3 k hk).1⟩
        calc 2 * n * w = n * (2 * w) := by ring
          _ ≤ _ := hl
      · refine ⟨lenAux w (2 * n) (2 * k + 1) s ?_ (by omega), (g3 k hk).2⟩
        calc 2 * n * w = n * (2 * w) := by ring
          _ ≤ _ := hl
    · rw [h2 (by omega)] at h; cases h
  have byt : ∀ (l : List Byte) (s : Str) (n : Nat), elementsToByte s n = .ok l →
      l.length = n ∧ n * 1 ≤ s.length + 1 ∧ ∀ k (hk : k < l.length), ((s ++ [0]).drop (k * 1)).take 1 = [l[k]] := by
    intro l s n h
    obtain ⟨h1, h2⟩ := C16_bytes s n
    by_cases hl : n ≤ s.length
    · rw [h1 hl] at h
      cases h
      refine ⟨by simp; omega, by omega, ?_⟩
      intro k hk
      have hk' : k < s.length := by simp at hk; omega
      rw [Nat.mul_one, List.take_one]
      rw [List.head?_drop, List.getElem?_append_left hk', List.getElem?_eq_getElem hk']
      simp
    · rw [h2 (by omega)] at h; cases h
  intro t l s n hb hp h
  have fin : (l.length = n ∧ n * cellSize t ≤ s.length + 1 ∧
      ∀ k (hk : k < l.length), Encodes1 t l[k] (((s ++ [0]).drop (k * cellSize t)).take (cellSize t))) →
      l.length = n ∧ n * cellSize t ≤ s.length + 1 ∧ EncodesN t l ((s ++ [0]).take (n * cellSize t)) := by
    rintro ⟨h1, h2, h3⟩
    have := encodesN_of_get h3
    rw [h1] at this
    exact ⟨h1, h2, this⟩
  apply fin
  cases t with
  | bool => exact absurd rfl hb
  | pair => exact absurd rfl hp
  | int16 => exact num 2 l s n h
  | int32 => exact num 4 l s n h
  | float => exact num 4 l s n h
  | double => exact num 8 l s n h
  | complexFloat => exact cpx 4 l s n h
  | complexDouble => exact cpx 8 l s n h
  | byte => exact byt l s n h
  | char => exact byt l s n h

theorem deser1_ser1 : ∀ (t : BinScalar) (x : t.El), binDeser1 t (binSer1 t x) = .ok x
  | .bool, v => (C18_bool_round_trip v [] 1).1
  | .int16, v => C15_decode_encode 2 v
  | .int32, v => C15_decode_encode 4 v
  | .float, v => C15_decode_encode 4 v
  | .double, v => C15_decode_encode 8 v
  | .pair, v => by have := C17_single_pair v []; rw [List.append_nil] at this; exact this
  | .complexFloat, v => by have := C16_complex_round_trip 4 v []; rw [List.append_nil] at this; exact this
  | .complexDouble, v => by have := C16_complex_round_trip 8 v []; rw [List.append_nil] at this; exact this
  | .byte, v => ((C15_byte [v]).1 v).2 rfl
  | .char, v => ((C15_byte [v]).1 v).2 rfl

theorem deserN_serN (t : BinScalar) (ht : t ≠ .pair) (l : List t.El) : binDeserN t (binSerN t l) l.length = .ok l := by
  have byt : ∀ l : List Byte, elementsToByte (serializeAll (fun v : Byte => [v]) l) l.length = .ok l := by
    intro l
    have hs : serializeAll (fun v : Byte => [v]) l = l := by
      induction l with
      | nil => rfl
      | cons x l ih => rw [serializeAll_cons, ih]; rfl
    rw [hs, (C16_bytes l l.length).1 (by omega), List.take_length]
  cases t with
  | bool => exact (C18_bool_round_trip true l l.length).2
  | pair => exact absurd rfl ht
  | int16 => have := C16_vector_round_trip 2 l []; rw [List.append_nil] at this; exact this
  | int32 => have := C16_vector_round_trip 4 l []; rw [List.append_nil] at this; exact this
  | float => have := C16_vector_round_trip 4 l []; rw [List.append_nil] at this; exact this
  | double => have := C16_vector_round_trip 8 l []; rw [List.append_nil] at this; exact this
  | complexFloat => have := C16_complex_vector_round_trip 4 l []; rw [List.append_nil] at this; exact this
  | complexDouble => have := C16_complex_vector_round_trip 8 l []; rw [List.append_nil] at this; exact this
  | byte => exact byt l
  | char => exact byt l

theorem bool_clean : ∀ (l : List Bool), NoOuterWhite (binSerN .bool l) := by
  intro l
  have hm : ∀ c ∈ serializeBools l, ¬ White c := by
    intro c hc
    unfold serializeBools at hc
    obtain ⟨b, _, rfl⟩ := List.mem_map.1 hc
    cases b <;> (unfold White; decide)
  exact ⟨fun c hc => hm c (List.mem_of_mem_head? hc), fun c hc => hm c (List.mem_of_mem_getLast? hc)⟩

/-- Every array element is the decoded text. -/
def Coherent {Φ : Family} {ty : Str → Φ.Tag} (cols : List Column) (a : Arrays Φ ty) : Prop :=
  ∀ name c row s, Table.columnMetadata cols name = .ok c → a.text row c.index = some s → a.val name row = Φ.deser (ty name) s c.total

/-- Values that are written can be read back from their own text. -/
def VOp.Storable {Φ : Family} {ty : Str → Φ.Tag} (cols : List Column) : VOp Φ ty → Prop
  | .read _ _ => True
  | .iterate _ => True
  | .write name _ x => ∀ c, Table.columnMetadata cols name = .ok c → Φ.deser (ty name) (Φ.ser (ty name) x) c.total = .ok x
  | .assign name _ x => ∀ c, Table.columnMetadata cols name = .ok c → Φ.deser (ty name) (Φ.ser (ty name) x) c.total = .ok x

theorem coherent_set {Φ : Family} {ty : Str → Φ.Tag} {cols : List Column} {data : List (List Str)} (hl : Layout cols data) {a : Arrays Φ ty}
    (h : Coherent cols a) {name : Str} (hname : name ∈ cols.map (·.name)) (row : Nat) (x : Φ.El (ty name))
    (hx : ∀ c, Table.columnMetadata cols name = .ok c → Φ.deser (ty name) (Φ.ser (ty name) x) c.total = .ok x) :
    Coherent cols (a.set (columnNumber cols) name row x) := by
  intro n c r s hc ht
  obtain ⟨c0, hc0⟩ := exists_column hname
  have hnum : columnNumber cols name = c0.index := by simp only [columnNumber, hc0]
  simp only [Arrays.set, hnum] at ht ⊢
  by_cases hr : r = row ∧ c.index = c0.index
  · rw [if_pos hr] at ht
    have := name_of_index hl hc hc0 hr.2
    subst this
    rw [hc] at hc0; cases hc0
    rw [dif_pos rfl, if_pos hr.1]
    cases ht
    exact (hx c hc).symm
  · rw [if_neg hr] at ht
    have := h n c r s hc ht
    by_cases hn : n = name
    · subst hn
      rw [hc] at hc0; cases hc0
      rw [dif_pos rfl, if_neg fun h => hr ⟨h, rfl⟩]
      exact this
    · rw [dif_neg hn]; exact this

theorem coherent_run {Φ : Family} {ty : Str → Φ.Tag} {cols : List Column} {data : List (List Str)} (hl : Layout cols data) (rows : Nat) :
    ∀ (ops : List (VOp Φ ty)) (a : Arrays Φ ty), Coherent cols a → (∀ op ∈ ops, op.Valid (cols.map (·.name)) rows) →
      (∀ op ∈ ops, VOp.Storable cols op) → Coherent cols (a.run (columnNumber cols) rows ops).1 := by
  intro ops
  induction ops with
  | nil => intro a h _ _; exact h
  | cons op ops ih =>
    intro a h hv hst
    simp only [Arrays.run]
    refine ih _ ?_ (fun o ho => hv o (by simp [ho])) (fun o ho => hst o (by simp [ho]))
    have hv1 := hv op (by simp)
    have hs1 := hst op (by simp)
    cases op with
    | read name row => exact h
    | iterate name => exact h
    | write name row x => exact coherent_set hl h hv1.1 row x hs1
    | assign name row x =>
      simp only [Arrays.step]
      cases a.val name row with
      | error e => exact h
      | ok y => exact coherent_set hl h hv1.1 row x hs1

theorem coherent_initial {Φ : Family} {ty : Str → Φ.Tag} (cols : List Column) (data : List (List Str)) : Coherent cols (initialArrays (Φ := Φ) ty cols data) := by
  intro name c row s hc ht
  simp only [initialArrays, hc, decoded] at ht ⊢
  cases hx : cellAt data row c.index with
  | error e => rw [hx] at ht; cases ht
  | ok s' => rw [hx] at ht; cases ht; rfl

/-- Reading a fresh object over the data of a used one gives what the used one gives. -/
theorem reload_read {Φ : Family} {ty : Str → Φ.Tag} {cols : List Column} {data : List (List Str)} (hl : Layout cols data) (ops : List (VOp Φ ty))
    (hv : ∀ op ∈ ops, op.Valid (cols.map (·.name)) data.length) (hst : ∀ op ∈ ops, VOp.Storable cols op) (name : Str) (hname : name ∈ cols.map (·.name))
    (row : Nat) (hr : row < data.length) :
    ((Obj.fresh cols ((Obj.fresh cols data : Obj Φ).run ops).1.data : Obj Φ).read name (ty name) row).2 =
      (((Obj.fresh cols data : Obj Φ).run ops).1.read name (ty name) row).2 := by
  obtain ⟨_, g2, g3⟩ := run_agree data.length ops (agree_initial (Φ := Φ) (ty := ty) hl) rfl hv
  obtain ⟨c, hc⟩ := exists_column hname
  obtain ⟨o1, e1, _, _⟩ := read_agree (agree_initial (Φ := Φ) (ty := ty) g3.layout) hc row
  obtain ⟨o2, e2, _, _⟩ := read_agree g3 hc row
  rw [e1, e2]
  simp only
  have hco := coherent_run hl data.length ops _ (coherent_initial (Φ := Φ) (ty := ty) cols data) hv hst
  obtain ⟨s, hs⟩ := cellAt_total g3.layout hc (row := row) (by rw [g2]; exact hr)
  rw [hco name c row s hc ((g3.text _ _ _).2 hs)]
  simp only [initialArrays, hc, decoded, hs]

/-- Rows of cells of the right widths without outer white space are found again. -/
theorem bin_reparse (t : Table) (ws : List Nat) (hw : Widths BinWidth (t.cols.map (·.format)) ws) (hne : t.cols ≠ []) (hd : t.data ≠ [])
    (hrow : ∀ row ∈ t.data, row.map List.length = ws ∧ ∀ x ∈ row, NoOuterWhite x) (rest : Str) :
    BinTable.tableData ((BinTable.rowTexts t).flatten ++ rest) t.data.length t.cols = .ok t.data := by
  have hfold : ∀ (l : List Str) (a : Str), l.foldl (fun a s => a ++ s) a = a ++ l.flatten := by
    intro l
    induction l with
    | nil => intro a; simp
    | cons x l ih => intro a; rw [List.foldl_cons, ih]; simp
  have htext : BinTable.rowTexts t = t.data.map List.flatten := by
    unfold BinTable.rowTexts
    apply List.map_congr_left
    intro r _
    rw [hfold]; simp
  have hlen : ws.length = t.cols.length := by rw [widths_length hw, List.length_map]
  have hall : (t.data.map List.flatten).map List.length = List.replicate t.data.length ws.sum := by
    apply List.eq_replicate_iff.2
    refine ⟨by simp, ?_⟩
    intro l hl
    simp only [List.mem_map] at hl
    obtain ⟨_, ⟨row, hr, rfl⟩, rfl⟩ := hl
    rw [List.length_flatten, (hrow row hr).1]
  have hflat : (t.data.map List.flatten).flatten.length = t.data.length * ws.sum := by
    rw [List.length_flatten, hall, List.sum_replicate_nat]
  rw [htext, C38_table]
  refine .inr ⟨List.length_pos_iff.2 hd, hne, ws, hw, by rw [List.length_append, hflat]; omega, rfl, ?_⟩
  intro r row hr
  obtain ⟨g1, g2⟩ := hrow row (List.mem_of_getElem? hr)
  refine ⟨by rw [← hlen, ← g1, List.length_map], ?_⟩
  intro j w y hw' hy
  refine ⟨y, ?_, isTrim_iff.2 (trim_eq_iff.2 (g2 y (List.mem_of_getElem? hy)))⟩
  have hrowf := field_flatten (t.data.map List.flatten) r row.flatten [] rest (by rw [List.getElem?_map, hr]; rfl)
  have hrlt := (List.getElem?_eq_some_iff.1 hr).1
  have hfsr : fieldStart (List.replicate t.data.length ws.sum) r = r * ws.sum := by
    unfold fieldStart
    rw [List.take_replicate, List.sum_replicate_nat, Nat.min_eq_left (by omega)]
  rw [hall, hfsr] at hrowf
  simp only [List.nil_append, List.length_nil, Nat.zero_add] at hrowf
  have hcell := field_flatten row j y [] [] hy
  rw [g1] at hcell
  simp only [List.nil_append, List.append_nil, List.length_nil, Nat.zero_add] at hcell
  have hyw : y.length = w := by
    rw [← g1, List.getElem?_map, hy] at hw'
    simpa using hw'
  obtain ⟨a, b, c1, c2, _⟩ := hrowf
  obtain ⟨a', b', c3, c4, c5⟩ := hcell
  refine ⟨a ++ a', b' ++ b, ?_, by rw [List.length_append, c2, c4], by rw [hyw]⟩
  rw [c1]
  conv => lhs; rw [c3]
  simp only [List.append_assoc]

end Astro
