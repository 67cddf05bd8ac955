import Verif.Lemmas.Fits
import Verif.Props.Header
import Mathlib.Data.List.Dedup

/-
Properties C31 and C33: opening a file and finding its HDUs.
-/

namespace Astro

open Spec Header Reader

/-! ## C31 -/

/-- **C31** Opening a file succeeds with the HDUs `hdus` exactly when the file is a chain of complete HDUs which are these. -/
theorem C31_open_iff (F : FloatText) (content : Str) (hb : content.length + 5760 < 2 ^ 63) (hdus : List Hdu) :
    (∃ fuel n r, readEntire F fuel n (openFile content) = some (.ok r) ∧ r.hdus = hdus) ↔
      ∃ es, FileOf F content es ∧ hdus = es.map (·.hdu) := by
  constructor
  · rintro ⟨fuel, n, r, e, rfl⟩
    obtain ⟨es, q, h1, h2, h3⟩ := readEntire_ok hb n 0 _ _ rfl e
    refine ⟨es, ⟨q, h1, h2⟩, ?_⟩
    rw [h3]
    simp [openFile]
  · rintro ⟨es, ⟨q, h1, h2⟩, rfl⟩
    obtain ⟨N, h3⟩ := readEntire_chain hb es 0 q h1
    refine ⟨N, 1 + es.length, ⟨{ rd content q with eof := true }, es.map (·.hdu), addInfos [] 0 es⟩, ?_, rfl⟩
    rw [h3 N (Nat.le_refl _) 1 (openFile content) rfl, readEntire_end (n := 0) h2 rfl]
    simp [openFile]

/-- **C31** The outcome does not depend on how many turns are allowed, once there are enough. -/
theorem C31_open_total (F : FloatText) (content : Str) (hb : content.length + 5760 < 2 ^ 63) (es : List Entry) (h : FileOf F content es) :
    ∃ N r, (∀ fuel n, N ≤ fuel → N ≤ n → readEntire F fuel n (openFile content) = some (.ok r)) ∧ r.hdus = es.map (·.hdu) := by
  obtain ⟨q, h1, h2⟩ := h
  obtain ⟨N, h3⟩ := readEntire_chain hb es 0 q h1
  refine ⟨max N (1 + es.length), ⟨{ rd content q with eof := true }, es.map (·.hdu), addInfos [] 0 es⟩, ?_, rfl⟩
  intro fuel n hf hn
  obtain ⟨k, hk⟩ : ∃ k, n = (k + 1) + es.length := ⟨n - 1 - es.length, by omega⟩
  rw [hk, h3 fuel (by omega) (k + 1) (openFile content) rfl, readEntire_end h2 rfl]
  simp [openFile]

/-! ## C33 -/

/-- The entry of the control block for a name. -/
def lookup (m : List (Str × Info)) (name : Str) : Option Info := (m.find? fun p => p.1 == name).map (·.2)

theorem lookup_setInfo (m : List (Str × Info)) (a b : Str) (i : Info) :
    lookup (setInfo m a i) b = if b = a then some i else lookup m b := by
  unfold setInfo
  by_cases hany : m.any (fun p => p.1 == a) = true
  · rw [if_pos hany]
    induction m with
    | nil => simp at hany
    | cons p m ih =>
      unfold lookup at *
      rw [List.map_cons, List.find?_cons, List.find?_cons]
      by_cases hp : p.1 = a
      · rw [if_pos hp]
        by_cases hb : b = a
        · subst hb; simp
        · have h1 : (a == b) = false := beq_eq_false_iff_ne.2 (fun h => hb h.symm)
          have h2 : (p.1 == b) = false := by rw [hp]; exact h1
          simp only [h1, h2, if_neg hb]
          by_cases hrest : m.any (fun p => p.1 == a) = true
          · have := ih hrest
            rw [if_neg hb] at this
            exact this
          · have : m.map (fun p => if p.1 = a then (a, i) else p) = m := by
              conv => rhs; rw [← List.map_id m]
              apply List.map_congr_left
              intro x hx
              rw [if_neg]
              · rfl
              · intro hxa
                exact hrest (List.any_eq_true.2 ⟨x, hx, by rw [hxa]; simp⟩)
            rw [this]
      · rw [if_neg hp]
        have hrest : m.any (fun p => p.1 == a) = true := by
          rw [List.any_cons, beq_eq_false_iff_ne.2 hp, Bool.false_or] at hany
          exact hany
        by_cases hb : (p.1 == b) = true
        · have : b ≠ a := by intro h; rw [h] at hb; exact hp (eq_of_beq hb)
          simp only [hb, if_neg this]
        · rw [Bool.not_eq_true] at hb
          simp only [hb]
          exact ih hrest
  · rw [if_neg hany]
    unfold lookup
    rw [List.find?_append]
    by_cases hb : b = a
    · subst hb
      have : m.find? (fun p => p.1 == b) = none := by
        rw [List.find?_eq_none]
        intro x hx hxb
        exact hany (List.any_eq_true.2 ⟨x, hx, hxb⟩)
      rw [this]; simp
    · have h1 : (a == b) = false := beq_eq_false_iff_ne.2 (fun h => hb h.symm)
      rw [if_neg hb]
      simp [h1]

theorem addInfos_lookup : ∀ (es : List Entry) (m : List (Str × Info)) (k : Nat) (name : Str),
    (∀ (i : Nat) (e : Entry), es[i]? = some e → LastOf (es.map (·.name)) name i → lookup (addInfos m k es) name = some ⟨e.loc, e.dataLoc, k + i⟩) ∧
    (name ∉ es.map (·.name) → lookup (addInfos m k es) name = lookup m name) := by
  intro es
  induction es with
  | nil => intro m k name; exact ⟨fun i e h => by simp at h, fun _ => rfl⟩
  | cons a es ih =>
    intro m k name
    obtain ⟨ih1, ih2⟩ := ih (setInfo m a.name ⟨a.loc, a.dataLoc, k⟩) (k + 1) name
    constructor
    · intro i e he hl
      obtain ⟨l1, l2⟩ := hl
      cases i with
      | zero =>
        simp only [List.getElem?_cons_zero, Option.some.injEq] at he
        subst he
        simp only [List.map_cons, List.getElem?_cons_zero, Option.some.injEq] at l1
        have hno : name ∉ es.map (·.name) := by
          intro hm
          obtain ⟨j, hj⟩ := List.getElem?_of_mem hm
          exact l2 (j + 1) (by omega) (by simpa using hj)
        rw [addInfos, ih2 hno, lookup_setInfo, if_pos l1.symm]
        rfl
      | succ i =>
        have := ih1 i e (by simpa using he) ⟨by simpa using l1, fun j hj => by
          have := l2 (j + 1) (by omega)
          simpa using this⟩
        rw [addInfos, this, Nat.add_assoc, Nat.add_comm 1 i]
    · intro hno
      simp only [List.map_cons, List.mem_cons, not_or] at hno
      rw [addInfos, ih2 hno.2, lookup_setInfo, if_neg hno.1]

theorem setInfo_names (m : List (Str × Info)) (a : Str) (i : Info) (hn : (m.map (·.1)).Nodup) :
    ((setInfo m a i).map (·.1)).Nodup ∧ ∀ x, x ∈ (setInfo m a i).map (·.1) ↔ x ∈ m.map (·.1) ∨ x = a := by
  unfold setInfo
  by_cases hany : m.any (fun p => p.1 == a) = true
  · rw [if_pos hany]
    have e : (m.map fun p => if p.1 = a then (a, i) else p).map (·.1) = m.map (·.1) := by
      rw [List.map_map]
      apply List.map_congr_left
      intro p _
      simp only [Function.comp]
      split
      · rename_i h; exact h.symm
      · rfl
    rw [e]
    refine ⟨hn, fun x => ⟨Or.inl, ?_⟩⟩
    rintro (h | rfl)
    · exact h
    · obtain ⟨p, hp, hpx⟩ := List.any_eq_true.1 hany
      exact List.mem_map.2 ⟨p, hp, eq_of_beq hpx⟩
  · rw [if_neg hany]
    have hno : a ∉ m.map (·.1) := by
      intro h
      obtain ⟨p, hp, rfl⟩ := List.mem_map.1 h
      exact hany (List.any_eq_true.2 ⟨p, hp, by simp⟩)
    rw [List.map_append]
    refine ⟨?_, fun x => by simp⟩
    rw [List.nodup_append]
    refine ⟨hn, by simp, ?_⟩
    intro x hx y hy
    simp only [List.map_cons, List.map_nil, List.mem_singleton] at hy
    rintro rfl
    exact hno (hy ▸ hx)

theorem addInfos_names : ∀ (es : List Entry) (m : List (Str × Info)) (k : Nat), (m.map (·.1)).Nodup →
    ((addInfos m k es).map (·.1)).Nodup ∧ ∀ x, x ∈ (addInfos m k es).map (·.1) ↔ x ∈ m.map (·.1) ∨ x ∈ es.map (·.name) := by
  intro es
  induction es with
  | nil => intro m k h; exact ⟨h, fun x => by simp [addInfos]⟩
  | cons e es ih =>
    intro m k h
    obtain ⟨h1, h2⟩ := setInfo_names m e.name ⟨e.loc, e.dataLoc, k⟩ h
    obtain ⟨h3, h4⟩ := ih _ (k + 1) h1
    refine ⟨h3, fun x => ?_⟩
    rw [addInfos, h4, h2]
    simp only [List.map_cons, List.mem_cons]
    rw [or_assoc]

/-- **C33** Access by index: the i-th HDU of the list; everything else, negative numbers included, is out of range. -/
theorem C33_index (r : Reader) (i : Int) :
    (∀ (k : Nat) (h : Hdu), i = k → r.hdus[k]? = some h → r.at' i = .ok h) ∧
    (i < 0 ∨ (r.hdus.length : Int) ≤ i → r.at' i = .error .outOfRange) := by
  unfold Reader.at'
  constructor
  · rintro k h rfl hk
    rw [if_neg (by omega), Int.toNat_natCast, hk]
  · intro h
    by_cases h0 : i < 0
    · rw [if_pos h0]
    · rw [if_neg h0, List.getElem?_eq_none (by omega)]

/-- **C33** After opening a file, access by name gives the last HDU that has the name, and an unknown name is out of range. -/
theorem C33_name (F : FloatText) (content : Str) (hb : content.length + 5760 < 2 ^ 63) (fuel n : Nat) (r : Reader)
    (e : readEntire F fuel n (openFile content) = some (.ok r)) :
    ∃ es, FileOf F content es ∧ r.hdus = es.map (·.hdu) ∧ ∀ name,
      (∀ (i : Nat) (en : Entry), es[i]? = some en → LastOf (es.map (·.name)) name i → r.byName name = .ok en.hdu) ∧
      (name ∉ es.map (·.name) → r.byName name = .error .outOfRange) := by
  obtain ⟨es, q, h1, h2, h3⟩ := readEntire_ok hb n 0 _ _ rfl e
  refine ⟨es, ⟨q, h1, h2⟩, by rw [h3]; simp [openFile], ?_⟩
  intro name
  obtain ⟨k1, k2⟩ := addInfos_lookup es [] 0 name
  have hr : r.infos = addInfos [] 0 es := by rw [h3]; rfl
  have hh : r.hdus = es.map (·.hdu) := by rw [h3]; simp [openFile]
  unfold Reader.byName
  rw [hr, hh]
  unfold lookup at k1 k2
  constructor
  · intro i en hi hl
    have := k1 i en hi hl
    cases hf : (addInfos [] 0 es).find? (fun p => p.1 == name) with
    | none => rw [hf] at this; cases this
    | some p =>
      rw [hf] at this
      obtain ⟨a, b⟩ := p
      simp only [Option.map_some, Option.some.injEq] at this
      subst this
      simp only [Nat.zero_add, List.getElem?_map, hi, Option.map_some]
  · intro hno
    have := k2 hno
    simp only [List.find?_nil, Option.map_none, Option.map_eq_none_iff] at this
    rw [this]

theorem lastOf_exists {l : List Str} {a : Str} (h : a ∈ l) : ∃ i, LastOf l a i := by
  induction l with
  | nil => cases h
  | cons b l ih =>
    by_cases hl : a ∈ l
    · obtain ⟨i, h1, h2⟩ := ih hl
      refine ⟨i + 1, by simpa using h1, fun j hj => ?_⟩
      obtain ⟨k, rfl⟩ : ∃ k, j = k + 1 := ⟨j - 1, by omega⟩
      simpa using h2 k (by omega)
    · have hb : a = b := by
        rcases List.mem_cons.1 h with h | h
        · exact h
        · exact absurd h hl
      refine ⟨0, by simp [hb], fun j hj he => ?_⟩
      obtain ⟨k, rfl⟩ : ∃ k, j = k + 1 := ⟨j - 1, by omega⟩
      exact hl (List.mem_of_getElem? (by simpa using he))

theorem lookup_mem {m : List (Str × Info)} (h : (m.map (·.1)).Nodup) (name : Str) (x : Info) : (name, x) ∈ m ↔ lookup m name = some x := by
  induction m with
  | nil => simp [lookup]
  | cons p m ih =>
    rw [List.map_cons, List.nodup_cons] at h
    have ih := ih h.2
    unfold lookup at ih ⊢
    rw [List.mem_cons, List.find?_cons]
    by_cases hp : p.1 = name
    · subst hp
      simp only [beq_self_eq_true, Option.map_some, Option.some.injEq]
      constructor
      · rintro (h1 | h1)
        · rw [← h1]
        · exact absurd (List.mem_map.2 ⟨_, h1, rfl⟩) h.1
      · rintro rfl
        exact .inl rfl
    · rw [beq_eq_false_iff_ne.2 hp]
      simp only
      rw [← ih]
      exact or_iff_right fun h1 => hp (by rw [← h1])

/-- **C33** The control block after opening a file: for every name there is, and no other, one entry, with the index of the last HDU of that name and the
positions of its header and its data in the file. -/
theorem C33_block (F : FloatText) (content : Str) (hb : content.length + 5760 < 2 ^ 63) (fuel n : Nat) (r : Reader)
    (e : readEntire F fuel n (openFile content) = some (.ok r)) :
    ∃ es, FileOf F content es ∧ r.hdus = es.map (·.hdu) ∧ (r.infos.map (·.1)).Nodup ∧ ∀ name info, (name, info) ∈ r.infos ↔
      ∃ (i : Nat) (en : Entry), es[i]? = some en ∧ LastOf (es.map (·.name)) name i ∧ info.headerLocation = en.loc ∧ info.dataLocation = en.dataLoc ∧
        info.index = i := by
  obtain ⟨es, q, h1, h2, h3⟩ := readEntire_ok hb n 0 _ _ rfl e
  refine ⟨es, ⟨q, h1, h2⟩, by rw [h3]; simp [openFile], ?_⟩
  have hr : r.infos = addInfos [] 0 es := by rw [h3]; rfl
  obtain ⟨k1, k2⟩ := addInfos_names es [] 0 (by simp)
  rw [hr]
  refine ⟨k1, fun name info => ?_⟩
  rw [lookup_mem k1]
  obtain ⟨l1, l2⟩ := addInfos_lookup es [] 0 name
  constructor
  · intro h
    by_cases hm : name ∈ es.map (·.name)
    · obtain ⟨i, hi⟩ := lastOf_exists hm
      have hi1 := hi.1
      rw [List.getElem?_map, Option.map_eq_some_iff] at hi1
      obtain ⟨en, he, -⟩ := hi1
      have := l1 i en he hi
      rw [this, Option.some.injEq] at h
      subst h
      exact ⟨i, en, he, hi, rfl, rfl, Nat.zero_add i⟩
    · rw [l2 hm] at h
      cases h
  · rintro ⟨i, en, he, hi, a, b, c⟩
    rw [l1 i en he hi]
    obtain ⟨x, y, z⟩ := info
    cases a
    cases b
    cases c
    rw [Nat.zero_add]

/-- **C33** total_hdus() counts names, not HDUs: it is the number of different names, which is the number of HDUs only if no two share a name. -/
theorem C33_total (F : FloatText) (content : Str) (hb : content.length + 5760 < 2 ^ 63) (fuel n : Nat) (r : Reader)
    (e : readEntire F fuel n (openFile content) = some (.ok r)) :
    ∃ es, FileOf F content es ∧ r.hdus = es.map (·.hdu) ∧ r.totalHdus = (es.map (·.name)).dedup.length ∧
      r.totalHdus ≤ r.hdus.length ∧ (r.totalHdus = r.hdus.length ↔ (es.map (·.name)).Nodup) := by
  obtain ⟨es, q, h1, h2, h3⟩ := readEntire_ok hb n 0 _ _ rfl e
  have hh : r.hdus = es.map (·.hdu) := by rw [h3]; simp [openFile]
  have ht : r.totalHdus = (es.map (·.name)).dedup.length := by
    obtain ⟨k1, k2⟩ := addInfos_names es [] 0 (by simp)
    have hr : r.infos = addInfos [] 0 es := by rw [h3]; rfl
    unfold Reader.totalHdus
    rw [hr, ← List.length_map (f := (·.1))]
    apply List.Perm.length_eq
    rw [List.perm_ext_iff_of_nodup k1 (List.nodup_dedup _)]
    intro a
    rw [k2, List.mem_dedup]
    simp
  have hlen : r.hdus.length = (es.map (·.name)).length := by rw [hh]; simp
  have hsub := List.dedup_sublist (es.map (·.name))
  refine ⟨es, ⟨q, h1, h2⟩, hh, ht, by rw [ht, hlen]; exact hsub.length_le, ?_⟩
  rw [ht, hlen]
  constructor
  · intro h
    rw [← hsub.eq_of_length h]; exact List.nodup_dedup _
  · intro h
    rw [List.dedup_eq_self.2 h]

/-! ## A file with a primary HDU (two 16 bit pixels), an ASCII table and an image extension -/

def exBlock (t : Str) : Str := t ++ List.replicate (2880 - t.length) 32

def exPrimary : List Str :=
  [exCard b!"SIMPLE  =                    T", exCard b!"BITPIX  =                   16", exCard b!"NAXIS   =                    1",
   exCard b!"NAXIS1  =                    2", exCard b!"EXTEND  =                    T", exCard b!"END"]

def exAscii : List Str :=
  [exCard b!"XTENSION= 'TABLE   '", exCard b!"BITPIX  =                    8", exCard b!"NAXIS   =                    2",
   exCard b!"NAXIS1  =                    6", exCard b!"NAXIS2  =                    2", exCard b!"PCOUNT  =                    0",
   exCard b!"GCOUNT  =                    1", exCard b!"EXTNAME = 'first   '", exCard b!"TFIELDS =                    2",
   exCard b!"TBCOL1  =                    1", exCard b!"TFORM1  = 'A3      '", exCard b!"TBCOL2  =                    4",
   exCard b!"TFORM2  = 'I3      '", exCard b!"END"]

def exImage : List Str :=
  [exCard b!"XTENSION= 'IMAGE   '", exCard b!"BITPIX  =                    8", exCard b!"NAXIS   =                    0", exCard b!"END"]

/-- Primary HDU and table. -/
def exTwo : Str := exBlock exPrimary.flatten ++ exBlock [0, 1, 255, 254] ++ exBlock exAscii.flatten ++ exBlock b!"ab   1c    2"

/-- The file is read; HDUs are found by index and by name; there is none at index 3; the image extension is empty. -/
example : (match readEntire exNoFloats 14 4 (openFile (exTwo ++ exBlock exImage.flatten)) with
    | some (.ok r) => decide (r.totalHdus = 3 ∧ r.infos = [(b!"primary_hdu", ⟨0, 2880, 0⟩), (b!"TABLE", ⟨5760, 8640, 1⟩), (b!"IMAGE", ⟨11520, 14400, 2⟩)]) &&
        (match r.at' 0, r.byName b!"TABLE", r.at' 2, r.at' 3, r.byName b!"BINTABLE" with
        | .ok (.primary p), .ok (.ascii t), .ok .blank, .error .outOfRange, .error .outOfRange =>
          decide (p.data.bytes = [0, 1, 255, 254] ∧ p.header.cards.map (·.raw) = exPrimary ∧ t.data = [[b!"ab", b!"1"], [b!"c", b!"2"]])
        | _, _, _, _, _ => false)
    | _ => false) = true := by
  decide +kernel

end Astro
