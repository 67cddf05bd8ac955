import Verif.Lemmas.Text
import Verif.Spec.Card

namespace Astro

open Spec Policy

/-! ### serialisation -/

theorem pad20_iff {s r : Str} : pad20 s = .ok r ↔ rightJustified 20 s r := by
  rw [rightJustified_iff]
  unfold pad20
  by_cases h : s.length ≤ 20
  · rw [padCount_ok h]
    simp only [h, true_and, bind, Except.bind, pure, Except.pure, Except.ok.injEq]
    exact eq_comm
  · rw [padCount_error (by omega)]
    simp [h, bind, Except.bind]

theorem pad20_ok {s : Str} (h : s.length ≤ 20) : pad20 s = .ok (spaces (20 - s.length) ++ s) := by
  rw [pad20_iff, rightJustified_iff]; exact ⟨h, rfl⟩

theorem pad20_error {s : Str} (h : 20 < s.length) : pad20 s = .error .lengthError := by
  unfold pad20; rw [padCount_error h]; rfl

theorem pad20_length {s r : Str} (h : pad20 s = .ok r) : r.length = 20 := by
  obtain ⟨_, _, _, h⟩ := pad20_iff.1 h; exact h

theorem intField_iff {i : Int} {s : Str} : IntField i s ↔ pad20 (showInt i) = .ok s := by
  unfold IntField
  simp only [isInt_iff, pad20_iff]
  constructor
  · rintro ⟨d, rfl, h⟩; exact h
  · intro h; exact ⟨_, rfl, h⟩

theorem showInt_nat (n : Nat) : showInt (n : Int) = showNat n := by
  unfold showInt; rw [if_neg (by omega)]; rfl

theorem pad20_pair {a b s : Str} :
    (do return (← pad20 a) ++ (← pad20 b) : Res Str) = .ok s ↔
      ∃ x y, s = x ++ y ∧ pad20 a = .ok x ∧ pad20 b = .ok y := by
  cases ha : pad20 a with
  | error e => simp [bind, Except.bind]
  | ok x =>
    cases hb : pad20 b with
    | error e => simp [bind, Except.bind]
    | ok y =>
      simp only [bind, Except.bind, pure, Except.pure, Except.ok.injEq]
      constructor
      · intro h; exact ⟨x, y, h.symm, rfl, rfl⟩
      · rintro ⟨_, _, h, rfl, rfl⟩; exact h.symm

/-- The serialiser produces exactly the specified text. -/
theorem serialize_iff {F : FloatText} {v : Val} {s : Str} : serialize F v = .ok s ↔ TextOf F v s := by
  cases v with
  | bool b =>
    cases b <;>
    · simp only [serialize, TextOf, rightJustified_iff, Except.ok.injEq]
      constructor
      · intro h; exact ⟨by decide, h.symm⟩
      · rintro ⟨_, h⟩; exact h.symm
  | int v => simp only [serialize, TextOf, intField_iff]
  | float v => simp only [serialize, TextOf, pad20_iff]
  | double v => simp only [serialize, TextOf, pad20_iff]
  | uint v => simp only [serialize, TextOf, intField_iff, showInt_nat]
  | longlong v => simp only [serialize, TextOf, intField_iff]
  | sizeT v => simp only [serialize, TextOf, intField_iff, showInt_nat]
  | string x => simp only [serialize, TextOf, Except.ok.injEq]; exact eq_comm
  | cint re im => simp only [serialize, TextOf, intField_iff]; exact pad20_pair
  | cdouble re im => simp only [serialize, TextOf, ← pad20_iff]; exact pad20_pair
  | cfloat re im => simp only [serialize, TextOf, ← pad20_iff]; exact pad20_pair
  | csizeT re im => simp only [serialize, TextOf, intField_iff, showInt_nat]; exact pad20_pair

theorem showNat64_length {n : Nat} (h : n < 2 ^ 64) : (showNat n).length ≤ 20 :=
  (showNat_length_le 20 n (by omega)).2 (by omega)

theorem showInt64_length {i : Int} (h1 : -(2 ^ 63) ≤ i) (h2 : i < 2 ^ 63) : (showInt i).length ≤ 20 := by
  have : (showNat i.natAbs).length ≤ 19 := (showNat_length_le 19 _ (by omega)).2 (by omega)
  rcases showInt_cases i with ⟨_, e⟩ | ⟨_, e⟩ <;> rw [e]
  · simp; omega
  · omega

theorem toInt_bounds32 (v : BitVec 32) : -(2 ^ 31) ≤ v.toInt ∧ v.toInt < 2 ^ 31 := by
  have h1 := BitVec.two_mul_toInt_lt (x := v)
  have h2 := BitVec.le_two_mul_toInt (x := v)
  constructor <;> omega

theorem toInt_bounds64 (v : BitVec 64) : -(2 ^ 63) ≤ v.toInt ∧ v.toInt < 2 ^ 63 := by
  have h1 := BitVec.two_mul_toInt_lt (x := v)
  have h2 := BitVec.le_two_mul_toInt (x := v)
  constructor <;> omega

/-- The numeral of an integer value. -/
def numeral : Val → Str
  | .int v => showInt v.toInt
  | .uint v => showNat v.toNat
  | .longlong v => showInt v.toInt
  | .sizeT v => showNat v.toNat
  | _ => []

theorem numeral_props (v : Val) (h : IsIntegerTy v.ty) :
    (numeral v).length ≤ 20 ∧ Trimmed (numeral v) ∧ numeral v ≠ [] ∧ (47 : Byte) ∉ numeral v ∧
    ∀ F, serialize F v = .ok (spaces (20 - (numeral v).length) ++ numeral v) ∧ parseTo F v.ty (numeral v) = .ok v := by
  cases v <;> simp only [Val.ty, IsIntegerTy] at h
  case int v =>
    have hb := toInt_bounds32 v
    have hl : (showInt v.toInt).length ≤ 20 := showInt64_length (by omega) (by omega)
    refine ⟨hl, showInt_trimmed _, showInt_ne_nil _, showInt_not_mem (by decide) (by decide) _, fun F => ⟨pad20_ok hl, ?_⟩⟩
    simp [parseTo, Val.ty, numeral, lexSigned_showInt 32 (by omega) v, recast, Except.map]
  case uint v =>
    have hl : (showNat v.toNat).length ≤ 20 := showNat64_length (by omega)
    refine ⟨hl, showNat_trimmed _, showNat_ne_nil _, showNat_not_mem (by decide) _, fun F => ⟨pad20_ok hl, ?_⟩⟩
    simp [parseTo, Val.ty, numeral, lexUnsigned_showNat 32 v.toNat (by omega), recast, Except.map]
  case longlong v =>
    have hb := toInt_bounds64 v
    have hl : (showInt v.toInt).length ≤ 20 := showInt64_length (by omega) (by omega)
    refine ⟨hl, showInt_trimmed _, showInt_ne_nil _, showInt_not_mem (by decide) (by decide) _, fun F => ⟨pad20_ok hl, ?_⟩⟩
    simp [parseTo, Val.ty, numeral, lexSigned_showInt 64 (by omega) v, recast, Except.map]
  case sizeT v =>
    have hl : (showNat v.toNat).length ≤ 20 := showNat64_length (by omega)
    refine ⟨hl, showNat_trimmed _, showNat_ne_nil _, showNat_not_mem (by decide) _, fun F => ⟨pad20_ok hl, ?_⟩⟩
    simp [parseTo, Val.ty, numeral, lexUnsigned_showNat 64 v.toNat (by omega), recast, Except.map]

/-- Values without floating point always have a text. -/
theorem serialize_total (F : FloatText) (v : Val) (h : NoFloat v.ty) : ∃ s, serialize F v = .ok s := by
  have p : ∀ s : Str, s.length ≤ 20 → ∃ r, pad20 s = .ok r := fun s h => ⟨_, pad20_ok h⟩
  cases v <;> simp only [Val.ty, NoFloat] at h
  case bool b => exact ⟨_, rfl⟩
  case int v => have := toInt_bounds32 v; exact p _ (showInt64_length (by omega) (by omega))
  case uint v => exact p _ (showNat64_length (by omega))
  case longlong v => have := toInt_bounds64 v; exact p _ (showInt64_length (by omega) (by omega))
  case sizeT v => exact p _ (showNat64_length (by omega))
  case string s => exact ⟨_, rfl⟩
  case cint re im =>
    have h1 := toInt_bounds32 re
    have h2 := toInt_bounds32 im
    obtain ⟨a, ha⟩ := p _ (showInt64_length (i := re.toInt) (by omega) (by omega))
    obtain ⟨b, hb⟩ := p _ (showInt64_length (i := im.toInt) (by omega) (by omega))
    exact ⟨a ++ b, pad20_pair.2 ⟨a, b, rfl, ha, hb⟩⟩
  case csizeT re im =>
    obtain ⟨a, ha⟩ := p _ (showNat64_length (n := re.toNat) (by omega))
    obtain ⟨b, hb⟩ := p _ (showNat64_length (n := im.toNat) (by omega))
    exact ⟨a ++ b, pad20_pair.2 ⟨a, b, rfl, ha, hb⟩⟩

/-! ### creation -/

theorem isCardValid3_iff {k v c : Str} : isCardValid3 k v c = true ↔ Fits k v c := by
  unfold isCardValid3 isKeyValid Fits
  cases c with
  | nil => simp
  | cons x t => simp

/-- The raw text of a created card. -/
def cardText (key v comment : Str) : Str :=
  key ++ spaces (8 - key.length) ++ b!"= " ++ v ++ (if comment = [] then [] else b!" /" ++ comment)

theorem formatKeyword_ok {k : Str} (h : k.length ≤ 8) : formatKeyword k = .ok (k ++ spaces (8 - k.length)) := by
  unfold formatKeyword; rw [padCount_ok h]; rfl

theorem cardText_length {key v comment : Str} (h : key.length ≤ 8) :
    (cardText key v comment).length = 10 + v.length + (if comment = [] then 0 else 2 + comment.length) := by
  unfold cardText
  by_cases hc : comment = []
  · simp [hc]; omega
  · simp [hc]; omega

theorem cardText_le {key v comment : Str} (h : Fits key v comment) : (cardText key v comment).length ≤ 80 := by
  rw [cardText_length h.1]
  rcases h.2 with ⟨h1, h2⟩ | ⟨h1, h2⟩
  · simp [h1]; omega
  · simp [h1]; omega

/-- The finished card. -/
def fullCard (key v comment : Str) : Str :=
  cardText key v comment ++ spaces (80 - (cardText key v comment).length)

theorem createImpl_fits (c : Card) {key v comment : Str} (h : Fits key v comment) :
    Card.createImpl c key v comment = ({ c with raw := fullCard key v comment }, .ok ()) := by
  unfold Card.createImpl
  rw [if_pos (isCardValid3_iff.2 h), formatKeyword_ok h.1]
  have hl := cardText_le h
  unfold fullCard
  unfold cardText at *
  by_cases hc : comment = []
  · subst hc
    simp only [List.isEmpty_nil, if_true, List.append_nil] at *
    rw [padCount_ok hl]
  · have : comment.isEmpty = false := by cases comment <;> simp_all
    simp only [this, hc, if_false, Bool.false_eq_true] at *
    rw [show key ++ spaces (8 - key.length) ++ [61, 32] ++ v ++ [32, 47] ++ comment
        = key ++ spaces (8 - key.length) ++ [61, 32] ++ v ++ ([32, 47] ++ comment) by simp]
    rw [padCount_ok hl]

theorem createImpl_not_fits (c : Card) {key v comment : Str} (h : ¬ Fits key v comment) :
    Card.createImpl c key v comment = (c, .error .invalidCard) := by
  unfold Card.createImpl
  rw [if_neg]
  intro hh; exact h (isCardValid3_iff.1 hh)

theorem create_fits {F : FloatText} (c : Card) {key s comment : Str} {v : Val} (hs : serialize F v = .ok s)
    (h : Fits key s comment) :
    Card.create F c key v comment = ({ c with raw := fullCard key s comment }, .ok ()) := by
  unfold Card.create; rw [hs]; exact createImpl_fits c h

theorem fullCard_length {key v comment : Str} (h : Fits key v comment) : (fullCard key v comment).length = 80 := by
  have := cardText_le h
  unfold fullCard; simp; omega

theorem layout_iff {raw key v comment : Str} (h : Fits key v comment) :
    Layout raw key v comment ↔ raw = fullCard key v comment := by
  unfold Layout
  simp only [leftJustified_iff]
  have hl := cardText_le h
  constructor
  · rintro ⟨kw, ⟨h1, rfl⟩, h2, h3⟩
    rw [h3]; rfl
  · intro e
    exact ⟨_, ⟨h.1, rfl⟩, hl, e⟩

/-! ### reading the value field back -/

theorem fullCard_drop9 {key v comment : Str} (h : key.length ≤ 8) :
    (fullCard key v comment).drop 9 = [32] ++ v ++ (if comment = [] then [] else b!" /" ++ comment) ++
      spaces (80 - (cardText key v comment).length) := by
  unfold fullCard
  generalize spaces (80 - (cardText key v comment).length) = p
  unfold cardText
  have e : (key ++ spaces (8 - key.length) ++ [61]).length = 9 := by simp; omega
  have : key ++ spaces (8 - key.length) ++ [61, 32] ++ v ++ (if comment = [] then [] else [32, 47] ++ comment) ++ p
      = (key ++ spaces (8 - key.length) ++ [61]) ++ ([32] ++ v ++ (if comment = [] then [] else [32, 47] ++ comment) ++ p) := by
    simp
  rw [this]
  exact List.drop_left' e

theorem not_mem_spaces {c : Byte} (h : c ≠ 32) (n : Nat) : c ∉ spaces n := fun hc => h (mem_spaces hc)

/-- Value window, no comment: whatever the position of the first `'/'`... in the keyword or nowhere. -/
theorem extract_window_all {raw : Str} (hl : raw.length = 80) (f : Nat) (hf : findByte raw 47 = f) (h : f < 10 ∨ f = npos) :
    extractValue raw = .ok (raw.drop 9) := by
  unfold extractValue
  rw [hf, substr_ok (by omega)]
  refine congrArg Except.ok ?_
  apply List.take_of_length_le
  simp only [List.length_drop, hl]
  rcases h with h | h
  · rw [szSub_wrap h (by decide)]; unfold sizeMod; omega
  · rw [h, szSub_le (by decide) (by decide)]; decide

theorem findByte_lt {s t : Str} {c : Byte} (h : c ∈ s) : findByte (s ++ t) c < s.length := by
  obtain ⟨a, b, rfl, hn⟩ := split_first h
  rw [List.append_assoc, List.cons_append, findByte_append hn]
  simp

/-- The text the value is parsed from, for a created card. -/
def windowText (key v comment : Str) : Str :=
  if comment = [] then
    if (47 : Byte) ∈ key ∨ (47 : Byte) ∉ v then trim v
    else trim (v.take (findByte v 47 - 1))
  else if (47 : Byte) ∈ key then trim (v ++ b!" /" ++ comment)
  else if (47 : Byte) ∉ v then trim v
  else trim (v.take (findByte v 47 - 1))

theorem fullCard_prefix (key v comment : Str) : ∃ r, fullCard key v comment = key ++ r := by
  unfold fullCard
  generalize spaces (80 - (cardText key v comment).length) = p
  unfold cardText
  refine ⟨spaces (8 - key.length) ++ [61, 32] ++ v ++ (if comment = [] then [] else [32, 47] ++ comment) ++ p, ?_⟩
  simp only [List.append_assoc]

theorem take_of_prefix {α : Type} {l p r : List α} {n : Nat} (e : l = p ++ r) (h : p.length = n) : l.take n = p := by
  rw [e]; exact List.take_left' h

/-- What `trim (extract_value ...)` yields on a created card. -/
theorem extract_created {key v comment : Str} (h : Fits key v comment) :
    ∃ x, extractValue (fullCard key v comment) = .ok x ∧ trim x = windowText key v comment := by
  have hl := fullCard_length h
  have h9 := fullCard_drop9 (v := v) (comment := comment) h.1
  -- the trimmed remainder when the window is the whole rest of the card
  have hrest : trim ((fullCard key v comment).drop 9) = if comment = [] then trim v else trim (v ++ b!" /" ++ comment) := by
    rw [h9, trim_spaces_right]
    by_cases hc : comment = []
    · simp only [hc, if_true, List.append_nil]; exact trim_cons_space v
    · simp only [hc, if_false]
      have : [32] ++ v ++ ([32, 47] ++ comment) = 32 :: (v ++ [32, 47] ++ comment) := by simp
      rw [this, trim_cons_space]
  by_cases hk : (47 : Byte) ∈ key
  · -- slash in the keyword: window is everything
    obtain ⟨r, hr⟩ := fullCard_prefix key v comment
    have hf : findByte (fullCard key v comment) 47 < 10 := by
      rw [hr]; have := findByte_lt (t := r) hk; have := h.1; omega
    refine ⟨_, extract_window_all hl _ rfl (Or.inl hf), ?_⟩
    rw [hrest]; unfold windowText
    simp [hk]
  · have hpre : (47 : Byte) ∉ key ++ spaces (8 - key.length) ++ [61, 32] := by
      simp only [List.mem_append, not_or]
      exact ⟨⟨hk, not_mem_spaces (by decide) _⟩, by decide⟩
    have hprel : (key ++ spaces (8 - key.length) ++ [61, 32]).length = 10 := by
      have := h.1; simp; omega
    by_cases hv : (47 : Byte) ∈ v
    · -- slash in the value
      obtain ⟨a, b, rfl, hn⟩ := split_first hv
      have hcard : ∃ r, fullCard key (a ++ 47 :: b) comment =
          (key ++ spaces (8 - key.length) ++ [61, 32] ++ a) ++ 47 :: r := by
        unfold fullCard
        generalize spaces (80 - (cardText key (a ++ 47 :: b) comment).length) = p
        unfold cardText
        refine ⟨b ++ (if comment = [] then [] else [32, 47] ++ comment) ++ p, ?_⟩
        simp only [List.append_assoc, List.cons_append]
      obtain ⟨r, hr⟩ := hcard
      have hf : findByte (fullCard key (a ++ 47 :: b) comment) 47 = 10 + a.length := by
        rw [hr, findByte_append]
        · rw [List.length_append, hprel]
        · intro hm; rcases List.mem_append.1 hm with hm | hm
          · exact hpre hm
          · exact hn hm
      have hfv : findByte (a ++ 47 :: b) 47 = a.length := findByte_append hn
      have hal : a.length ≤ 80 := by
        have := hl; rw [hr] at this; simp at this; omega
      refine ⟨((fullCard key (a ++ 47 :: b) comment).drop 9).take a.length, ?_, ?_⟩
      · unfold extractValue
        rw [hf, substr_ok (by omega), szSub_le (by omega) (by unfold sizeMod; omega)]
        congr 2; omega
      · have ew : windowText key (a ++ 47 :: b) comment = trim ((a ++ 47 :: b).take (a.length - 1)) := by
          unfold windowText
          rw [hfv]
          by_cases hc : comment = [] <;> simp [hc, hk]
        rw [ew, h9]
        have e2 : (a ++ 47 :: b).take (a.length - 1) = a.take (a.length - 1) := by
          rw [List.take_append_of_le_length (by omega)]
        rw [e2]
        have e3 : ∀ q : Str, ([32] ++ (a ++ 47 :: b) ++ q).take a.length = if a = [] then [] else 32 :: a.take (a.length - 1) := by
          intro q
          cases a with
          | nil => simp
          | cons x t =>
            simp only [List.length_cons, List.append_assoc, List.cons_append, List.nil_append, List.take_succ_cons]
            simp only [reduceCtorEq, if_false, Nat.add_sub_cancel]
            congr 1
            rw [← List.cons_append, List.take_append_of_le_length (by simp)]
        rw [List.append_assoc, e3]
        by_cases ha : a = []
        · simp [ha]
        · rw [if_neg ha]; exact trim_cons_space _
    · -- no slash in keyword or value
      by_cases hc : comment = []
      · subst hc
        have hno : (47 : Byte) ∉ fullCard key v [] := by
          unfold fullCard cardText
          simp only [if_true, List.append_nil, List.mem_append, not_or]
          simp only [List.mem_append, not_or] at hpre
          exact ⟨⟨hpre, hv⟩, not_mem_spaces (by decide) _⟩
        refine ⟨_, extract_window_all hl _ (findByte_none hno) (Or.inr rfl), ?_⟩
        rw [hrest]; unfold windowText; simp [hv]
      · have hcard : ∃ r, fullCard key v comment =
            (key ++ spaces (8 - key.length) ++ [61, 32] ++ v ++ [32]) ++ 47 :: r := by
          unfold fullCard
          generalize spaces (80 - (cardText key v comment).length) = p
          unfold cardText
          simp only [hc, if_false]
          refine ⟨comment ++ p, ?_⟩
          simp only [List.append_assoc, List.cons_append, List.nil_append]
        obtain ⟨r, hr⟩ := hcard
        have hf : findByte (fullCard key v comment) 47 = 11 + v.length := by
          rw [hr, findByte_append]
          · rw [List.length_append, List.length_append, hprel]; simp; omega
          · intro hm
            simp only [List.mem_append] at hm hpre
            rcases hm with (hm | hm) | hm
            · exact hpre hm
            · exact hv hm
            · revert hm; decide
        have hvl : v.length ≤ 80 := by
          have := hl; rw [hr] at this; simp at this; omega
        refine ⟨((fullCard key v comment).drop 9).take (v.length + 1), ?_, ?_⟩
        · unfold extractValue
          rw [hf, substr_ok (by omega), szSub_le (by omega) (by unfold sizeMod; omega)]
          congr 2; omega
        · rw [h9]
          have e : ∀ q : Str, ([32] ++ v ++ q).take (v.length + 1) = 32 :: v := by
            intro q; simp
          rw [List.append_assoc, e, trim_cons_space]
          unfold windowText; simp [hc, hk, hv]

/-- The outcome of the first read of a created card as a type other than string. -/
theorem value_created {F : FloatText} {c : Card} {key s comment : Str} {t : Ty} (hc : c.cache = none)
    (h : Fits key s comment) (ht : t ≠ .string) :
    (Card.value F { c with raw := fullCard key s comment } t).2 = parseTo F t (windowText key s comment) := by
  obtain ⟨x, hx, hw⟩ := extract_created h
  unfold Card.value
  simp only [hc]
  have : Card.valueImp F (fullCard key s comment) t = parseTo F t (windowText key s comment) := by
    unfold Card.valueImp
    rw [hx]
    simp only [bind, Except.bind, hw]
  rw [this]
  cases parseTo F t (windowText key s comment) <;> rfl

end Astro
