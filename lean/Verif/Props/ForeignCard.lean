import Verif.Lemmas.ForeignCard
import Verif.Props.Float
import Verif.Props.Hdu

/-
Property C148: what `card::value` makes of value cards that other programs wrote.
-/

namespace Astro

open Spec Policy Header

/-! ## C148 -/

/-- **C148** Integers.  The value is the number that the standard means if there is no comment or a blank in front of its slash; a number the type cannot
hold is refused.  When the slash follows the digits directly, the last digit is lost: the value is a tenth of the number (towards zero), and a
number of one digit is refused. -/
theorem C148_integer (F : FloatText) (raw text d : Str) (gap : Nat) (comment : Option Str) (i : Int) (hc : ValueCard raw text gap comment)
    (hi : IntegerText text d i) :
    (Apart gap comment →
      (∀ v, numberOf v = some i → (Card.value F ⟨raw, none⟩ v.ty).2 = .ok v) ∧
      (∀ t, IsIntegerTy t → (t = .int ∨ t = .longlong ∨ 0 ≤ i) → (∀ v : Val, v.ty = t → numberOf v ≠ some i) →
        (Card.value F ⟨raw, none⟩ t).2 = .error .invalidCast)) ∧
    (¬ Apart gap comment → 2 ≤ d.length → ∀ v, numberOf v = some (i.tdiv 10) → (Card.value F ⟨raw, none⟩ v.ty).2 = .ok v) ∧
    (¬ Apart gap comment → d.length = 1 → ∀ t, IsIntegerTy t → (Card.value F ⟨raw, none⟩ t).2 = .error .invalidCast) := by
  obtain ⟨hne, htr, hsl, hlast⟩ := integerText_props hi
  have nostr : ∀ t, IsIntegerTy t → t ≠ .string := by intro t ht; rintro rfl; exact ht
  have ity : ∀ (v : Val) (j : Int), numberOf v = some j → IsIntegerTy v.ty := by
    intro v j hv; cases v <;> simp [numberOf, Val.ty, IsIntegerTy] at hv ⊢
  have tight : ¬ Apart gap comment → ∃ v, extractValue raw = .ok v ∧ trim v = trim text.dropLast := by
    intro ha
    unfold Apart at ha
    rw [not_or] at ha
    obtain ⟨c, rfl⟩ := Option.ne_none_iff_exists'.1 ha.1
    obtain rfl : gap = 0 := by omega
    exact extract_tight hc hsl hne
  refine ⟨fun ha => ?_, fun ha h2 v hv => ?_, fun ha h1 t ht => ?_⟩
  · obtain ⟨x, hx, htx⟩ := extract_apart hc hsl ha
    rw [trim_of_trimmed htr] at htx
    refine ⟨fun v hv => ?_, fun t ht h0 hn => ?_⟩
    · rw [value_fresh, valueImp_of (nostr _ (ity v i hv)) hx htx]; exact parse_integer hi hv
    · rw [value_fresh, valueImp_of (nostr _ ht) hx htx]; exact parse_unfit hi h0 ht hn
  · obtain ⟨x, hx, htx⟩ := tight ha
    have hi' := integerText_dropLast hi h2
    rw [trim_of_trimmed (integerText_props hi').2.1] at htx
    rw [value_fresh, valueImp_of (nostr _ (ity v _ hv)) hx htx]; exact parse_integer hi' hv
  · obtain ⟨x, hx, htx⟩ := tight ha
    obtain ⟨y, rfl⟩ := List.length_eq_one_iff.1 h1
    have hs : text.dropLast = [] ∨ text.dropLast = [43] ∨ text.dropLast = [45] := by
      rcases hi.2 with ⟨rfl, _⟩ | ⟨rfl, _⟩ | ⟨rfl, _⟩ <;> simp
    have ht' : trim text.dropLast = text.dropLast := by rcases hs with h | h | h <;> rw [h] <;> rfl
    rw [ht'] at htx
    rw [value_fresh, valueImp_of (nostr _ ht) hx htx]; exact parse_sign ht hs

/-- **C148** Logical values: read as the standard means them; refused when the slash follows the letter directly. -/
theorem C148_logical (F : FloatText) (raw : Str) (gap : Nat) (comment : Option Str) (b : Bool)
    (hc : ValueCard raw (if b then b!"T" else b!"F") gap comment) :
    (Card.value F ⟨raw, none⟩ .bool).2 = if comment = none ∨ 0 < gap then .ok (.bool b) else .error .invalidCast := by
  rw [value_fresh]
  split
  · rename_i ha
    obtain ⟨x, hx, ht⟩ := extract_apart hc (by cases b <;> decide) ha
    rw [valueImp_of (by decide) hx (ht.trans (trim_of_trimmed (by cases b <;> exact ⟨by decide, by decide⟩)))]
    cases b <;> rfl
  · rename_i ha
    rw [not_or] at ha
    obtain ⟨c, rfl⟩ := Option.ne_none_iff_exists'.1 ha.1
    obtain rfl : gap = 0 := by omega
    obtain ⟨x, hx, ht⟩ := extract_tight hc (by cases b <;> decide) (by cases b <;> decide)
    rw [valueImp_of (by decide) hx (ht.trans (show _ = [] by cases b <;> rfl))]
    rfl

/-- **C148** Real numbers: as C96 says for the text of the value, which loses its last byte when the slash follows it directly. -/
theorem C148_real (raw text : Str) (gap : Nat) (comment : Option Str) (hc : ValueCard raw text gap comment) (hs : slash ∉ text) (hne : text ≠ [])
    (hw : NoOuterWhite text) (hw' : NoOuterWhite text.dropLast) :
    (∀ v, (Card.value ieeeText ⟨raw, none⟩ .double).2 = .ok (.double v) ↔
      Reads .double (if comment = none ∨ 0 < gap then text else text.dropLast) v.toNat) ∧
    (∀ v, (Card.value ieeeText ⟨raw, none⟩ .float).2 = .ok (.float v) ↔
      Reads .single (if comment = none ∨ 0 < gap then text else text.dropLast) v.toNat) := by
  have key : ∀ t, t ≠ .string → Card.valueImp ieeeText raw t = parseTo ieeeText t (if comment = none ∨ 0 < gap then text else text.dropLast) := by
    intro t ht
    split
    · rename_i ha
      obtain ⟨x, hx, htx⟩ := extract_apart hc hs ha
      exact valueImp_of ht hx (htx.trans (isTrim_iff.1 ⟨[], [], by simp, by simp, by simp, hw.1, hw.2⟩))
    · rename_i ha
      rw [not_or] at ha
      obtain ⟨c, rfl⟩ := Option.ne_none_iff_exists'.1 ha.1
      obtain rfl : gap = 0 := by omega
      obtain ⟨x, hx, htx⟩ := extract_tight hc hs hne
      exact valueImp_of ht hx (htx.trans (isTrim_iff.1 ⟨[], [], by simp, by simp, by simp, hw'.1, hw'.2⟩))
  exact ⟨fun v => by rw [value_fresh, key _ (by decide)]; exact (C96_double _).1 v,
    fun v => by rw [value_fresh, key _ (by decide)]; exact (C96_float _).1 v⟩

/-- **C148** Strings without a slash, and a blank in front of the comment: the text between the quotes without the blanks at both ends.  This is the string the
standard means exactly if it has no quote in it and does not begin with a blank (or is blank altogether). -/
theorem C148_string (F : FloatText) (raw x : Str) (gap : Nat) (comment : Option Str) (hc : ValueCard raw (quoted x) gap comment)
    (hp : PlainText x) (hs : slash ∉ x) (ha : Apart gap comment) :
    (∃ y, (Card.value F ⟨raw, none⟩ .string).2 = .ok (.string y) ∧ IsTrim (doubled x) y) ∧
    ∀ z, WithoutTrailing x z → ((Card.value F ⟨raw, none⟩ .string).2 = .ok (.string z) ↔ 39 ∉ x ∧ (z = [] ∨ x.head? ≠ some 32)) := by
  have hsq : slash ∉ quoted x := by
    unfold quoted
    simp only [List.cons_append, List.mem_cons, List.mem_append, List.not_mem_nil, or_false, not_or]
    exact ⟨by decide, fun h => hs (mem_doubled.1 h), by decide⟩
  obtain ⟨v, hv, ht⟩ := extract_apart hc hsq ha
  have htr : trim (quoted x) = quoted x := by
    refine trim_of_trimmed ⟨?_, ?_⟩
    · intro c h; simp [quoted] at h; subst h; rfl
    · intro c h; unfold quoted at h; rw [List.getLast?_concat] at h; cases h; rfl
  have hval : (Card.value F ⟨raw, none⟩ .string).2 = .ok (.string (trim (doubled x))) := by
    rw [value_fresh, valueImp_text hv, ht, htr]
    simp [quoted]
  refine ⟨⟨_, hval, isTrim_iff.2 rfl⟩, fun z hz => ?_⟩
  rw [hval]
  have hl := withoutTrailing_last hp hz
  obtain ⟨n, e, hz2⟩ := hz
  have inj : ((Except.ok (Val.string (trim (doubled x))) : Res Val) = .ok (.string z)) ↔ trim (doubled x) = z := by simp
  rw [inj]
  constructor
  · intro h
    have hq : (39 : Byte) ∉ x := by
      intro hm
      have c1 : (trim (doubled x)).count 39 = 2 * x.count 39 := by rw [count_trim rfl, count_doubled]
      have c2 : z.count 39 = x.count 39 := by
        rw [e, List.count_append, List.count_replicate]; simp
      have c3 := List.count_pos_iff.2 hm
      rw [h] at c1; omega
    refine ⟨hq, ?_⟩
    rw [doubled_of_not_mem hq] at h
    rcases z with _ | ⟨a, t⟩
    · exact .inl rfl
    · right
      rw [e]
      intro h32
      have ha : a = 32 := by simpa using h32
      have := (trim_trimmed x).1 a (by rw [h]; rfl)
      rw [ha] at this; exact absurd this (by decide)
  · rintro ⟨hq, hz0⟩
    rw [doubled_of_not_mem hq]
    rcases hz0 with rfl | hh
    · rw [e]; exact trim_all (spaces_allSpace n)
    · rw [e]
      show trim (z ++ spaces n) = z
      rw [trim_spaces_right]
      refine trim_of_trimmed ⟨?_, hl⟩
      intro c hc'
      cases hsp : isSpace c with
      | false => rfl
      | true =>
        have hx : x.head? = some c := by
          rw [e]; cases z with
          | nil => cases hc'
          | cons a t => simpa using hc'
        have := printable_space hp (List.mem_of_mem_head? hx) hsp
        subst this
        exact absurd hx hh

/-- **C148** Strings without a slash whose closing quote is directly followed by the slash of a comment: the closing quote is taken away twice, so that the last
character which is no blank is lost with it; and if there is none (an empty or blank string) the behaviour is undefined. -/
theorem C148_string_tight (F : FloatText) (raw x c w : Str) (hc : ValueCard raw (quoted x) 0 (some c)) (hp : PlainText x) (hs : slash ∉ x)
    (hw : WithoutTrailing (doubled x) w) :
    (w = [] → (Card.value F ⟨raw, none⟩ .string).2 = .error .ub) ∧
    (w ≠ [] → ∃ y, (Card.value F ⟨raw, none⟩ .string).2 = .ok (.string y) ∧ IsTrim w.dropLast y) := by
  have hsq : slash ∉ quoted x := by
    unfold quoted
    simp only [List.cons_append, List.mem_cons, List.mem_append, List.not_mem_nil, or_false, not_or]
    exact ⟨by decide, fun h => hs (mem_doubled.1 h), by decide⟩
  obtain ⟨v, hv, ht⟩ := extract_tight hc hsq (by simp [quoted])
  have hd : (quoted x).dropLast = 39 :: doubled x := by unfold quoted; rw [List.dropLast_concat]
  rw [hd] at ht
  have hpd : PlainText (doubled x) := fun c hc => hp c (mem_doubled.1 hc)
  rw [value_fresh, valueImp_cut hv ht hpd hw]
  exact ⟨fun h => by rw [if_pos h], fun h => by rw [if_neg h]; exact ⟨_, rfl, isTrim_iff.2 rfl⟩⟩

/-- **C148** Strings with a slash (after the part `a`), as in units like `'km/s'`: the slash is taken for the beginning of the comment.  Of the
text in front of it the last byte is cut off, then the blanks at the end, then one more byte.  If nothing is left for that last step the
behaviour is undefined, as for `'m/s'`. -/
theorem C148_string_slash (F : FloatText) (raw a b : Str) (gap : Nat) (comment : Option Str) (hc : ValueCard raw (quoted (a ++ slash :: b)) gap comment)
    (hp : PlainText a) (hs : slash ∉ a) :
    (a = [] → (Card.value F ⟨raw, none⟩ .string).2 = .ok (.string [])) ∧
    (a ≠ [] → ∀ w, WithoutTrailing (doubled a).dropLast w →
      (w = [] → (Card.value F ⟨raw, none⟩ .string).2 = .error .ub) ∧
      (w ≠ [] → ∃ y, (Card.value F ⟨raw, none⟩ .string).2 = .ok (.string y) ∧ IsTrim w.dropLast y)) := by
  have hcut : ∃ rest, ValueCard raw (39 :: doubled a) 0 (some rest) := by
    obtain ⟨k, lead, h1, h2, h3, h4⟩ := hc
    refine ⟨doubled b ++ [39] ++ List.replicate gap 32 ++ (match comment with | none => [] | some c => slash :: c), k, lead, h1, h2, h3, ?_⟩
    rw [h4]
    have : quoted (a ++ slash :: b) = 39 :: doubled a ++ slash :: (doubled b ++ [39]) := by
      unfold quoted
      rw [doubled_append]
      have : doubled (slash :: b) = slash :: doubled b := by rw [doubled, if_neg (by decide)]
      rw [this]; simp
    rw [this]
    cases comment <;> simp
  obtain ⟨rest, hr⟩ := hcut
  have hsq : slash ∉ 39 :: doubled a := by
    simp only [List.mem_cons, not_or]
    exact ⟨by decide, fun h => hs (mem_doubled.1 h)⟩
  obtain ⟨v, hv, ht⟩ := extract_tight hr hsq (by simp)
  rw [value_fresh]
  refine ⟨?_, fun ha w hw => ?_⟩
  · rintro rfl
    rw [valueImp_text hv, ht]; rfl
  · have hd : (39 :: doubled a).dropLast = 39 :: (doubled a).dropLast := List.dropLast_cons_of_ne_nil (doubled_ne_nil ha)
    rw [hd] at ht
    have hpd : PlainText (doubled a).dropLast := fun c hc => hp c (mem_doubled.1 (List.mem_of_mem_dropLast hc))
    rw [valueImp_cut hv ht hpd hw]
    exact ⟨fun h => by rw [if_pos h], fun h => by rw [if_neg h]; exact ⟨_, rfl, isTrim_iff.2 rfl⟩⟩

section

variable (F : FloatText) (fuel : Nat) (s s' : Stream) (h h1 : Header) (hg : s.good = true)
  (e : readHeader F fuel Header.empty s = some (.ok (h, s'))) (hp : ∀ k, HeaderKey h k → ¬ Absent (h.cards.map (·.raw)) k)
  (name : Str) (en : h.getHduName F = (h1, .ok name)) (hs : Absent (h.cards.map (·.raw)) b!"SIMPLE")
  (hn : TextNames F (h.cards.map (·.raw))) (buf : Str)

include hg e hp en hs hn in
/-- **C148** A table with a column whose unit is one character, a slash and anything more, such as `'m/s'`, cannot be opened. -/
theorem C148_unit (n : BitVec 64) (hf : Lookup F (h.cards.map (·.raw)) b!"TFIELDS" .sizeT (.ok (.sizeT n))) (i : Nat) (d : Str)
    (hi : 1 ≤ i ∧ i ≤ n.toNat) (hd : IsNat d i) (j : Nat) (raw : Str) (hl : LastWith (h.cards.map (·.raw)) (b!"TUNIT" ++ d) j)
    (hj : (h.cards.map (·.raw))[j]? = some raw) (c : Byte) (b : Str) (gap : Nat) (comment : Option Str)
    (hc : ValueCard raw (quoted (c :: slash :: b)) gap comment) (hpr : PlainText [c]) (hq : c ≠ 39 ∧ c ≠ slash) :
    (Lookup F (h.cards.map (·.raw)) b!"XTENSION" .string (.ok (.string b!"TABLE")) → ¬ ∃ t, Hdu.construct F h1 buf = .ok (.ascii t)) ∧
    (Lookup F (h.cards.map (·.raw)) b!"XTENSION" .string (.ok (.string b!"BINTABLE")) → ¬ ∃ t, Hdu.construct F h1 buf = .ok (.binary t)) := by
  have hub : Card.valueImp F raw .string = .error .ub := by
    have := ((C148_string_slash F raw [c] b gap comment hc hpr (by simpa using fun h => hq.2 h.symm)).2 (by simp) []
      ⟨0, by simp [doubled, hq.1], by simp⟩).1 rfl
    rwa [value_fresh] at this
  have hno : ¬ ColumnCards F (h.cards.map (·.raw)) d := by
    intro hcc
    rcases hcc.tunit with ha | ⟨v, hv | ⟨j', raw', l1, l2, l3⟩⟩
    · obtain ⟨hlt, hk, _⟩ := hl
      exact ha _ (List.getElem_mem hlt) hk
    · cases hv.2
    · obtain rfl := lastWith_fun hl l1
      rw [hj] at l2; cases l2
      rw [hub] at l3; cases l3
  have hnum : ∀ m, TableCards F (h.cards.map (·.raw)) m → m = n.toNat := by
    intro m hm
    obtain ⟨v, hv, rfl⟩ := hm.tfields
    have := lookup_fun hf hv
    cases this; rfl
  constructor
  · intro hx
    rw [C86_ascii F fuel s s' h h1 hg e hp name en hs hn buf hx]
    rintro ⟨m, hm, _⟩
    rw [hnum m hm.table] at hm
    exact hno (hm.column i d hi.1 hi.2 hd).1
  · intro hx
    rw [C86_binary F fuel s s' h h1 hg e hp name en hs hn buf hx]
    rintro ⟨m, hm, _⟩
    rw [hnum m hm.table] at hm
    exact hno (hm.column i d hi.1 hi.2 hd).1

end

/-- An 80-byte card from its beginning. -/
def exForeign (s : Str) : Str := s ++ List.replicate (80 - s.length) 32

/-- The cards of the standard that go wrong, next to harmless ones: the value is `100` in the first and reads 10 in the second. -/
example :
    let read := fun s t => (Card.value ieeeText ⟨exForeign s, none⟩ t).2
    read b!"NAXIS1  =   100 / length of axis 1" .int = .ok (.int 100) ∧
    read b!"NAXIS1  =   100/ length of axis 1" .int = .ok (.int 10) ∧
    read b!"BITPIX  = -0032/" .int = .ok (.int (-3)) ∧
    read b!"NAXIS   = 2/ number of axes" .sizeT = .error .invalidCast ∧
    read b!"SIMPLE  =                    T/ standard" .bool = .error .invalidCast ∧
    read b!"OBJECT  = 'O''HARA  '          / name" .string = .ok (.string b!"O''HARA") ∧
    read b!"OBJECT  = '  M 31  '           / name" .string = .ok (.string b!"M 31") ∧
    read b!"OBJECT  = 'M 31    '/ name" .string = .ok (.string b!"M 3") ∧
    read b!"OBJECT  = ''/ unknown" .string = .error .ub ∧
    read b!"TUNIT1  = 'erg/cm2/s'" .string = .ok (.string b!"e") ∧
    read b!"TUNIT1  = 'km/s    '" .string = .ok (.string []) ∧
    read b!"TUNIT1  = 'm/s     '" .string = .error .ub := by decide +kernel

/-- The hypotheses of `C148_integer` for one of them. -/
example : ValueCard (exForeign b!"NAXIS1  =   100/ length of axis 1") b!"100" 0 (some (b!" length of axis 1" ++ List.replicate 47 32)) ∧
    IntegerText b!"100" b!"100" 100 ∧ ¬ Apart 0 (some (b!" length of axis 1" ++ List.replicate 47 32)) :=
  ⟨⟨b!"NAXIS1  ", 2, by decide, by decide, by decide, by decide⟩, ⟨⟨by decide, by decide⟩, .inl ⟨rfl, by decide⟩⟩, by simp [Apart]⟩

/-- Conventions that other programs use for long keywords and long strings are no cards for the constructor. -/
example : Card.ofRaw (exForeign b!"HIERARCH ESO TEL ALT = 65.3") = .error .invalidCard ∧ Card.ofRaw (exForeign b!"CONTINUE  'more text'") = .error .invalidCard := by
  decide +kernel

/-- The table of C86 with a column in metres per second cannot be opened; in kilometres per second it can, but the unit is lost. -/
example : (match exBuild (exAsciiCards.take 11 ++ [exCard b!"TUNIT1  = 'm/s'", exCard b!"END"]) b!"x12y 3",
      exBuild (exAsciiCards.take 11 ++ [exCard b!"TUNIT1  = 'km/s'", exCard b!"END"]) b!"x12y 3" with
    | some (.error e1), some (.ok (.ascii t)) => decide (e1 = .ub ∧ t.data = [[b!"12"], [b!"3"]] ∧ t.cols.map (·.unit) = [[]])
    | _, _ => false) = true := by decide +kernel

end Astro
