import Verif.Lemmas.FloatCard
import Verif.Props.Cell

/-
Properties C96 - C99: decimal text of floating point numbers.
-/

namespace Astro

open Spec

/-! ## C96 -/

/-- **C96** Which card texts are read as a `double`, and as which: an optional sign, then digits with or without a point and an optional decimal exponent, rounded to the
closest `double` (ties to even) unless it is too large; or a name of infinity or NaN.  Every other text is refused with `invalid_cast`. -/
theorem C96_double (s : Str) :
    (∀ v, Policy.parseTo ieeeText .double s = .ok (.double v) ↔ Reads .double s v.toNat) ∧
      ((∀ b, ¬ Reads .double s b) → Policy.parseTo ieeeText .double s = .error .invalidCast) := by
  simp only [Policy.parseTo]
  cases h : ieeeText.parse64 s with
  | none =>
    refine ⟨fun v => ⟨fun h => (by cases h), fun e => ?_⟩, fun _ => rfl⟩
    rw [parse64_iff.2 e] at h
    cases h
  | some v' =>
    refine ⟨fun v => ?_, fun hn => absurd (parse64_iff.1 h) (hn _)⟩
    rw [← parse64_iff, h]
    simp [Policy.recastOpt, Except.map]

/-- **C96** The same for `float`. -/
theorem C96_float (s : Str) :
    (∀ v, Policy.parseTo ieeeText .float s = .ok (.float v) ↔ Reads .single s v.toNat) ∧
      ((∀ b, ¬ Reads .single s b) → Policy.parseTo ieeeText .float s = .error .invalidCast) := by
  simp only [Policy.parseTo]
  cases h : ieeeText.parse32 s with
  | none =>
    refine ⟨fun v => ⟨fun h => (by cases h), fun e => ?_⟩, fun _ => rfl⟩
    rw [parse32_iff.2 e] at h
    cases h
  | some v' =>
    refine ⟨fun v => ?_, fun hn => absurd (parse32_iff.1 h) (hn _)⟩
    rw [← parse32_iff, h]
    simp [Policy.recastOpt, Except.map]

/-- **C96** Cells of ASCII tables are read in the same way. -/
theorem C96_cell (s : Str) (n : Nat) :
    (∀ v : BitVec 64, asciiDeser ieeeText .double s n = .ok v ↔ Reads .double s v.toNat) ∧
      (∀ v : BitVec 32, asciiDeser ieeeText .float s n = .ok v ↔ Reads .single s v.toNat) := by
  constructor
  · intro v
    rw [← parse64_iff]
    simp only [asciiDeser]
    cases ieeeText.parse64 s with
    | none => simp
    | some y => exact ⟨fun h => by cases h; rfl, fun h => by cases h; rfl⟩
  · intro v
    rw [← parse32_iff]
    simp only [asciiDeser]
    cases ieeeText.parse32 s with
    | none => simp
    | some y => exact ⟨fun h => by cases h; rfl, fun h => by cases h; rfl⟩

example : Policy.parseTo ieeeText .double b!"-1.25E+2" = .ok (.double 0xC05F400000000000#64) := by decide +kernel
/-- Rounded to the closest `double`. -/
example : Policy.parseTo ieeeText .double b!"0.1" = .ok (.double 0x3FB999999999999A#64) := by decide +kernel
/-- Too large. -/
example : Policy.parseTo ieeeText .double b!"1e309" = .error .invalidCast := by decide +kernel
/-- Too small is no error. -/
example : Policy.parseTo ieeeText .double b!"1e-400" = .ok (.double 0#64) := by decide +kernel
example : Policy.parseTo ieeeText .float b!".5" = .ok (.float 0x3F000000#32) := by decide +kernel

/-- **C96** A text that begins like a number but has a byte which is no digit, point, sign, `e` or `E` is refused.  This includes the FITS notation
`1.5D3` for double precision. -/
theorem C96_refused (s : Str) (h : LikeNumber s) (c : Byte) (hc : c ∈ s) (hd : ¬ (48 ≤ c.toNat ∧ c.toNat ≤ 57)) (hn : c ∉ b!".+-eE") :
    Policy.parseTo ieeeText .double s = .error .invalidCast ∧ Policy.parseTo ieeeText .float s = .error .invalidCast := by
  have key : ∀ f b, ¬ Reads f s b := by
    rintro f b ⟨sg, r, neg, n, e, hs, -, hr⟩
    obtain ⟨sg', neg', d, t, e', hs', hdd⟩ := h
    have hd45 : d ≠ 45 ∧ d ≠ 43 := by constructor <;> rintro rfl <;> rcases hdd with h | h <;> revert h <;> decide
    have h1 : takeSign s = (neg', d :: t) := by
      rw [e']
      apply takeSign_of hs'
      intro x hx
      obtain rfl : d = x := by simpa using hx
      exact hd45
    have hsign : ∀ {sg : Str} {neg : Bool}, Sign sg neg → c ∉ sg := by
      rintro sg neg (⟨rfl, -⟩ | ⟨rfl, -⟩ | ⟨rfl, -⟩)
      · simp
      · intro h; exact hn (by rw [List.mem_singleton.1 h]; decide)
      · intro h; exact hn (by rw [List.mem_singleton.1 h]; decide)
    rcases hr with hr | ⟨q, hq, -⟩
    · obtain ⟨y, u, rfl, hy⟩ := special_head hr
      have h2 : takeSign s = (neg, y :: u) := by
        rw [e]
        apply takeSign_of hs
        intro x hx
        obtain rfl : y = x := by simpa using hx
        constructor <;> rintro rfl <;> revert hy <;> decide
      rw [h1] at h2
      have : d = y := by
        have := congrArg Prod.snd h2
        simp at this
        exact this.1
      subst this
      rcases hdd with rfl | hdd
      · revert hy; decide
      · omega
    · have hcr : c ∈ r := by
        rw [e] at hc
        rcases List.mem_append.1 hc with h | h
        · exact absurd h (hsign hs)
        · exact h
      rcases numeral_chars hq c hcr with h | h | h | h | h | h
      · exact hd h
      all_goals (subst h; exact hn (by decide))
  exact ⟨(C96_double s).2 (key _), (C96_float s).2 (key _)⟩

example : Policy.parseTo ieeeText .double b!"1.5D3" = .error .invalidCast :=
  (C96_refused b!"1.5D3" ⟨[], false, 49, b!".5D3", rfl, Or.inl ⟨rfl, rfl⟩, Or.inr (by decide)⟩ 68 (by decide) (by decide) (by decide)).1

set_option exponentiation.threshold 3000 in
/-- **C96** A whole number up to 2^53 on a card is read as exactly that number of type `double` (2^24 for `float`). -/
theorem C96_integer (s : Str) (i : ℤ) (h : IsInt s i) :
    (i.natAbs ≤ 2 ^ 53 → ∃ v n, Policy.parseTo ieeeText .double s = .ok (.double v) ∧ v.toNat = signed .double (decide (i < 0)) n ∧ Magnitude .double n i.natAbs) ∧
    (i.natAbs ≤ 2 ^ 24 → ∃ v n, Policy.parseTo ieeeText .float s = .ok (.float v) ∧ v.toNat = signed .single (decide (i < 0)) n ∧ Magnitude .single n i.natAbs) := by
  obtain ⟨sg, hs, hsg⟩ : ∃ sg, s = sg ++ showNat i.natAbs ∧ Sign sg (decide (i < 0)) := by
    rcases h with ⟨h0, h⟩ | ⟨h0, t, rfl, h⟩
    · refine ⟨[], ?_, Or.inl ⟨rfl, by simpa using h0⟩⟩
      rw [isNat_iff.1 h]
      congr 1
      omega
    · refine ⟨b!"-", ?_, Or.inr (Or.inr ⟨rfl, by simpa using h0⟩)⟩
      rw [isNat_iff.1 h]
      show 45 :: _ = 45 :: _
      congr 2
      omega
  obtain ⟨hd, hp, -⟩ := showNat_isNat i.natAbs
  have hnum : Numeral (showNat i.natAbs) i.natAbs := by
    have := digits_numeral hd
    rwa [hp] at this
  have key : ∀ f, Cpp f → i.natAbs ≤ 2 ^ (f.frac + 1) → (f.lowest ≤ 0) → (2 ^ (f.frac + 1) : ℚ) < limit f →
      f.value f.infinity > 2 ^ (f.frac + 1) → ∃ n, Reads f s (signed f (decide (i < 0)) n) ∧ Magnitude f n i.natAbs := by
    intro f hf hi hlow hlim hinf
    obtain ⟨K, hK⟩ : ∃ K : Nat, f.lowest = -(K : ℤ) := ⟨(-f.lowest).toNat, by omega⟩
    obtain ⟨n, hn⟩ : ∃ n, f.units n = i.natAbs * 2 ^ K := by
      rcases Nat.lt_or_ge i.natAbs (2 ^ (f.frac + 1)) with h | h
      · exact representable f h K
      · obtain ⟨n, hn⟩ := representable f (i := 1) (Nat.one_lt_two_pow (by omega)) (f.frac + 1 + K)
        refine ⟨n, ?_⟩
        rw [hn, Nat.one_mul, pow_add, show i.natAbs = 2 ^ (f.frac + 1) by omega]
    have hv : f.value n = i.natAbs := by
      unfold FloatFmt.value
      rw [hn, hK, zpow_neg, zpow_natCast]
      push_cast
      field_simp
    have hi' : (i.natAbs : ℚ) ≤ 2 ^ (f.frac + 1) := by exact_mod_cast hi
    have hlt : n < f.infinity := by
      by_contra hc
      rcases Nat.lt_or_ge f.infinity n with h | h
      · have := value_strictMono f h
        rw [hv] at this
        linarith
      · rw [show f.infinity = n by omega, hv] at hinf
        linarith
    refine ⟨n, ⟨sg, _, _, n, hs, hsg, rfl, Or.inr ⟨_, hnum, hi'.trans_lt hlim, i.natAbs, magnitude_iff.2 ⟨hlt, hv.symm⟩, ?_⟩⟩, magnitude_iff.2 ⟨hlt, hv.symm⟩⟩
    intro m y hy
    rw [sub_self, abs_zero]
    refine ⟨abs_nonneg _, fun h => Or.inl ?_⟩
    have h1 := abs_eq_zero.1 h.symm
    rw [(magnitude_iff.1 hy).2, ← hv] at h1
    exact value_inj f (by linarith)
  constructor
  · intro hi
    obtain ⟨n, h1, h2⟩ := key .double cpp_double hi (by decide) (lt_of_lt_of_le (by norm_num [FloatFmt.double]) limit_double)
      (by rw [value_infinity_double]; norm_num [FloatFmt.double])
    have h3 := reads_double h1
    refine ⟨BitVec.ofNat 64 (signed .double (decide (i < 0)) n), n, ((C96_double s).1 _).2 ?_, ?_, h2⟩
    · rw [BitVec.toNat_ofNat, Nat.mod_eq_of_lt h3]; exact h1
    · rw [BitVec.toNat_ofNat, Nat.mod_eq_of_lt h3]
  · intro hi
    obtain ⟨n, h1, h2⟩ := key .single cpp_single hi (by decide) (by rw [limit_single]; norm_num [FloatFmt.single])
      (by rw [value_infinity_single]; norm_num [FloatFmt.single])
    have h3 := reads_single h1
    refine ⟨BitVec.ofNat 32 (signed .single (decide (i < 0)) n), n, ((C96_float s).1 _).2 ?_, ?_, h2⟩
    · rw [BitVec.toNat_ofNat, Nat.mod_eq_of_lt h3]; exact h1
    · rw [BitVec.toNat_ofNat, Nat.mod_eq_of_lt h3]

example : Policy.parseTo ieeeText .float b!"-16777216" = .ok (.float 0xCB800000#32) := by decide +kernel
/-- One more is not a `float`. -/
example : Policy.parseTo ieeeText .float b!"-16777217" = .ok (.float 0xCB800000#32) := by decide +kernel

/-! ## C97 -/

/-- **C97** A `double` is printed, on cards and in cells of ASCII tables, as the closest number of six significant digits, in plain notation from 0.0001 to
999999 and with an exponent otherwise, in at most 13 bytes. -/
theorem C97_double (v : BitVec 64) : Prints .double v.toNat (ieeeText.show64 v) ∧ asciiSer ieeeStream .double v = ieeeText.show64 v ∧
    (ieeeText.show64 v).length ≤ 13 :=
  ⟨showFloat_prints .double (bits_double v), rfl, showFloat_length cpp_double (bits_double v)⟩

/-- **C97** The same for `float`. -/
theorem C97_float (v : BitVec 32) : Prints .single v.toNat (ieeeText.show32 v) ∧ asciiSer ieeeStream .float v = ieeeText.show32 v ∧
    (ieeeText.show32 v).length ≤ 13 :=
  ⟨showFloat_prints .single (bits_single v), rfl, showFloat_length cpp_single (bits_single v)⟩

example : ieeeText.show64 0x3FB999999999999A#64 = b!"0.1" := by decide +kernel
example : ieeeText.show64 0xFFEFFFFFFFFFFFFF#64 = b!"-1.79769e+308" := by decide +kernel
/-- A million is not printed as a whole number. -/
example : ieeeText.show64 0x412E848000000000#64 = b!"1e+06" := by decide +kernel
example : ieeeText.show32 0x33D6BF95#32 = b!"1e-07" := by decide +kernel

/-- **C97** A floating point number always fits on a card: with a keyword of at most 8 and a comment of at most 48 bytes, like an integer. -/
theorem C97_fits (c : Card) (key comment : Str) :
    (∀ v, (Card.create ieeeText c key (.double v) comment).2 = .ok () ↔ key.length ≤ 8 ∧ comment.length ≤ 48) ∧
      (∀ v, (Card.create ieeeText c key (.float v) comment).2 = .ok () ↔ key.length ≤ 8 ∧ comment.length ≤ 48) :=
  ⟨fun v => float_limits c key comment rfl (by have := (C97_double v).2.2; omega),
    fun v => float_limits c key comment rfl (by have := (C97_float v).2.2; omega)⟩

example : (Card.create ieeeText Card.empty b!"CRVAL1" (.double 0xFFEFFFFFFFFFFFFF#64) (List.replicate 48 65)).2 = .ok () :=
  ((C97_fits Card.empty b!"CRVAL1" (List.replicate 48 65)).1 _).2 (by decide)

/-- **C97** The text of a `double` can be read as an integer exactly when it rounds to a whole number below a million. -/
theorem C97_whole (v w : BitVec 64) :
    Policy.parseTo ieeeText .longlong (ieeeText.show64 v) = .ok (.longlong w) ↔ PrintsWhole .double v.toNat w.toInt := by
  rw [← whole_core (bits_double v)]
  simp only [Policy.parseTo]
  show (Policy.recast (lexSigned 64 (showFloat .double v.toNat))).map Val.longlong = .ok (.longlong w) ↔ _
  cases h : lexSigned 64 (showFloat .double v.toNat) with
  | error e =>
    cases e <;> simp [Policy.recast, Except.map]
  | ok x => simp [Policy.recast, Except.map]

/-- 42.0 can, 0.5 and 1000000.0 cannot. -/
example : Policy.parseTo ieeeText .longlong (ieeeText.show64 0x4045000000000000#64) = .ok (.longlong 42#64) ∧
    Policy.parseTo ieeeText .longlong (ieeeText.show64 0x3FE0000000000000#64) = .error .invalidCast ∧
    Policy.parseTo ieeeText .longlong (ieeeText.show64 0x412E848000000000#64) = .error .invalidCast := by decide +kernel

/-! ## C98 -/

/-- **C98** A `double` written to a card and read back becomes the `double` closest to its six printed digits; if a commented card has a `'/'` in its keyword it
cannot be read. -/
theorem C98_double (c : Card) (key comment : Str) (v : BitVec 64) (hc : Fresh c) (hk : key.length ≤ 8) (hm : comment.length ≤ 48) :
    (comment = [] ∨ slash ∉ key → ∃ v' : BitVec 64, (Card.value ieeeText (Card.create ieeeText c key (.double v) comment).1 .double).2 = .ok (.double v') ∧
      Reprinted .double v.toNat v'.toNat) ∧
    (comment ≠ [] ∧ slash ∈ key → (Card.value ieeeText (Card.create ieeeText c key (.double v) comment).1 .double).2 = .error .invalidCast) := by
  have hb := bits_double v
  obtain ⟨y, e, h⟩ := float_window (F := ieeeText) (v := .double v) (x := showFloat .double v.toNat) (key := key) (comment := comment) (t := .double)
    hc rfl (showFloat_chars _ hb) (showFloat_ne_nil _ hb) (by have := showFloat_length cpp_double hb; omega) hk hm (by decide)
  rw [e]
  constructor
  · intro h1
    rcases h with ⟨-, rfl⟩ | ⟨h, -⟩
    · obtain ⟨b', h2, h3⟩ := scan_show_reprinted cpp_double hb
      have h4 := (scanFloat_reads cpp_double).1 h2
      have h5 := reads_double h4
      refine ⟨BitVec.ofNat 64 b', ((C96_double _).1 _).2 ?_, ?_⟩ <;> rw [BitVec.toNat_ofNat, Nat.mod_eq_of_lt h5]
      · exact h4
      · exact h3
    · rcases h1 with h1 | h1
      · exact absurd h1 h.1
      · exact absurd h.2 h1
  · intro h1
    rcases h with ⟨h, -⟩ | ⟨-, r, rfl⟩
    · rcases h with h | h
      · exact absurd h h1.1
      · exact absurd h1.2 h
    · apply (C96_double _).2
      intro b hr
      have := scan_blank cpp_double hb r
      rw [(scanFloat_reads cpp_double).2 hr] at this
      cases this

/-- **C98** The same for `float`. -/
theorem C98_float (c : Card) (key comment : Str) (v : BitVec 32) (hc : Fresh c) (hk : key.length ≤ 8) (hm : comment.length ≤ 48) :
    (comment = [] ∨ slash ∉ key → ∃ v' : BitVec 32, (Card.value ieeeText (Card.create ieeeText c key (.float v) comment).1 .float).2 = .ok (.float v') ∧
      Reprinted .single v.toNat v'.toNat) ∧
    (comment ≠ [] ∧ slash ∈ key → (Card.value ieeeText (Card.create ieeeText c key (.float v) comment).1 .float).2 = .error .invalidCast) := by
  have hb := bits_single v
  obtain ⟨y, e, h⟩ := float_window (F := ieeeText) (v := .float v) (x := showFloat .single v.toNat) (key := key) (comment := comment) (t := .float)
    hc rfl (showFloat_chars _ hb) (showFloat_ne_nil _ hb) (by have := showFloat_length cpp_single hb; omega) hk hm (by decide)
  rw [e]
  constructor
  · intro h1
    rcases h with ⟨-, rfl⟩ | ⟨h, -⟩
    · obtain ⟨b', h2, h3⟩ := scan_show_reprinted cpp_single hb
      have h4 := (scanFloat_reads cpp_single).1 h2
      have h5 := reads_single h4
      refine ⟨BitVec.ofNat 32 b', ((C96_float _).1 _).2 ?_, ?_⟩ <;> rw [BitVec.toNat_ofNat, Nat.mod_eq_of_lt h5]
      · exact h4
      · exact h3
    · rcases h1 with h1 | h1
      · exact absurd h1 h.1
      · exact absurd h.2 h1
  · intro h1
    rcases h with ⟨h, -⟩ | ⟨-, r, rfl⟩
    · rcases h with h | h
      · exact absurd h h1.1
      · exact absurd h1.2 h
    · apply (C96_float _).2
      intro b hr
      have := scan_blank cpp_single hb r
      rw [(scanFloat_reads cpp_single).2 hr] at this
      cases this

/-- **C98** In an ASCII table a number comes back from its cell in the same way; so the ones that survive are those with `Reprinted f v v`. -/
theorem C98_cell (n : Nat) :
    (∀ v v' : BitVec 64, asciiDeser ieeeText .double (asciiSer ieeeStream .double v) n = .ok v' ↔ Reprinted .double v.toNat v'.toNat) ∧
    (∀ v v' : BitVec 32, asciiDeser ieeeText .float (asciiSer ieeeStream .float v) n = .ok v' ↔ Reprinted .single v.toNat v'.toNat) := by
  constructor
  · intro v v'
    rw [(C96_cell _ n).1, ← scanFloat_reads cpp_double]
    exact scan_show_iff cpp_double (bits_double v)
  · intro v v'
    rw [(C96_cell _ n).2, ← scanFloat_reads cpp_single]
    exact scan_show_iff cpp_single (bits_single v)

/-- A Julian date loses its fraction. -/
example : (Card.value ieeeText (Card.create ieeeText Card.empty b!"JD" (.double 0x4142C4B040000000#64) b!"2460000.5").1 .double).2 =
    .ok (.double 0x4142C4B000000000#64) := by decide +kernel
/-- π comes back from a cell as 3.14159. -/
example : asciiDeser ieeeText .double (asciiSer ieeeStream .double (0x400921FB54442D18#64 : BitVec 64)) 1 = .ok (0x400921F9F01B866E#64 : BitVec 64) :=
  ((C98_cell 1).1 _ _).2 ((scan_show_iff cpp_double (bits_double _)).1 (by decide +kernel))

/-- **C98** A finite number stays finite, keeps its sign and changes by at most one part in 100000. -/
theorem C98_error (f : FloatFmt) (hf : f = .single ∨ f = .double) (neg : Bool) (n : Nat) (x : ℚ) (b' : Nat) (hx : Magnitude f n x)
    (h : Reprinted f (signed f neg n) b') : ∃ n' x', b' = signed f neg n' ∧ Magnitude f n' x' ∧ |x' - x| ≤ x / 100000 := by
  have hf : Cpp f := hf
  have hx' := magnitude_iff.1 hx
  obtain ⟨m, h1, h2, h3⟩ := scan_show hf neg hx'.1
  have hb : signed f neg n < 2 * f.signBit := by
    have := hx'.1.trans (infinity_lt f)
    have e : signed f neg n = if neg then f.signBit + n else n := rfl
    rw [e]
    split <;> omega
  rw [(scan_show_iff hf hb).2 h] at h3
  refine ⟨m, f.value m, Option.some.inj h3, magnitude_iff.2 ⟨h2, rfl⟩, ?_⟩
  rw [hx'.2]
  exact trip_error hf.facts.1 h1

/-- **C98** A normal number survives exactly when it is the closest number to some decimal of six significant digits. -/
theorem C98_survives (f : FloatFmt) (hf : f = .single ∨ f = .double) (neg : Bool) (n : Nat) (x : ℚ) (hx : Magnitude f n x) (hn : 2 ^ f.frac ≤ n) :
    Reprinted f (signed f neg n) (signed f neg n) ↔ ∃ w, SixDigits w ∧ w < limit f ∧ Closest f w n :=
  survives_core hf neg (magnitude_iff.1 hx).1 (by have := normal_large hf hn; omega)

/-- **C98** A number which has at most six significant decimal digits itself survives, for example every whole number below a million. -/
theorem C98_exact (f : FloatFmt) (hf : f = .single ∨ f = .double) (neg : Bool) (n : Nat) (x : ℚ) (hx : Magnitude f n x) (h : SixDigits x) :
    Reprinted f (signed f neg n) (signed f neg n) := by
  have hf : Cpp f := hf
  have hx' := magnitude_iff.1 hx
  have hv := value_nonneg f n
  have e : sixValue x = x := sixValue_exact (by rw [hx'.2]; exact hv) h
  refine ⟨neg, n, n, hx'.1.trans (infinity_lt f), rfl, rfl, Or.inl ⟨x, x, hx, ?_, ?_, x, hx, ?_⟩⟩
  · have := closestSix_sixValue hv
    rwa [← hx'.2, e] at this
  · have := sixValue_lt_limit hf hx'.1
    rwa [← hx'.2, e] at this
  · intro m y hy
    rw [sub_self, abs_zero]
    refine ⟨abs_nonneg _, fun h => Or.inl ?_⟩
    have h1 := abs_eq_zero.1 h.symm
    rw [(magnitude_iff.1 hy).2, hx'.2] at h1
    exact value_inj f (by linarith)

/-- **C98** Infinities survive, and so does the fact that a number is a NaN. -/
theorem C98_special (f : FloatFmt) (neg : Bool) (n : Nat) (hn : n < 2 ^ (f.frac + f.expo)) (h : (2 ^ f.expo - 1) * 2 ^ f.frac ≤ n) :
    Reprinted f (signed f neg n) (signed f neg (if n = (2 ^ f.expo - 1) * 2 ^ f.frac then n else (2 ^ f.expo - 1) * 2 ^ f.frac + 2 ^ (f.frac - 1))) := by
  refine ⟨neg, n, _, hn, rfl, rfl, Or.inr ?_⟩
  by_cases e : n = (2 ^ f.expo - 1) * 2 ^ f.frac
  · exact Or.inl ⟨e, if_pos e⟩
  · exact Or.inr ⟨by omega, if_neg e⟩

/-- **C98** After the first round trip nothing changes any more (for normal numbers). -/
theorem C98_again (f : FloatFmt) (hf : f = .single ∨ f = .double) (neg : Bool) (n : Nat) (x : ℚ) (b' : Nat) (hx : Magnitude f n x) (hn : 2 ^ f.frac ≤ n)
    (h : Reprinted f (signed f neg n) b') : Reprinted f b' b' := by
  have hf : Cpp f := hf
  obtain ⟨m, y, rfl, hy, herr⟩ := C98_error f hf neg n x b' hx h
  have hx' := magnitude_iff.1 hx
  have hy' := magnitude_iff.1 hy
  have hlarge : 1000001 < m := by
    by_contra hc
    have h1 : f.value m ≤ f.value 1000001 := by
      rcases Nat.lt_or_ge m 1000001 with h | h
      · exact (value_strictMono f h).le
      · rw [show m = 1000001 by omega]
    have h2 : f.value 8388608 ≤ f.value n := by
      rcases (normal_large hf hn).lt_or_eq with h | h
      · exact (value_strictMono f h).le
      · rw [h]
    have hU := two_zpow_pos f.lowest
    have u1 : f.value 1000001 = 1000001 * 2 ^ f.lowest := by
      have := units_of f (m := 1000001) (k := 0) (Or.inl rfl) (by rcases hf with rfl | rfl <;> decide)
      simp only [Nat.zero_mul, Nat.add_zero, Nat.pow_zero, Nat.mul_one] at this
      unfold FloatFmt.value
      rw [this]
      norm_num
    have u2 : f.value 8388608 = 8388608 * 2 ^ f.lowest := by
      have := units_of f (m := 8388608) (k := 0) (Or.inl rfl) (by rcases hf with rfl | rfl <;> decide)
      simp only [Nat.zero_mul, Nat.add_zero, Nat.pow_zero, Nat.mul_one] at this
      unfold FloatFmt.value
      rw [this]
      norm_num
    rw [u1] at h1
    rw [u2] at h2
    rw [hx'.2, hy'.2] at herr
    have := (abs_le.1 herr).1
    linarith
  rw [survives_core hf neg hy'.1 hlarge]
  obtain ⟨neg', n', m', hn', e1, e2, hr⟩ := h
  obtain ⟨rfl, rfl⟩ := signed_inj (hx'.1.trans (infinity_lt f)) hn' e1
  rcases hr with ⟨x', w, -, ⟨d, t, e, hd, -⟩, hl, hw⟩ | ⟨rfl, -⟩ | ⟨h, -⟩
  · have : m' = m := by
      obtain ⟨z, hz, -⟩ := hw
      exact (signed_inj (hy'.1.trans (infinity_lt f)) ((magnitude_iff.1 hz).1.trans (infinity_lt f)) e2).2.symm
    subst this
    exact ⟨w, ⟨d, t, by rcases hd with ⟨-, rfl⟩ | hd <;> omega, e⟩, hl, hw⟩
  · exact absurd hx'.1 (lt_irrefl _)
  · exact absurd (hx'.1.trans h) (lt_irrefl _)

/-- 0.1 is the closest `double` to a decimal of six digits, 1/3 is not. -/
example : ieeeText.parse64 (ieeeText.show64 0x3FB999999999999A#64) = some 0x3FB999999999999A#64 ∧
    ieeeText.parse64 (ieeeText.show64 0x3FD5555555555555#64) = some 0x3FD55553EF6B5D46#64 ∧
    ieeeText.parse64 (ieeeText.show64 0x3FD55553EF6B5D46#64) = some 0x3FD55553EF6B5D46#64 := by decide +kernel
/-- The bits of a NaN are not kept, and the smallest numbers are all kept. -/
example : ieeeText.parse64 (ieeeText.show64 0xFFF0000000000001#64) = some 0xFFF8000000000000#64 ∧
    ieeeText.parse64 (ieeeText.show64 0x0000000000000003#64) = some 0x0000000000000003#64 := by decide +kernel

/-! ## C99 -/

/-- **C99** A complex number of `double`s can never be read back from a card: the padding of the imaginary part begins its text with a blank. -/
theorem C99_double (c : Card) (key comment : Str) (re im : BitVec 64) (hc : Fresh c) (hk : key.length ≤ 8) (hm : comment.length ≤ 28) :
    (Card.create ieeeText c key (.cdouble re im) comment).2 = .ok () ∧
    (Card.value ieeeText (Card.create ieeeText c key (.cdouble re im) comment).1 .cdouble).2 = .error .invalidCast := by
  have l1 := showFloat_length cpp_double (bits_double re)
  have l2 := showFloat_length cpp_double (bits_double im)
  obtain ⟨q, hq⟩ : ∃ q, 20 - (showFloat .double im.toNat).length = q + 2 := ⟨18 - (showFloat .double im.toNat).length, by omega⟩
  have hs : Policy.serialize ieeeText (.cdouble re im) = .ok ((spaces (20 - (showFloat .double re.toNat).length) ++ showFloat .double re.toNat) ++
      (spaces (q + 2) ++ showFloat .double im.toNat)) := by
    rw [← hq]
    show (do return (← Policy.pad20 (showFloat .double re.toNat)) ++ (← Policy.pad20 (showFloat .double im.toNat)) : Res Str) = _
    rw [pad20_ok (by omega), pad20_ok (by omega)]
    rfl
  have hf : Fits key ((spaces (20 - (showFloat .double re.toNat).length) ++ showFloat .double re.toNat) ++ (spaces (q + 2) ++ showFloat .double im.toNat)) comment := by
    refine ⟨hk, ?_⟩
    have : ((spaces (20 - (showFloat .double re.toNat).length) ++ showFloat .double re.toNat) ++ (spaces (q + 2) ++ showFloat .double im.toNat)).length = 40 := by
      rw [← hq]; simp; omega
    rw [this]
    by_cases h : comment = []
    · exact Or.inl ⟨h, by omega⟩
    · exact Or.inr ⟨h, by omega⟩
  refine ⟨(C02_create_accepts_iff _ _ _ _ _).2 ⟨_, serialize_iff.1 hs, hf⟩, ?_⟩
  rw [create_fits c hs hf, value_created hc hf (by decide)]
  obtain ⟨r, e⟩ := complex_text (key := key) (comment := comment) (q := q) (20 - (showFloat .double re.toNat).length) (showFloat_chars _ (bits_double re))
    (showFloat_chars _ (bits_double im)) (showFloat_ne_nil _ (bits_double re)) (showFloat_ne_nil _ (bits_double im))
  rw [e]
  simp only [Policy.parseTo]
  rw [parseComplex_blank (showFloat_chars _ (bits_double re)) (fun s e => recastOpt_error)]
  · rfl
  · intro s
    cases h : ieeeText.parse64 (32 :: s) with
    | none => rfl
    | some v => exact absurd (parse64_iff.1 h) reads_blank

/-- **C99** The same for `float`. -/
theorem C99_float (c : Card) (key comment : Str) (re im : BitVec 32) (hc : Fresh c) (hk : key.length ≤ 8) (hm : comment.length ≤ 28) :
    (Card.create ieeeText c key (.cfloat re im) comment).2 = .ok () ∧
    (Card.value ieeeText (Card.create ieeeText c key (.cfloat re im) comment).1 .cfloat).2 = .error .invalidCast := by
  have l1 := showFloat_length cpp_single (bits_single re)
  have l2 := showFloat_length cpp_single (bits_single im)
  obtain ⟨q, hq⟩ : ∃ q, 20 - (showFloat .single im.toNat).length = q + 2 := ⟨18 - (showFloat .single im.toNat).length, by omega⟩
  have hs : Policy.serialize ieeeText (.cfloat re im) = .ok ((spaces (20 - (showFloat .single re.toNat).length) ++ showFloat .single re.toNat) ++
      (spaces (q + 2) ++ showFloat .single im.toNat)) := by
    rw [← hq]
    show (do return (← Policy.pad20 (showFloat .single re.toNat)) ++ (← Policy.pad20 (showFloat .single im.toNat)) : Res Str) = _
    rw [pad20_ok (by omega), pad20_ok (by omega)]
    rfl
  have hf : Fits key ((spaces (20 - (showFloat .single re.toNat).length) ++ showFloat .single re.toNat) ++ (spaces (q + 2) ++ showFloat .single im.toNat)) comment := by
    refine ⟨hk, ?_⟩
    have : ((spaces (20 - (showFloat .single re.toNat).length) ++ showFloat .single re.toNat) ++ (spaces (q + 2) ++ showFloat .single im.toNat)).length = 40 := by
      rw [← hq]; simp; omega
    rw [this]
    by_cases h : comment = []
    · exact Or.inl ⟨h, by omega⟩
    · exact Or.inr ⟨h, by omega⟩
  refine ⟨(C02_create_accepts_iff _ _ _ _ _).2 ⟨_, serialize_iff.1 hs, hf⟩, ?_⟩
  rw [create_fits c hs hf, value_created hc hf (by decide)]
  obtain ⟨r, e⟩ := complex_text (key := key) (comment := comment) (q := q) (20 - (showFloat .single re.toNat).length) (showFloat_chars _ (bits_single re))
    (showFloat_chars _ (bits_single im)) (showFloat_ne_nil _ (bits_single re)) (showFloat_ne_nil _ (bits_single im))
  rw [e]
  simp only [Policy.parseTo]
  rw [parseComplex_blank (showFloat_chars _ (bits_single re)) (fun s e => recastOpt_error)]
  · rfl
  · intro s
    cases h : ieeeText.parse32 (32 :: s) with
    | none => rfl
    | some v => exact absurd (parse32_iff.1 h) reads_blank

example : (Card.create ieeeText Card.empty b!"Z" (.cdouble 0x3FF8000000000000#64 0x4000000000000000#64) b!"").1.raw =
      b!"Z       =                  1.5                   2" ++ spaces 30 ∧
    (Card.value ieeeText (Card.create ieeeText Card.empty b!"Z" (.cdouble 0x3FF8000000000000#64 0x4000000000000000#64) b!"").1 .cdouble).2 =
      .error .invalidCast := by decide +kernel

end Astro
