import Verif.Lemmas.Print
import Verif.Props.TimeDouble
import Verif.Props.Frame

/-
What the stream output operators print (C94, C95).
-/

namespace Astro

open Astro.Coord Astro.Time

/-! C94 -/

/-- C94: when no quantity is printed with a comma, two representations print the same text exactly when they are of the same system and each of the
three quantities prints the same. -/
theorem C94_representation (q : ShowQuantity) (hq : ∀ v u, (44 : Byte) ∉ q v u) (r s : Rep) :
    r.print q = s.print q ↔
      r.sys = s.sys ∧ q r.get.c0 r.u1 = q s.get.c0 s.u1 ∧ q r.get.c1 r.u2 = q s.get.c1 s.u2 ∧ q r.get.c2 r.u3 = q s.get.c2 s.u3 := by
  constructor
  · intro h
    have hs : r.sys = s.sys := by
      unfold Rep.print at h
      cases er : r.sys <;> cases es : s.sys <;> rw [er, es] at h <;> first | rfl | simp at h
    have key : ∀ a b c a' b' c' : Str, (44 : Byte) ∉ a → (44 : Byte) ∉ a' → (44 : Byte) ∉ b → (44 : Byte) ∉ b' →
        a ++ b!" , " ++ b ++ b!" , " ++ c ++ b!" )" = a' ++ b!" , " ++ b' ++ b!" , " ++ c' ++ b!" )" → a = a' ∧ b = b' ∧ c = c' := by
      intro a b c a' b' c' ha ha' hb hb' h
      have e : ∀ a b c : Str, a ++ b!" , " ++ b ++ b!" , " ++ c ++ b!" )" = (a ++ [32]) ++ 44 :: ((32 :: (b ++ [32])) ++ 44 :: (32 :: (c ++ b!" )"))) := by
        intro a b c
        simp
      rw [e, e] at h
      obtain ⟨h1, h2⟩ := comma_split (by simp [ha]) (by simp [ha']) h
      obtain ⟨h3, h4⟩ := comma_split (by simp [hb]) (by simp [hb']) h2
      exact ⟨List.append_cancel_right h1, List.append_cancel_right (List.cons.inj h3).2, List.append_cancel_right (List.cons.inj h4).2⟩
    refine ⟨hs, ?_⟩
    unfold Rep.print at h
    rw [hs] at h
    apply key _ _ _ _ _ _ (hq _ _) (hq _ _) (hq _ _) (hq _ _)
    simp only [List.append_assoc] at h ⊢
    exact List.append_cancel_left h
  · rintro ⟨h1, h2, h3, h4⟩
    unfold Rep.print
    rw [h1, h2, h3, h4]

/-- C94: the same for the two-angle coordinates: the text says which class it is and what the two angles print. -/
theorem C94_two_angle (q : ShowQuantity) (hq : ∀ v u, (44 : Byte) ∉ q v u) (k l : TwoAngleKind) (p s : TwoAngle) :
    p.print q k = s.print q l ↔ k = l ∧ q p.get0 p.u1 = q s.get0 s.u1 ∧ q p.get1 p.u2 = q s.get1 s.u2 := by
  constructor
  · intro h
    have hk : k = l := by
      unfold TwoAngle.print at h
      cases k <;> cases l <;> first | rfl | simp at h
    subst hk
    have key : ∀ a a' b b' pre mid : Str, (44 : Byte) ∉ a → (44 : Byte) ∉ a' →
        pre ++ a ++ (44 :: mid) ++ b ++ b!")" = pre ++ a' ++ (44 :: mid) ++ b' ++ b!")" → a = a' ∧ b = b' := by
      intro a a' b b' pre mid ha ha' h
      simp only [List.append_assoc, List.cons_append] at h
      obtain ⟨h1, h2⟩ := comma_split ha ha' (List.append_cancel_left h)
      exact ⟨h1, List.append_cancel_right (List.append_cancel_left h2)⟩
    refine ⟨rfl, ?_⟩
    cases k <;> exact key _ _ _ _ _ _ (hq _ _) (hq _ _) h
  · rintro ⟨rfl, h2, h3⟩
    unfold TwoAngle.print
    rw [h2, h3]

/-- With numbers printed as "1" a Cartesian representation prints as in io.hpp. -/
example (x : ℝ) : Rep.print (fun _ _ => b!"1 m") ⟨.cartesian, ⟨x, x, x⟩, 1, 1, 1⟩ = b!"Cartesian Representation ( 1 m , 1 m , 1 m )" := rfl

example (x y : ℝ) : Rep.print (fun v _ => if v = x then b!"1 m" else b!"2 m") ⟨.cartesian, ⟨x, x, x⟩, 1, 1, 1⟩ =
    Rep.print (fun v _ => if v = x then b!"1 m" else b!"2 m") ⟨.cartesian, ⟨x, x, y⟩, 1, 1, 1⟩ ↔ y = x := by
  rw [C94_representation _ (by intro v u; split <;> decide)]
  simp only [Rep.get, true_and]
  by_cases h : y = x
  · simp [h]
  · simp [h]

/-! C95 -/

/-- C95: the text of a decimal hour: hours and minutes as integers and the seconds as a number of millionths, at most half a millionth off. -/
theorem C95_text (d : DecimalHour) :
    ∃ H M S n, d.print = b!"Hours: " ++ H ++ b!"h " ++ M ++ b!"m " ++ S ++ b!"s " ∧ Spec.IsInt H d.hours ∧ Spec.IsInt M d.minutes ∧
      Spec.Fixed6 S (d.seconds < 0) n ∧ abs ((n : ℚ) / 10 ^ 6 - |d.seconds|) ≤ 1 / 2 / 10 ^ 6 :=
  ⟨showInt d.hours, showInt d.minutes, fixed6 d.seconds, millionths d.seconds, by simp [DecimalHour.print], isInt_iff.2 rfl, isInt_iff.2 rfl,
    fixed6_spec _, millionths_near _⟩

/-- C95: in double arithmetic, what is printed for `d` (hours `h`, minutes `m`, `n` millionths of a second with the sign of the seconds) is `d` up to
half a millionth of a second and the rounding error of C90. -/
theorem C95_value (N : Spec.Nearest) (d : ℚ) (hd : IsDouble d) (r : DecimalHour) (hr : DecimalHour.ofDecimal N.rounding d = some r)
    (H M S : Str) (n : ℕ) (hp : r.print = b!"Hours: " ++ H ++ b!"h " ++ M ++ b!"m " ++ S ++ b!"s ") (h m : ℤ) (neg : Prop)
    (hH : Spec.IsInt H h) (hM : Spec.IsInt M m) (hS : Spec.Fixed6 S neg n) (s : ℚ) (hs : neg ∧ s = -(n / 10 ^ 6) ∨ ¬ neg ∧ s = n / 10 ^ 6) :
    |d - (h + m / 60 + s / 3600)| ≤ 1 / 2 ^ 53 + 1 / 2 / 10 ^ 6 / 3600 := by
  obtain ⟨H', M', S', n', e, hH', hM', hS', hn⟩ := C95_text r
  obtain ⟨rfl, rfl, rfl⟩ := hour_text_unique hH hM hH' hM' (hp.symm.trans e)
  obtain ⟨hneg, rfl⟩ := fixed6_unique hS hS'
  obtain ⟨-, hsp⟩ := (C90_split N d hd).1 r hr
  have hsum := hsp.sum
  have hclose : |s - r.seconds| ≤ 1 / 2 / 10 ^ 6 := by
    rcases hs with ⟨h1, rfl⟩ | ⟨h1, rfl⟩
    · rw [abs_of_neg (hneg.1 h1)] at hn
      rw [abs_le] at hn ⊢
      constructor <;> linarith
    · rw [abs_of_nonneg (not_lt.1 (fun h => h1 (hneg.2 h)))] at hn
      exact hn
  rw [abs_le] at hsum hclose ⊢
  constructor <;> linarith

/-- C95: two decimal hours that print the same have the same hours and minutes, and seconds at most a millionth apart. -/
theorem C95_same (d e : DecimalHour) (h : d.print = e.print) :
    d.hours = e.hours ∧ d.minutes = e.minutes ∧ |d.seconds - e.seconds| ≤ 1 / 10 ^ 6 := by
  obtain ⟨H, M, S, n, ed, hH, hM, hS, hn⟩ := C95_text d
  obtain ⟨H', M', S', n', ee, hH', hM', hS', hn'⟩ := C95_text e
  obtain ⟨e1, e2, rfl⟩ := hour_text_unique hH hM hH' hM' (ed.symm.trans (h.trans ee))
  obtain ⟨hneg, rfl⟩ := fixed6_unique hS hS'
  refine ⟨e1, e2, ?_⟩
  by_cases h0 : d.seconds < 0
  · rw [abs_of_neg h0] at hn
    rw [abs_of_neg (hneg.1 h0)] at hn'
    rw [abs_le] at hn hn' ⊢
    constructor <;> linarith
  · rw [abs_of_nonneg (not_lt.1 h0)] at hn
    rw [abs_of_nonneg (not_lt.1 (fun h => h0 (hneg.2 h)))] at hn'
    rw [abs_le] at hn hn' ⊢
    constructor <;> linarith

/-- C95: decimal hours made of parts always print the same. -/
theorem C95_parts (R : Rounding) (h m s : ℚ) : (DecimalHour.ofParts R h m s).print = b!"Hours: 0h 0m 0.000000s " := by
  have e : fixed6 0 = b!"0.000000" := by
    have e : roundEven (|(0 : ℚ)| * 1000000) = 0 := (roundEven_eq_even (by norm_num)).2 (by norm_num)
    rw [fixed6, e]
    rfl
  have e' : (DecimalHour.ofParts R h m s).print = b!"Hours: " ++ (showInt 0 ++ b!"h " ++ showInt 0 ++ b!"m " ++ fixed6 0 ++ b!"s ") := rfl
  rw [e', e]
  rfl

/-- C95: seconds from 59.9999995 on are printed as 60.000000. -/
theorem C95_sixty (x : ℚ) (h : |x| < 60) : (fixed6 x = b!"60.000000" ↔ 59.9999995 ≤ x) ∧ (fixed6 x = b!"-60.000000" ↔ x ≤ -59.9999995) := by
  have key : roundEven (|x| * 1000000) = 60000000 ↔ 59.9999995 ≤ |x| := by
    rw [roundEven_eq_even (by norm_num), abs_le]
    constructor
    · rintro ⟨h1, -⟩
      norm_num at h1 ⊢
      linarith
    · intro h1
      norm_num at h1 ⊢
      constructor <;> linarith
  have hm : millionths x = 60000000 ↔ 59.9999995 ≤ |x| := by
    have := roundEven_nonneg (x := |x| * 1000000) (by positivity)
    rw [← key, millionths]
    omega
  have f1 : Spec.Fixed6 b!"60.000000" False 60000000 :=
    ⟨[], b!"60", b!"000000", rfl, Or.inr ⟨id, rfl⟩, isNat_iff.2 rfl, ⟨by decide, by decide⟩, rfl, rfl⟩
  have f2 : Spec.Fixed6 b!"-60.000000" True 60000000 :=
    ⟨b!"-", b!"60", b!"000000", rfl, Or.inl ⟨trivial, rfl⟩, isNat_iff.2 rfl, ⟨by decide, by decide⟩, rfl, rfl⟩
  have hz : 59.9999995 ≤ |x| → fixed6 x = (if x < 0 then b!"-" else []) ++ b!"60.000000" := by
    intro hx
    have e : fixed6 x = (if x < 0 then b!"-" else []) ++ showNat (millionths x / 1000000) ++ b!"." ++ zeroPad 6 (millionths x % 1000000) := rfl
    rw [e, hm.2 hx, List.append_assoc, List.append_assoc]
    rfl
  constructor
  · constructor
    · intro e
      have hs := fixed6_spec x
      rw [e] at hs
      obtain ⟨h1, h2⟩ := fixed6_unique hs f1
      have h3 := hm.1 h2
      rwa [abs_of_nonneg (not_lt.1 h1.1)] at h3
    · intro hx
      have h0 : ¬ x < 0 := by norm_num at hx ⊢; linarith
      rw [hz (le_trans hx (le_abs_self x)), if_neg h0]
      rfl
  · constructor
    · intro e
      have hs := fixed6_spec x
      rw [e] at hs
      obtain ⟨h1, h2⟩ := fixed6_unique hs f2
      have h3 := hm.1 h2
      rw [abs_of_neg (h1.2 trivial)] at h3
      linarith
    · intro hx
      have h0 : x < 0 := by norm_num at hx ⊢; linarith
      rw [hz (by rw [abs_of_neg h0]; linarith), if_pos h0]
      rfl

/-- C95: so 0h 0m 60.000000s is printed, whatever the rounding to nearest, for a double just below one minute. -/
theorem C95_sixty_double : ∃ d : ℚ, IsDouble d ∧ d < 1 / 60 ∧ ∀ N : Spec.Nearest, ∃ r, DecimalHour.ofDecimal N.rounding d = some r ∧
    r.print = b!"Hours: 0h 0m 60.000000s " := by
  refine ⟨18325193794 / 2 ^ 40, ⟨18325193794, -40, by norm_num, by norm_num, by norm_num, by norm_num⟩, by norm_num, fun N => ?_⟩
  have hd : IsDouble (18325193794 / 2 ^ 40) := ⟨18325193794, -40, by norm_num, by norm_num, by norm_num, by norm_num⟩
  obtain ⟨r, hr⟩ := Option.isSome_iff_exists.1 ((C90_split N _ hd).2.2 (by norm_num))
  obtain ⟨-, hsp⟩ := (C90_split N _ hd).1 r hr
  refine ⟨r, hr, ?_⟩
  obtain ⟨hsum, hmin, hsec, hnn, -⟩ := hsp
  obtain ⟨h0, m0, s0⟩ := hnn (by norm_num)
  have h0' : (0 : ℚ) ≤ r.hours := by exact_mod_cast h0
  have m0' : (0 : ℚ) ≤ r.minutes := by exact_mod_cast m0
  rw [abs_le] at hsum
  norm_num at hsum
  have eh : r.hours = 0 := by
    have : (r.hours : ℚ) < 1 := by linarith
    have : r.hours < 1 := by exact_mod_cast this
    omega
  have em : r.minutes = 0 := by
    have : (r.minutes : ℚ) < 1 := by linarith
    have : r.minutes < 1 := by exact_mod_cast this
    omega
  rw [eh, em] at hsum
  have hs : 59.9999995 ≤ r.seconds := by
    norm_num at hsum ⊢
    linarith
  rw [DecimalHour.print, eh, em, (C95_sixty r.seconds hsec).1.2 hs]
  rfl

/-- 1.51 hours (no rounding) print as 1h 30m 36.000000s. -/
example : DecimalHour.print ⟨1.51, 1, 30, 36⟩ = b!"Hours: 1h 30m 36.000000s " := by
  have e : roundEven (|(36 : ℚ)| * 1000000) = 36000000 := (roundEven_eq_even (by norm_num)).2 (by norm_num)
  rw [DecimalHour.print, fixed6, e]
  rfl

end Astro
