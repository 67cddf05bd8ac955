import Verif.Lemmas.VecScale

/-
C104 to C108: arithmetic of Cartesian vectors of doubles.
-/

set_option exponentiation.threshold 3000

namespace Astro

open Spec Time FloatFmt

attribute [local irreducible] FloatFmt.nearest FloatFmt.value Dbl.round Nat.sqrt

/-! ### C104: dot product -/

/-- **C104.** The dot product is the same in both orders, whatever the coordinates. -/
theorem C104_comm (a b : DVec) : a.dot b = b.dot a := by
  unfold DVec.dot
  rw [dbl_mul_comm a.x, dbl_mul_comm a.y, dbl_mul_comm a.z]

/-- **C104.** Its error is small compared with the sum of the absolute products. -/
theorem C104_error (a b : DVec) (x y z x' y' z' : ℚ) (ha : Coords a x y z) (hb : Coords b x' y' z')
    (h : |x * x'| + |y * y'| + |z * z'| ≤ 2 ^ 1022) :
    ∃ d, a.dot b = .num d ∧ |d - (x * x' + y * y' + z * z')| ≤ 2 ^ (-51 : ℤ) * (|x * x'| + |y * y'| + |z * z'|) + 2 ^ (-1073 : ℤ) := by
  obtain ⟨rfl, -⟩ := ha
  obtain ⟨rfl, -⟩ := hb
  have a1 := abs_nonneg (x * x')
  have a2 := abs_nonneg (y * y')
  have a3 := abs_nonneg (z * z')
  obtain ⟨p, hp, dp, ep, -⟩ := mul_err (big_top (show |x * x'| ≤ _ by linarith))
  obtain ⟨q, hq, dq, eq, -⟩ := mul_err (big_top (show |y * y'| ≤ _ by linarith))
  obtain ⟨r, hr, dr, er, -⟩ := mul_err (big_top (show |z * z'| ≤ _ by linarith))
  obtain ⟨s, hs, -, es, -⟩ := nested_err le_rfl le_rfl le_rfl h ep eq er dp dq dr
  refine ⟨s, ?_, ?_⟩
  · unfold DVec.dot
    rw [hp, hq, hr, hs]
  · rw [four_ulp, four_speck] at es
    exact es

/-- **C104.** It is exact for integers that are not too large. -/
theorem C104_integers (a b : DVec) (i j k i' j' k' : ℤ) (ha : Coords a i j k) (hb : Coords b i' j' k')
    (h : |i * i'| + |j * j'| + |k * k'| ≤ 2 ^ 53) : a.dot b = .num (i * i' + j * j' + k * k') := by
  obtain ⟨rfl, -⟩ := ha
  obtain ⟨rfl, -⟩ := hb
  unfold DVec.dot
  have h1 := abs_add_le (j * j') (k * k')
  have h2 := abs_add_le (i * i') (j * j' + k * k')
  have a1 := abs_nonneg (i * i')
  have a2 := abs_nonneg (j * j')
  have a3 := abs_nonneg (k * k')
  dsimp only
  rw [mul_int (by linarith), mul_int (by linarith), mul_int (by linarith), add_int (by linarith), add_int (by linarith)]
  push_cast
  rw [add_assoc]

/-- **C104.** Cancellation can leave nothing of the result, and the order of the coordinates matters. -/
theorem C104_cancel : ∃ a a' b : DVec, Coords a (-2 ^ 54) (2 ^ 54) 1 ∧ Coords a' 1 (-2 ^ 54) (2 ^ 54) ∧ Coords b 1 1 1 ∧ a.dot b = .num 0 ∧ a'.dot b = .num 1 := by
  have d1 : IsDouble 1 := by simpa using isDouble_int (i := 1) (by norm_num)
  have d2 : IsDouble (2 ^ 54) := ⟨1, 54, by norm_num, by norm_num, by norm_num, by norm_num⟩
  exact ⟨_, _, _, ⟨rfl, isDouble_neg d2, d2, d1⟩, ⟨rfl, d1, isDouble_neg d2, d2⟩, ⟨rfl, d1, d1, d1⟩, by decide +kernel, by decide +kernel⟩

/-- (1, 2, 3) · (4, -5, 6) = 12; 0.1 · 0.1 three times is not the double closest to 0.03. -/
example : DVec.dot ⟨.num 1, .num 2, .num 3⟩ ⟨.num 4, .num (-5), .num 6⟩ = .num 12 ∧
    DVec.dot ⟨.round (1 / 10), .round (1 / 10), .round (1 / 10)⟩ ⟨.round (1 / 10), .round (1 / 10), .round (1 / 10)⟩ ≠ .round (3 / 100) := by
  constructor <;> decide +kernel

/-! ### C105: cross product -/

/-- **C105.** Exchanging the arguments changes the signs and nothing else, whatever the coordinates. -/
theorem C105_swap (a b : DVec) : b.cross a = opposite (a.cross b) := by
  unfold DVec.cross opposite
  dsimp only
  rw [dbl_mul_comm b.y, dbl_mul_comm b.z, dbl_mul_comm b.z, dbl_mul_comm b.x, dbl_mul_comm b.x, dbl_mul_comm b.y, dbl_sub_swap, dbl_sub_swap (a.z.mul b.x),
    dbl_sub_swap (a.x.mul b.y)]

/-- **C105.** A vector times itself: zero, or NaN where the product overflows. -/
theorem C105_self (a : DVec) (x y z : ℚ) (h : Coords a x y z) :
    (a.cross a).x = (if |y * z| < limit .double then .num 0 else .nan) ∧ (a.cross a).y = (if |z * x| < limit .double then .num 0 else .nan) ∧
      (a.cross a).z = if |x * y| < limit .double then .num 0 else .nan := by
  obtain ⟨rfl, -⟩ := h
  have key : ∀ p q : ℚ, ((Dbl.num p).mul (.num q)).sub ((Dbl.num q).mul (.num p)) = if |p * q| < limit .double then .num 0 else .nan := by
    intro p q
    rw [dbl_mul_comm (.num q), mul_num]
    split
    · next h => rw [round_eq h, sub_num, sub_self, round_zero]
    · next h =>
      rw [round_inf (not_lt.1 h)]
      cases decide (p * q < 0) <;> rfl
  exact ⟨key y z, key z x, key x y⟩

/-- **C105.** The error of each coordinate is small compared with the sum of its absolute products. -/
theorem C105_error (a b : DVec) (x y z x' y' z' : ℚ) (ha : Coords a x y z) (hb : Coords b x' y' z')
    (hx : |y * z'| + |z * y'| ≤ 2 ^ 1022) (hy : |z * x'| + |x * z'| ≤ 2 ^ 1022) (hz : |x * y'| + |y * x'| ≤ 2 ^ 1022) :
    ∃ p q r, Coords (a.cross b) p q r ∧
      |p - (y * z' - z * y')| ≤ 2 ^ (-51 : ℤ) * (|y * z'| + |z * y'|) + 2 ^ (-1073 : ℤ) ∧
      |q - (z * x' - x * z')| ≤ 2 ^ (-51 : ℤ) * (|z * x'| + |x * z'|) + 2 ^ (-1073 : ℤ) ∧
      |r - (x * y' - y * x')| ≤ 2 ^ (-51 : ℤ) * (|x * y'| + |y * x'|) + 2 ^ (-1073 : ℤ) := by
  obtain ⟨rfl, -⟩ := ha
  obtain ⟨rfl, -⟩ := hb
  have key : ∀ s t s' t' : ℚ, |s * t| + |s' * t'| ≤ 2 ^ 1022 → ∃ p, ((Dbl.num s).mul (.num t)).sub ((Dbl.num s').mul (.num t')) = .num p ∧ IsDouble p ∧
      |p - (s * t - s' * t')| ≤ 2 ^ (-51 : ℤ) * (|s * t| + |s' * t'|) + 2 ^ (-1073 : ℤ) := by
    intro s t s' t' h
    have a1 := abs_nonneg (s * t)
    have a2 := abs_nonneg (s' * t')
    obtain ⟨p, hp, dp, ep, -⟩ := mul_err (big_top (show |s * t| ≤ _ by linarith))
    obtain ⟨q, hq, dq, eq, -⟩ := mul_err (big_top (show |s' * t'| ≤ _ by linarith))
    obtain ⟨r, hr, dr, er, -⟩ := sub_err le_rfl le_rfl h ep eq dp dq
    rw [four_ulp, four_speck] at er
    exact ⟨r, by rw [hp, hq, hr], dr, er⟩
  obtain ⟨p, hp, dp, ep⟩ := key y z' z y' hx
  obtain ⟨q, hq, dq, eq⟩ := key z x' x z' hy
  obtain ⟨r, hr, dr, er⟩ := key x y' y x' hz
  exact ⟨p, q, r, ⟨by unfold DVec.cross; rw [hp, hq, hr], dp, dq, dr⟩, ep, eq, er⟩

/-- **C105.** It is exact for integers that are not too large. -/
theorem C105_integers (a b : DVec) (i j k i' j' k' : ℤ) (ha : Coords a i j k) (hb : Coords b i' j' k')
    (hx : |j * k'| + |k * j'| ≤ 2 ^ 53) (hy : |k * i'| + |i * k'| ≤ 2 ^ 53) (hz : |i * j'| + |j * i'| ≤ 2 ^ 53) :
    Coords (a.cross b) (j * k' - k * j') (k * i' - i * k') (i * j' - j * i') := by
  obtain ⟨rfl, -⟩ := ha
  obtain ⟨rfl, -⟩ := hb
  have key : ∀ s t s' t' : ℤ, |s * t| + |s' * t'| ≤ 2 ^ 53 → ((Dbl.num s).mul (.num t)).sub ((Dbl.num s').mul (.num t')) = .num (s * t - s' * t') ∧
      IsDouble (s * t - s' * t') := by
    intro s t s' t' h
    have a1 := abs_nonneg (s * t)
    have a2 := abs_nonneg (s' * t')
    have a3 := abs_sub (s * t) (s' * t')
    have d := isDouble_int (i := s * t - s' * t') (by linarith)
    rw [mul_int (by linarith), mul_int (by linarith), sub_int (by linarith)]
    push_cast at d ⊢
    exact ⟨rfl, d⟩
  obtain ⟨h1, d1⟩ := key j k' k j' hx
  obtain ⟨h2, d2⟩ := key k i' i k' hy
  obtain ⟨h3, d3⟩ := key i j' j i' hz
  exact ⟨by unfold DVec.cross; rw [h1, h2, h3], d1, d2, d3⟩

/-- **C105.** The result need not be perpendicular to the arguments in the same arithmetic: (0.7, 0.7, 0.1) and (0.8, 0.5, 0.4). -/
theorem C105_perpendicular : ∃ a b : DVec, ∃ x y z x' y' z', Coords a x y z ∧ Coords b x' y' z' ∧ Rounded (7 / 10) x ∧ Rounded (7 / 10) y ∧
    Rounded (1 / 10) z ∧ Rounded (8 / 10) x' ∧ Rounded (5 / 10) y' ∧ Rounded (4 / 10) z' ∧ a.dot (a.cross b) = .num (2 ^ (-55 : ℤ)) := by
  have key : ∀ q r : ℚ, |q| < limit .double → Dbl.round q = .num r → Rounded q r ∧ IsDouble r := by
    intro q r h hr
    refine ⟨?_, round_double hr⟩
    rw [round_eq h] at hr
    rw [← Dbl.num.inj hr]
    exact rnd_rounded h
  have lim : ∀ q : ℚ, |q| ≤ 1 → |q| < limit .double := by
    intro q h
    rw [limit_double_eq]
    exact h.trans_lt (by norm_num)
  obtain ⟨r7, d7⟩ := key (7 / 10) (3152519739159347 / 4503599627370496) (lim _ (by norm_num [abs_of_pos])) (by decide +kernel)
  obtain ⟨r1, d1⟩ := key (1 / 10) (3602879701896397 / 36028797018963968) (lim _ (by norm_num [abs_of_pos])) (by decide +kernel)
  obtain ⟨r8, d8⟩ := key (8 / 10) (3602879701896397 / 4503599627370496) (lim _ (by norm_num [abs_of_pos])) (by decide +kernel)
  obtain ⟨r5, d5⟩ := key (5 / 10) (1 / 2) (lim _ (by norm_num [abs_of_pos])) (by decide +kernel)
  obtain ⟨r4, d4⟩ := key (4 / 10) (3602879701896397 / 9007199254740992) (lim _ (by norm_num [abs_of_pos])) (by decide +kernel)
  exact ⟨_, _, _, _, _, _, _, _, ⟨rfl, d7, d7, d1⟩, ⟨rfl, d8, d5, d4⟩, r7, r7, r1, r8, r5, r4, by decide +kernel⟩

/-- (1, 2, 3) × (4, 5, 6) = (-3, 6, -3); the square of a vector with a coordinate of 2^600 and one of 2^500 has a NaN. -/
example : DVec.cross ⟨.num 1, .num 2, .num 3⟩ ⟨.num 4, .num 5, .num 6⟩ = ⟨.num (-3), .num 6, .num (-3)⟩ ∧
    DVec.cross ⟨.num (2 ^ 600), .num (2 ^ 500), .num 0⟩ ⟨.num (2 ^ 600), .num (2 ^ 500), .num 0⟩ = ⟨.num 0, .num 0, .nan⟩ := by
  constructor <;> decide +kernel

/-! ### C106: magnitude -/

/-- **C106.** In the middle of the range the magnitude is accurate and not smaller than any coordinate. -/
theorem C106_error (v : DVec) (x y z : ℚ) (h : Coords v x y z) (hlo : 2 ^ (-960 : ℤ) ≤ x * x + y * y + z * z)
    (hhi : x * x + y * y + z * z ≤ 2 ^ (1000 : ℤ)) :
    ∃ m : ℚ, v.magnitude = .num m ∧ |(m : ℝ) - √(x * x + y * y + z * z : ℝ)| ≤ 2 ^ (-51 : ℤ) * √(x * x + y * y + z * z : ℝ) ∧
      |x| ≤ m ∧ |y| ≤ m ∧ |z| ≤ m := by
  obtain ⟨m, hm, -, -, he, hc⟩ := magnitude_err h hlo hhi
  refine ⟨m, hm, ?_, hc⟩
  unfold lengthOf at he
  rw [← four_ulp_real]
  push_cast at he
  linarith

/-- **C106.** It is exact for integers with an integer length. -/
theorem C106_integers (v : DVec) (i j k n : ℤ) (h : Coords v i j k) (hn : i * i + j * j + k * k = n * n) (hb : |n| ≤ 2 ^ 26) :
    v.magnitude = .num |n| := by
  obtain ⟨rfl, -⟩ := h
  have i0 := mul_self_nonneg i
  have j0 := mul_self_nonneg j
  have k0 := mul_self_nonneg k
  have hnn : n * n ≤ 2 ^ 53 := by
    rw [← abs_mul_abs_self]
    have := mul_le_mul hb hb (abs_nonneg _) (by norm_num)
    exact this.trans (by norm_num)
  have b : ∀ t : ℤ, 0 ≤ t → t ≤ n * n → |t| ≤ 2 ^ 53 := fun t h0 h => by rw [abs_of_nonneg h0]; linarith
  have hs : squares ⟨.num i, .num j, .num k⟩ = .num ((n * n : ℤ) : ℚ) := by
    unfold squares
    dsimp only
    rw [mul_int (b _ i0 (by linarith)), mul_int (b _ j0 (by linarith)), mul_int (b _ k0 (by linarith)), add_int (b _ (by linarith) (by linarith)),
      add_int (b _ (by linarith) (by linarith)), hn]
  have hd := isDouble_int (i := n * n) (b _ (mul_self_nonneg n) le_rfl)
  obtain ⟨r, hr, -, -, -, hc⟩ := sqrt_closest (by exact_mod_cast mul_self_nonneg n) hd
  rw [magnitude_eq, hs, hr]
  have hroot : √(((n * n : ℤ) : ℚ) : ℝ) = ((|n| : ℤ) : ℝ) := by
    push_cast
    exact Real.sqrt_mul_self_eq_abs _
  have h1 := hc _ (isDouble_int (i := |n|) (by rw [abs_abs]; exact hb.trans (by norm_num)))
  rw [hroot, Rat.cast_intCast, sub_self, abs_zero] at h1
  have h2 := abs_nonpos_iff.1 h1
  have h3 : r = ((|n| : ℤ) : ℚ) := by
    have : (r : ℝ) = (((|n| : ℤ) : ℚ) : ℝ) := by
      push_cast at h2 ⊢
      linarith
    exact_mod_cast this
  rw [h3]
  push_cast
  rfl

/-- **C106.** It is zero exactly when the squares of all coordinates are at most half the smallest double. -/
theorem C106_zero (v : DVec) (x y z : ℚ) (h : Coords v x y z) :
    v.magnitude = .num 0 ↔ x * x ≤ 2 ^ (-1075 : ℤ) ∧ y * y ≤ 2 ^ (-1075 : ℤ) ∧ z * z ≤ 2 ^ (-1075 : ℤ) := by
  obtain ⟨rfl, -⟩ := h
  rw [magnitude_eq, ← speck, ← round_zero_iff (mul_self_nonneg x), ← round_zero_iff (mul_self_nonneg y), ← round_zero_iff (mul_self_nonneg z)]
  unfold squares
  dsimp only
  simp only [mul_num]
  have nx := round_nonneg (mul_self_nonneg x)
  have ny := round_nonneg (mul_self_nonneg y)
  have nz := round_nonneg (mul_self_nonneg z)
  have dx : ∀ r, Dbl.round (x * x) = .num r → IsDouble r := fun _ => round_double
  have dy : ∀ r, Dbl.round (y * y) = .num r → IsDouble r := fun _ => round_double
  have dz : ∀ r, Dbl.round (z * z) = .num r → IsDouble r := fun _ => round_double
  generalize Dbl.round (x * x) = a at *
  generalize Dbl.round (y * y) = b at *
  generalize Dbl.round (z * z) = c at *
  rw [root_zero_iff (add_nonneg' (add_nonneg' nx ny) nz) (fun _ => add_double), sum_zero_iff (add_nonneg' nx ny) nz (fun _ => add_double) dz,
    sum_zero_iff nx ny dx dy, and_assoc]

/-- **C106.** It is infinite as soon as a coordinate reaches 2^512. -/
theorem C106_infinite (v : DVec) (x y z : ℚ) (h : Coords v x y z) (hb : 2 ^ 512 ≤ |x| ∨ 2 ^ 512 ≤ |y| ∨ 2 ^ 512 ≤ |z|) : v.magnitude = .inf false := by
  obtain ⟨rfl, -⟩ := h
  rw [magnitude_eq]
  unfold squares
  dsimp only
  simp only [mul_num]
  have nx := round_nonneg (mul_self_nonneg x)
  have ny := round_nonneg (mul_self_nonneg y)
  have nz := round_nonneg (mul_self_nonneg z)
  have key : ∀ t : ℚ, 2 ^ 512 ≤ |t| → Dbl.round (t * t) = .inf false := by
    intro t ht
    rw [round_inf]
    · simp [mul_self_nonneg]
    · rw [abs_mul_self, ← abs_mul_abs_self, limit_double_eq]
      refine le_trans ?_ (mul_le_mul ht ht (by positivity) (abs_nonneg _))
      norm_num
  have hinf : ((Dbl.round (x * x)).add (Dbl.round (y * y))).add (Dbl.round (z * z)) = .inf false := by
    rcases hb with h | h | h
    · rw [key x h, inf_add ny, inf_add nz]
    · rw [key y h, dbl_add_comm (Dbl.round (x * x)), inf_add nx, inf_add nz]
    · rw [key z h, dbl_add_comm, inf_add (add_nonneg' nx ny)]
  rw [hinf]
  rfl

/-- The magnitude of (2, -3, 6) is 7, that of (2^-540, 0, 0) is 0. -/
example : DVec.magnitude ⟨.num 2, .num (-3), .num 6⟩ = .num 7 ∧ DVec.magnitude ⟨.num (2 ^ (-540 : ℤ)), .num 0, .num 0⟩ = .num 0 := by
  constructor <;> decide +kernel

/-! ### C107: unit vector -/

/-- **C107.** In the middle of the range the coordinates of the unit vector are accurate and at most 1, and so is the number whose arc cosine or arc
sine gives the latitude. -/
theorem C107_error (v : DVec) (x y z : ℚ) (h : Coords v x y z) (hlo : 2 ^ (-960 : ℤ) ≤ x * x + y * y + z * z)
    (hhi : x * x + y * y + z * z ≤ 2 ^ (1000 : ℤ)) (L : ℝ) (hL : L = √(x * x + y * y + z * z : ℝ)) :
    ∃ p q r : ℚ, Coords v.unitVector p q r ∧ v.polar = some (.num r) ∧ |p| ≤ 1 ∧ |q| ≤ 1 ∧ |r| ≤ 1 ∧
      |(p : ℝ) - x / L| ≤ 2 ^ (-50 : ℤ) * (|(x : ℝ)| / L) + 2 ^ (-1075 : ℤ) ∧ |(q : ℝ) - y / L| ≤ 2 ^ (-50 : ℤ) * (|(y : ℝ)| / L) + 2 ^ (-1075 : ℤ) ∧
      |(r : ℝ) - z / L| ≤ 2 ^ (-50 : ℤ) * (|(z : ℝ)| / L) + 2 ^ (-1075 : ℤ) ∧ |p * p + q * q + r * r - 1| ≤ 2 ^ (-48 : ℤ) := by
  obtain ⟨m, hm, dm, m0, he, cx, cy, cz⟩ := magnitude_err h hlo hhi
  have e1 : lengthOf x y z = L := by
    rw [hL, lengthOf]
    push_cast
    rfl
  rw [e1] at he
  have hS0 : 0 < x * x + y * y + z * z := lt_of_lt_of_le (two_zpow_pos _) hlo
  have hSr : (0 : ℝ) < (x * x + y * y + z * z : ℝ) := by exact_mod_cast hS0
  have hLL : L * L = x * x + y * y + z * z := by rw [hL]; exact Real.mul_self_sqrt hSr.le
  have hLp : 0 < L := by rw [hL]; exact Real.sqrt_pos.2 hSr
  have hmp : 0 < m := lt_of_lt_of_le (two_zpow_pos _) m0
  obtain ⟨p, hp, dp, bp, ep⟩ := quotient_err hmp cx hLp he
  obtain ⟨q, hq, dq, bq, eq⟩ := quotient_err hmp cy hLp he
  obtain ⟨r, hr, dr, br, er⟩ := quotient_err hmp cz hLp he
  have hpol : v.polar = some (.num r) := by
    have hsq : (squares v).sqrt = .num m := by rw [← magnitude_eq, hm]
    show (if (Dbl.num 0).less (squares v).sqrt then some (v.z.div (squares v).sqrt) else none) = _
    rw [hsq, if_pos (by simpa [Dbl.less] using hmp), h.1]
    exact congrArg some hr
  have hlen : |p * p + q * q + r * r - 1| ≤ 2 ^ (-48 : ℤ) := by
    have := length_err hLp hLL ep eq er
    have h2 : ((|p * p + q * q + r * r - 1| : ℚ) : ℝ) ≤ ((2 ^ (-48 : ℤ) : ℚ) : ℝ) := by
      push_cast
      exact this
    exact_mod_cast h2
  rw [eight_ulp_real, speck_real] at ep eq er
  exact ⟨p, q, r, ⟨by unfold DVec.unitVector; rw [hm, h.1]; dsimp only; rw [hp, hq, hr], dp, dq, dr⟩, hpol, bp, bq, br, ep, eq, er, hlen⟩

/-- **C107.** With a coordinate of 2^512 or more the unit vector is zero. -/
theorem C107_large (v : DVec) (x y z : ℚ) (h : Coords v x y z) (hb : 2 ^ 512 ≤ |x| ∨ 2 ^ 512 ≤ |y| ∨ 2 ^ 512 ≤ |z|) :
    v.unitVector = ⟨.num 0, .num 0, .num 0⟩ := by
  unfold DVec.unitVector
  rw [C106_infinite v x y z h hb, h.1]
  rfl

/-- **C107.** When the squares of all coordinates are at most 2^-1075 the coordinates of the unit vector are infinite, or NaN where they are zero. -/
theorem C107_small (v : DVec) (x y z : ℚ) (h : Coords v x y z) (hx : x * x ≤ 2 ^ (-1075 : ℤ)) (hy : y * y ≤ 2 ^ (-1075 : ℤ)) (hz : z * z ≤ 2 ^ (-1075 : ℤ)) :
    v.unitVector = ⟨if x = 0 then .nan else .inf (decide (x < 0)), if y = 0 then .nan else .inf (decide (y < 0)), if z = 0 then .nan else .inf (decide (z < 0))⟩ ∧
      v.polar = none := by
  have hm := (C106_zero v x y z h).2 ⟨hx, hy, hz⟩
  constructor
  · unfold DVec.unitVector
    rw [hm, h.1]
    simp only [Dbl.div, if_true]
  · have hsq : (squares v).sqrt = .num 0 := by rw [← magnitude_eq, hm]
    show (if (Dbl.num 0).less (squares v).sqrt then some (v.z.div (squares v).sqrt) else none) = _
    rw [hsq]
    simp [Dbl.less]

/-- The unit vector of (2, -3, 6) has the doubles closest to 2/7, -3/7 and 6/7, that of (2^600, 1, 1) is zero. -/
example : DVec.unitVector ⟨.num 2, .num (-3), .num 6⟩ = ⟨.round (2 / 7), .round (-3 / 7), .round (6 / 7)⟩ ∧
    DVec.unitVector ⟨.num (2 ^ 600), .num 1, .num 1⟩ = ⟨.num 0, .num 0, .num 0⟩ := by
  constructor <;> decide +kernel

/-! ### C108: sum and mean -/

/-- **C108.** Each coordinate of a sum is the exact one, rounded once. -/
theorem C108_sum (a b : DVec) (x y z x' y' z' : ℚ) (ha : Coords a x y z) (hb : Coords b x' y' z') :
    RoundedTo (x + x') (a.sum b).x ∧ RoundedTo (y + y') (a.sum b).y ∧ RoundedTo (z + z') (a.sum b).z := by
  obtain ⟨rfl, -⟩ := ha
  obtain ⟨rfl, -⟩ := hb
  have key : ∀ s t : ℚ, RoundedTo (s + t) ((Dbl.num s).add (.num t)) := fun s t =>
    ⟨fun h => ⟨_, round_eq h, rnd_rounded h⟩, fun h => round_inf h⟩
  exact ⟨key x x', key y y', key z z'⟩

/-- **C108.** The order of the arguments does not matter, zero is neutral, and a vector plus its opposite is zero. -/
theorem C108_laws (a : DVec) : (∀ b, a.sum b = b.sum a ∧ a.mean b = b.mean a) ∧
    ∀ x y z, Coords a x y z → a.sum ⟨.num 0, .num 0, .num 0⟩ = a ∧ a.sum (opposite a) = ⟨.num 0, .num 0, .num 0⟩ := by
  refine ⟨fun b => ⟨?_, ?_⟩, ?_⟩
  · unfold DVec.sum
    rw [dbl_add_comm a.x, dbl_add_comm a.y, dbl_add_comm a.z]
  · unfold DVec.mean
    rw [dbl_add_comm a.x, dbl_add_comm a.y, dbl_add_comm a.z]
  · rintro x y z ⟨rfl, dx, dy, dz⟩
    constructor
    · unfold DVec.sum
      simp only [add_num, add_zero, round_exact dx, round_exact dy, round_exact dz]
    · unfold DVec.sum opposite
      simp only [Dbl.neg, add_num, add_neg_cancel, round_zero]

/-- **C108.** Sums of three vectors depend on the grouping. -/
theorem C108_grouping : ∃ a b c : DVec, Coords a (2 ^ 53) 0 0 ∧ Coords b 1 0 0 ∧ Coords c 1 0 0 ∧ (a.sum b).sum c ≠ a.sum (b.sum c) := by
  have d0 := isDouble_zero
  have d1 : IsDouble 1 := by simpa using isDouble_int (i := 1) (by norm_num)
  have d2 : IsDouble (2 ^ 53) := ⟨1, 53, by norm_num, by norm_num, by norm_num, by norm_num⟩
  exact ⟨_, _, _, ⟨rfl, d2, d0, d0⟩, ⟨rfl, d1, d0, d0⟩, ⟨rfl, d1, d0, d0⟩, by decide +kernel⟩

/-- **C108.** The mean of coordinates up to 2^1022 lies between them and is accurate. -/
theorem C108_mean (a b : DVec) (x y z x' y' z' : ℚ) (ha : Coords a x y z) (hb : Coords b x' y' z')
    (h : ∀ c ∈ [x, y, z, x', y', z'], |c| ≤ 2 ^ 1022) :
    ∃ p q r, Coords (a.mean b) p q r ∧ (min x x' ≤ p ∧ p ≤ max x x') ∧ (min y y' ≤ q ∧ q ≤ max y y') ∧ (min z z' ≤ r ∧ r ≤ max z z') ∧
      |p - (x + x') / 2| ≤ |(x + x') / 2| * 2 ^ (-53 : ℤ) + 2 ^ (-1075 : ℤ) ∧ |q - (y + y') / 2| ≤ |(y + y') / 2| * 2 ^ (-53 : ℤ) + 2 ^ (-1075 : ℤ) ∧
      |r - (z + z') / 2| ≤ |(z + z') / 2| * 2 ^ (-53 : ℤ) + 2 ^ (-1075 : ℤ) := by
  obtain ⟨rfl, dx, dy, dz⟩ := ha
  obtain ⟨rfl, dx', dy', dz'⟩ := hb
  obtain ⟨p, hp, dp, p1, p2, ep⟩ := half_sum dx dx' (h x (by simp)) (h x' (by simp))
  obtain ⟨q, hq, dq, q1, q2, eq⟩ := half_sum dy dy' (h y (by simp)) (h y' (by simp))
  obtain ⟨r, hr, dr, r1, r2, er⟩ := half_sum dz dz' (h z (by simp)) (h z' (by simp))
  exact ⟨p, q, r, ⟨by unfold DVec.mean; rw [hp, hq, hr], dp, dq, dr⟩, ⟨p1, p2⟩, ⟨q1, q2⟩, ⟨r1, r2⟩, ep, eq, er⟩

/-- **C108.** So the mean of such a vector with itself is the vector; beyond the bound it can be infinite. -/
theorem C108_same (a : DVec) (x y z : ℚ) (ha : Coords a x y z) (h : ∀ c ∈ [x, y, z], |c| ≤ 2 ^ 1022) :
    a.mean a = a ∧ ∃ b, Coords b (2 ^ 1023) 0 0 ∧ b.mean b = ⟨.inf false, .num 0, .num 0⟩ := by
  constructor
  · obtain ⟨p, q, r, hc, hp, hq, hr, -⟩ := C108_mean a a x y z x y z ha ha (by simp only [List.mem_cons] at h ⊢; rintro c (e | e | e | e | e | e) <;> exact h c (by tauto))
    rw [hc.1, ha.1]
    simp only [min_self, max_self] at hp hq hr
    rw [le_antisymm hp.2 hp.1, le_antisymm hq.2 hq.1, le_antisymm hr.2 hr.1]
  · have hd : IsDouble (2 ^ 1023) := by
      rw [← top_eq]
      exact isDouble_top
    exact ⟨_, ⟨rfl, hd, isDouble_zero, isDouble_zero⟩, by decide +kernel⟩

/-- The mean of (1, 2, 3) and (2, 4, -3) is (1.5, 3, 0). -/
example : DVec.mean ⟨.num 1, .num 2, .num 3⟩ ⟨.num 2, .num 4, .num (-3)⟩ = ⟨.num (3 / 2), .num 3, .num 0⟩ := by decide +kernel

end Astro
