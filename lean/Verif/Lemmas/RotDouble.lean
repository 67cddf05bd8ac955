import Verif.Spec.RotDouble
import Verif.Lemmas.VecDouble
import Verif.Lemmas.Taylor
import Mathlib.Analysis.SpecialFunctions.Trigonometric.Bounds
import Mathlib.Analysis.Complex.Angle

/-
Helper lemmas: error propagation through products and sums of numbers of size one.
-/

set_option exponentiation.threshold 3000

namespace Astro

open Spec Time Matrix

attribute [local irreducible] FloatFmt.nearest FloatFmt.value Dbl.round

/-- The unit of all errors here. -/
noncomputable def unit53 : ℝ := 2 ^ (-53 : ℤ)

theorem unit53_eq : (ulp : ℝ) = unit53 := by unfold ulp unit53; push_cast; rfl

theorem unit53_pos : 0 < unit53 := zpow_pos (by norm_num) _

theorem unit53_small : unit53 ≤ 1 / 2 ^ 20 := by norm_num [unit53]

theorem speck_unit : (speck : ℝ) ≤ unit53 / 2 ^ 20 := by
  have h : speck ≤ 2 ^ (-73 : ℤ) := by
    unfold speck
    exact zpow_le_zpow_right₀ (by norm_num) (by norm_num)
  have h' := (Rat.cast_le (K := ℝ)).2 h
  rw [Rat.cast_zpow, Rat.cast_ofNat] at h'
  refine h'.trans (le_of_eq ?_)
  norm_num [unit53]

theorem two_zpow_real (k : ℤ) : (0 : ℝ) < 2 ^ k := zpow_pos (by norm_num) _

theorem near_mono {d : Dbl} {r e e' : ℝ} (h : Near d r e) (he : e ≤ e') : Near d r e' := by
  obtain ⟨q, h1, h2, h3⟩ := h
  exact ⟨q, h1, h2, h3.trans he⟩

theorem near_neg {d : Dbl} {r e : ℝ} (h : Near d r e) : Near d.neg (-r) e := by
  obtain ⟨q, h1, h2, h3⟩ := h
  refine ⟨-q, by rw [h1]; rfl, isDouble_neg h2, ?_⟩
  push_cast
  rw [show -(q : ℝ) - -r = -((q : ℝ) - r) by ring, abs_neg]
  exact h3

theorem near_exact' {q : ℚ} (h : IsDouble q) : Near (.num q) q 0 := ⟨q, rfl, h, by simp⟩

theorem near_mul {a b : Dbl} {r s e f : ℝ} (ha : Near a r e) (hb : Near b s f) (hr : |r| ≤ 1) (hs : |s| ≤ 1) (he : e ≤ 16 * unit53)
    (hf : f ≤ 16 * unit53) : Near (a.mul b) (r * s) (e + f + 11 / 10 * unit53) := by
  obtain ⟨x, rfl, hx, ex⟩ := ha
  obtain ⟨y, rfl, hy, ey⟩ := hb
  have e0 := (abs_nonneg _).trans ex
  have f0 := (abs_nonneg _).trans ey
  have u0 := unit53_pos
  have u1 := unit53_small
  have sp := speck_unit
  have nx : |(x : ℝ)| ≤ 1 + e := by
    have : (x : ℝ) = r + (x - r) := by ring
    rw [this]; exact (abs_add_le _ _).trans (by linarith)
  have ny : |(y : ℝ)| ≤ 1 + f := by
    have : (y : ℝ) = s + (y - s) := by ring
    rw [this]; exact (abs_add_le _ _).trans (by linarith)
  have hxy : |(x : ℝ) * y - r * s| ≤ e + f + e * f := by
    have : (x : ℝ) * y - r * s = (x - r) * (y - s) + (x - r) * s + r * (y - s) := by ring
    rw [this]
    refine (abs_add_three _ _ _).trans ?_
    rw [abs_mul, abs_mul, abs_mul]
    have h1 := mul_le_mul ex ey (abs_nonneg _) e0
    have h2 := mul_le_mul ex hs (abs_nonneg _) e0
    have h3 := mul_le_mul hr ey (abs_nonneg _) zero_le_one
    linarith
  have hef : e * f ≤ 1 / 100 * unit53 := by
    have := mul_le_mul he hf f0 (by linarith)
    have h2 : 16 * unit53 * (16 * unit53) = 256 * (unit53 * unit53) := by ring
    have h3 : unit53 * unit53 ≤ unit53 * (1 / 2 ^ 20) := mul_le_mul_of_nonneg_left u1 u0.le
    linarith
  have nxy : |(x : ℝ) * y| ≤ 1 + 1 / 100 := by
    have : (x : ℝ) * y = r * s + (x * y - r * s) := by ring
    rw [this]
    refine (abs_add_le _ _).trans ?_
    have h1 : |r * s| ≤ 1 := by rw [abs_mul]; exact mul_le_one₀ hr (abs_nonneg _) hs
    linarith
  have nxyq : |x * y| ≤ 1 + 1 / 100 := by
    have : ((|x * y| : ℚ) : ℝ) ≤ ((1 + 1 / 100 : ℚ) : ℝ) := by push_cast; exact nxy
    exact (Rat.cast_le (K := ℝ)).1 this
  obtain ⟨p, h1, h2, h3, -⟩ := mul_err (x := x) (y := y) (nxyq.trans (by
    have : (1 : ℚ) + 1 / 100 ≤ 2 ^ (1 : ℤ) := by norm_num
    exact this.trans (zpow_le_zpow_right₀ (by norm_num) (by norm_num))))
  refine ⟨p, h1, h2, ?_⟩
  have h3' : |(p : ℝ) - x * y| ≤ |(x : ℝ) * y| * unit53 + speck := by
    have := (Rat.cast_le (K := ℝ)).2 h3
    push_cast at this
    rw [unit53_eq] at this
    exact this
  have h4 : |(x : ℝ) * y| * unit53 ≤ (1 + 1 / 100) * unit53 := mul_le_mul_of_nonneg_right nxy u0.le
  have : (p : ℝ) - r * s = (p - x * y) + (x * y - r * s) := by ring
  rw [this]
  refine (abs_add_le _ _).trans ?_
  linarith

theorem near_add {a b : Dbl} {r s e f : ℝ} (ha : Near a r e) (hb : Near b s f) (hrs : |r + s| ≤ 1 + 1 / 100) (he : e ≤ 16 * unit53)
    (hf : f ≤ 16 * unit53) : Near (a.add b) (r + s) (e + f + 11 / 10 * unit53) := by
  obtain ⟨x, rfl, hx, ex⟩ := ha
  obtain ⟨y, rfl, hy, ey⟩ := hb
  have u0 := unit53_pos
  have u1 := unit53_small
  have hxy : |((x : ℝ) + y) - (r + s)| ≤ e + f := by
    have : ((x : ℝ) + y) - (r + s) = (x - r) + (y - s) := by ring
    rw [this]
    exact (abs_add_le _ _).trans (by linarith)
  have nxy : |(x : ℝ) + y| ≤ 1 + 2 / 100 := by
    have : (x : ℝ) + y = (r + s) + ((x + y) - (r + s)) := by ring
    rw [this]
    exact (abs_add_le _ _).trans (by linarith)
  have nxyq : |x + y| ≤ 1 + 2 / 100 := by
    have : ((|x + y| : ℚ) : ℝ) ≤ ((1 + 2 / 100 : ℚ) : ℝ) := by push_cast; exact nxy
    exact (Rat.cast_le (K := ℝ)).1 this
  obtain ⟨p, h1, h2, h3, -⟩ := add_err hx hy (nxyq.trans (by
    have : (1 : ℚ) + 2 / 100 ≤ 2 ^ (1 : ℤ) := by norm_num
    exact this.trans (zpow_le_zpow_right₀ (by norm_num) (by norm_num))))
  refine ⟨p, h1, h2, ?_⟩
  have h3' : |(p : ℝ) - (x + y)| ≤ |(x : ℝ) + y| * unit53 := by
    have := (Rat.cast_le (K := ℝ)).2 h3
    push_cast at this
    rw [unit53_eq] at this
    exact this
  have h4 : |(x : ℝ) + y| * unit53 ≤ (1 + 2 / 100) * unit53 := mul_le_mul_of_nonneg_right nxy u0.le
  have : (p : ℝ) - (r + s) = (p - (x + y)) + ((x + y) - (r + s)) := by ring
  rw [this]
  refine (abs_add_le _ _).trans ?_
  linarith

theorem isDouble_one : IsDouble 1 := by simpa using isDouble_int (i := 1) (by norm_num)

/-- Multiplication with 0, 1 and -1 is exact. -/
theorem zero_mul_near {b : Dbl} {s f : ℝ} (hb : Near b s f) : (Dbl.num 0).mul b = .num 0 := by
  obtain ⟨y, rfl, hy, -⟩ := hb
  show Dbl.round (0 * y) = _
  rw [zero_mul, round_zero]

theorem one_mul_near {b : Dbl} {s f : ℝ} (hb : Near b s f) : (Dbl.num 1).mul b = b := by
  obtain ⟨y, rfl, hy, -⟩ := hb
  show Dbl.round (1 * y) = _
  rw [one_mul, round_exact hy]

theorem neg_one_mul_near {b : Dbl} {s f : ℝ} (hb : Near b s f) : (Dbl.num (-1)).mul b = b.neg := by
  obtain ⟨y, rfl, hy, -⟩ := hb
  show Dbl.round (-1 * y) = _
  rw [neg_one_mul, round_exact (isDouble_neg hy)]; rfl

/-- Adding 0 is exact. -/
theorem zero_add_near {b : Dbl} {s f : ℝ} (hb : Near b s f) : (Dbl.num 0).add b = b := by
  obtain ⟨y, rfl, hy, -⟩ := hb
  show Dbl.round (0 + y) = _
  rw [zero_add, round_exact hy]

theorem add_zero_near {b : Dbl} {s f : ℝ} (hb : Near b s f) : b.add (Dbl.num 0) = b := by rw [dbl_add_comm, zero_add_near hb]

/-- Two doubles are the same when they are closer than the last place of the first. -/
theorem double_gap {m e : ℤ} {y : ℚ} (hm : 2 ^ 52 < m) (hy : IsDouble y) (h : |y - m * 2 ^ e| < 2 ^ e) : y = m * 2 ^ e := by
  obtain ⟨n, f, hn, h1, h2, rfl⟩ := hy
  have pe : (0 : ℚ) < 2 ^ e := two_zpow_pos e
  by_cases hf : e ≤ f
  · obtain ⟨k, rfl⟩ : ∃ k : ℕ, f = k + e := ⟨(f - e).toNat, by omega⟩
    have e1 : (n : ℚ) * 2 ^ ((k : ℤ) + e) = ((n * 2 ^ k : ℤ) : ℚ) * 2 ^ e := by
      rw [zpow_add₀ (by norm_num), zpow_natCast]; push_cast; ring
    rw [e1] at h ⊢
    have e2 : ((n * 2 ^ k : ℤ) : ℚ) * 2 ^ e - m * 2 ^ e = ((n * 2 ^ k - m : ℤ) : ℚ) * 2 ^ e := by push_cast; ring
    rw [e2, abs_mul, abs_of_pos pe] at h
    have h3 : |((n * 2 ^ k - m : ℤ) : ℚ)| < 1 := by
      by_contra h3
      rw [not_lt] at h3
      have := mul_le_mul_of_nonneg_right h3 pe.le
      linarith
    rw [← Int.cast_abs] at h3
    have h4 : |n * 2 ^ k - m| < 1 := by exact_mod_cast h3
    have h5 : n * 2 ^ k = m := by
      have := Int.abs_lt_one_iff.1 h4
      omega
    rw [h5]
  · exfalso
    have pf : (0 : ℚ) < 2 ^ f := two_zpow_pos f
    have hfe : (2 : ℚ) ^ f * 2 ≤ 2 ^ e := by
      have : (2 : ℚ) ^ f * 2 = 2 ^ (f + 1) := by rw [zpow_add_one₀ (by norm_num)]
      rw [this]
      exact zpow_le_zpow_right₀ (by norm_num) (by omega)
    have hn' : (n : ℚ) < 2 ^ 53 := by
      have := (le_abs_self n).trans_lt hn
      exact_mod_cast this
    have h3 : (n : ℚ) * 2 ^ f < 2 ^ 52 * 2 ^ e := by
      have a1 : (n : ℚ) * 2 ^ f < 2 ^ 53 * 2 ^ f := mul_lt_mul_of_pos_right hn' pf
      have a2 : (2 : ℚ) ^ 52 * (2 ^ f * 2) ≤ 2 ^ 52 * 2 ^ e := mul_le_mul_of_nonneg_left hfe (by norm_num)
      have a3 : (2 : ℚ) ^ 53 * 2 ^ f = 2 ^ 52 * (2 ^ f * 2) := by ring
      linarith
    have h4 : ((2 : ℚ) ^ 52 + 1) * 2 ^ e ≤ m * 2 ^ e := by
      refine mul_le_mul_of_nonneg_right ?_ pe.le
      have : (2 : ℤ) ^ 52 + 1 ≤ m := by omega
      exact_mod_cast this
    have := (abs_lt.1 h).1
    linarith

/-- The closest double to a number near `m * 2^e`. -/
theorem closest_eq {m e : ℤ} {d : Dbl} {r : ℝ} (hd : ClosestDouble d r) (hm : 2 ^ 52 < m) (hx : IsDouble (m * 2 ^ e))
    (h : |((m * 2 ^ e : ℚ) : ℝ) - r| < 2 ^ e / 2) : d = .num (m * 2 ^ e) := by
  obtain ⟨q, rfl, hq, hc⟩ := hd
  have h1 := hc _ hx
  have h2 : |(q : ℝ) - ((m * 2 ^ e : ℚ) : ℝ)| < 2 ^ e := by
    have : (q : ℝ) - ((m * 2 ^ e : ℚ) : ℝ) = (q - r) - (((m * 2 ^ e : ℚ) : ℝ) - r) := by ring
    rw [this]
    exact (abs_sub _ _).trans_lt (by linarith)
  have h3 : |q - m * 2 ^ e| < 2 ^ e := by
    have : ((|q - m * 2 ^ e| : ℚ) : ℝ) < ((2 ^ e : ℚ) : ℝ) := by
      rw [Rat.cast_abs, Rat.cast_sub, Rat.cast_zpow, Rat.cast_ofNat]
      exact h2
    exact (Rat.cast_lt (K := ℝ)).1 this
  rw [double_gap hm hq h3]

/-- Every number of size at most one has a double nearby. -/
theorem near_grid (r : ℝ) (h : |r| ≤ 1) : ∃ y : ℚ, IsDouble y ∧ |(y : ℝ) - r| ≤ unit53 / 2 := by
  obtain ⟨h1, h2⟩ := abs_le.1 h
  have u : unit53 * 2 ^ 53 = 1 := by norm_num [unit53]
  have u0 := unit53_pos
  let k : ℤ := round (r * 2 ^ 53)
  have hk : |r * 2 ^ 53 - k| ≤ 1 / 2 := abs_sub_round _
  have hk' : |k| ≤ 2 ^ 53 := by
    have a := abs_le.1 hk
    have b1 : (k : ℝ) < 2 ^ 53 + 1 := by linarith
    have b2 : (-(2 ^ 53 + 1) : ℝ) < k := by linarith
    have c1 : k < 2 ^ 53 + 1 := by exact_mod_cast b1
    have c2 : (-(2 ^ 53 + 1) : ℤ) < k := by exact_mod_cast b2
    rw [abs_le]
    omega
  refine ⟨k * 2 ^ (-53 : ℤ), ?_, ?_⟩
  · by_cases hk2 : |k| < 2 ^ 53
    · exact ⟨k, -53, hk2, by norm_num, by norm_num, rfl⟩
    · have : |k| = 2 ^ 53 := by omega
      rcases eq_or_eq_neg_of_abs_eq this with e | e
      · rw [e]; exact ⟨1, 0, by norm_num, by norm_num, by norm_num, by norm_num⟩
      · rw [e]; exact ⟨-1, 0, by norm_num, by norm_num, by norm_num, by norm_num⟩
  · have e1 : ((k * 2 ^ (-53 : ℤ) : ℚ) : ℝ) - r = -((r * 2 ^ 53 - k) * unit53) := by
      rw [Rat.cast_mul, Rat.cast_zpow, Rat.cast_ofNat, Rat.cast_intCast]
      have : r * 2 ^ 53 * unit53 = r := by rw [mul_assoc, mul_comm ((2 : ℝ) ^ 53), u, mul_one]
      rw [sub_mul, this]
      unfold unit53
      ring
    rw [e1, abs_neg, abs_mul, abs_of_pos u0]
    have := mul_le_mul_of_nonneg_right hk u0.le
    linarith

theorem closest_near {d : Dbl} {r : ℝ} (hd : ClosestDouble d r) (h : |r| ≤ 1) : Near d r (unit53 / 2) := by
  obtain ⟨q, h1, h2, h3⟩ := hd
  obtain ⟨y, hy, he⟩ := near_grid r h
  exact ⟨q, h1, h2, (h3 y hy).trans he⟩

theorem closest_exists (r : ℝ) : ∃ q : ℚ, ClosestDouble (.num q) r := by
  have hne : {x : ℚ | IsDouble x}.Nonempty := ⟨0, isDouble_zero⟩
  obtain ⟨q, h1, h2⟩ := Set.exists_min_image _ (fun y : ℚ => |(y : ℝ) - r|) finite_doubles hne
  exact ⟨q, q, rfl, h1, h2⟩

theorem best_exists : ∃ T : Trig, BestPossible T := by
  choose f hf using closest_exists
  refine ⟨⟨fun d => match d with | .num x => .num (f (Real.sin x)) | _ => .nan, fun d => match d with | .num x => .num (f (Real.cos x)) | _ => .nan⟩, ?_⟩
  intro x _
  exact ⟨hf _, hf _⟩

theorem best_accurate {T : Trig} (h : BestPossible T) : Accurate T := by
  intro x hx
  have u0 := unit53_pos
  refine ⟨near_mono (closest_near (h x hx).1 (Real.abs_sin_le_one _)) ?_, near_mono (closest_near (h x hx).2 (Real.abs_cos_le_one _)) ?_⟩ <;>
  · show unit53 / 2 ≤ unit53
    linarith

/-- A decimal constant. -/
theorem round_near {q : ℚ} (h : |q| ≤ 1) : Near (Dbl.round q) q unit53 := by
  have h' : |q| ≤ 2 ^ (1023 : ℤ) := h.trans (one_le_zpow₀ (by norm_num) (by norm_num))
  refine ⟨ieee.rnd q, round_top h', ieee.isDouble _, ?_⟩
  obtain ⟨y, hy, he⟩ := near_grid (q : ℝ) (by exact_mod_cast h)
  have h1 := ieee.closest q y hy
  have h2 := (Rat.cast_le (K := ℝ)).2 h1
  push_cast at h2
  have u0 := unit53_pos
  linarith

/-- One element of the product of an almost orthogonal matrix with a direction vector. -/
theorem near_row {r v : DVec} {a b c x y z : ℝ} (ha : Near r.x a unit53) (hb : Near r.y b unit53) (hc : Near r.z c unit53)
    (hx : Near v.x x (31 / 10 * unit53)) (hy : Near v.y y (31 / 10 * unit53)) (hz : Near v.z z unit53)
    (h1 : a ^ 2 + b ^ 2 + c ^ 2 ≤ 1 + 1 / 100) (a1 : |a| ≤ 1) (b1 : |b| ≤ 1) (c1 : |c| ≤ 1) (h2 : x ^ 2 + y ^ 2 + z ^ 2 = 1) :
    Near (DMat.row r v) (a * x + b * y + c * z) (16 * unit53) := by
  have u0 := unit53_pos
  have x1 : |x| ≤ 1 := by rw [← sq_le_one_iff_abs_le_one]; linarith [sq_nonneg y, sq_nonneg z]
  have y1 : |y| ≤ 1 := by rw [← sq_le_one_iff_abs_le_one]; linarith [sq_nonneg x, sq_nonneg z]
  have z1 : |z| ≤ 1 := by rw [← sq_le_one_iff_abs_le_one]; linarith [sq_nonneg x, sq_nonneg y]
  have k : (1 + 1 / 100 : ℝ) ≤ (1 + 1 / 100) ^ 2 := by norm_num
  have s3 : |a * x + b * y + c * z| ≤ 1 + 1 / 100 := by
    apply abs_le_of_sq_le_sq _ (by norm_num)
    refine le_trans ?_ k
    have : (a * x + b * y + c * z) ^ 2 ≤ (a ^ 2 + b ^ 2 + c ^ 2) * (x ^ 2 + y ^ 2 + z ^ 2) := by
      linarith [sq_nonneg (a * y - b * x), sq_nonneg (a * z - c * x), sq_nonneg (b * z - c * y)]
    rw [h2, mul_one] at this
    exact this.trans h1
  have s2 : |a * x + b * y| ≤ 1 + 1 / 100 := by
    apply abs_le_of_sq_le_sq _ (by norm_num)
    refine le_trans ?_ k
    have : (a * x + b * y) ^ 2 ≤ (a ^ 2 + b ^ 2) * (x ^ 2 + y ^ 2) := by linarith [sq_nonneg (a * y - b * x)]
    have h3 : (a ^ 2 + b ^ 2) * (x ^ 2 + y ^ 2) ≤ (1 + 1 / 100) * 1 :=
      mul_le_mul (by linarith [sq_nonneg c]) (by linarith [sq_nonneg z]) (by positivity) (by norm_num)
    linarith
  have p1 := near_mul ha hx a1 x1 (by linarith) (by linarith)
  have p2 := near_mul hb hy b1 y1 (by linarith) (by linarith)
  have p3 := near_mul hc hz c1 z1 (by linarith) (by linarith)
  unfold DMat.row
  rw [zero_add_near p1]
  have q1 := near_add p1 p2 s2 (by linarith) (by linarith)
  have q2 := near_add q1 p3 s3 (by linarith) (by linarith)
  exact near_mono q2 (by linarith)

/-- Direction vectors. -/
theorem near_column {T : Trig} (hT : Accurate T) {u v : ℚ} (hu : IsDouble u) (hv : IsDouble v) :
    Near (DVec.column T (.num u) (.num v)).x (Real.cos u * Real.cos v) (31 / 10 * unit53) ∧
    Near (DVec.column T (.num u) (.num v)).y (Real.sin u * Real.cos v) (31 / 10 * unit53) ∧
    Near (DVec.column T (.num u) (.num v)).z (Real.sin v) unit53 := by
  have u0 := unit53_pos
  have su : Near (T.sin (.num u)) (Real.sin u) unit53 := (hT u hu).1
  have cu : Near (T.cos (.num u)) (Real.cos u) unit53 := (hT u hu).2
  have cv : Near (T.cos (.num v)) (Real.cos v) unit53 := (hT v hv).2
  exact ⟨near_mono (near_mul cu cv (Real.abs_cos_le_one _) (Real.abs_cos_le_one _) (by linarith) (by linarith)) (by linarith),
    near_mono (near_mul su cv (Real.abs_sin_le_one _) (Real.abs_cos_le_one _) (by linarith) (by linarith)) (by linarith), (hT v hv).1⟩

theorem column_norm (u v : ℝ) : (Real.cos u * Real.cos v) ^ 2 + (Real.sin u * Real.cos v) ^ 2 + Real.sin v ^ 2 = 1 := by
  have h1 := Real.sin_sq_add_cos_sq u
  have h2 := Real.sin_sq_add_cos_sq v
  calc _ = (Real.sin u ^ 2 + Real.cos u ^ 2) * Real.cos v ^ 2 + Real.sin v ^ 2 := by ring
    _ = 1 := by rw [h1]; linarith

theorem bound49 : 16 * unit53 = 2 ^ (-49 : ℤ) := by norm_num [unit53]

/-- The arc sine does not spread numbers by more than a square root. -/
theorem arcsin_spread {a b : ℝ} (ha : a ≤ 1) (hb : -1 ≤ b) (h : b ≤ a) : 2 * (Real.arcsin a - Real.arcsin b) ^ 2 ≤ Real.pi ^ 2 * (a - b) := by
  have hb1 : b ≤ 1 := h.trans ha
  have ha1 : -1 ≤ a := hb.trans h
  have pi0 := Real.pi_pos
  set x := Real.arcsin a with hx
  set y := Real.arcsin b with hy
  have ea : a = Real.sin x := (Real.sin_arcsin ha1 ha).symm
  have eb : b = Real.sin y := (Real.sin_arcsin hb hb1).symm
  have hxy : y ≤ x := Real.arcsin_le_arcsin h
  have x1 := Real.arcsin_le_pi_div_two a
  have y1 := Real.neg_pi_div_two_le_arcsin b
  have t0 : 0 ≤ (x - y) / 2 := by linarith
  have s0 : 0 ≤ Real.sin ((x - y) / 2) := Real.sin_nonneg_of_nonneg_of_le_pi t0 (by linarith)
  have hs : 2 / Real.pi * ((x - y) / 2) ≤ Real.sin ((x - y) / 2) := Real.mul_le_sin t0 (by linarith)
  have hc : Real.sin ((x - y) / 2) ≤ Real.cos ((x + y) / 2) := by
    rw [← Real.cos_pi_div_two_sub]
    rcases le_total 0 ((x + y) / 2) with h0 | h0
    · exact Real.cos_le_cos_of_nonneg_of_le_pi h0 (by linarith) (by linarith)
    · rw [← Real.cos_neg ((x + y) / 2)]
      exact Real.cos_le_cos_of_nonneg_of_le_pi (by linarith) (by linarith) (by linarith)
  have e : a - b = 2 * Real.sin ((x - y) / 2) * Real.cos ((x + y) / 2) := by rw [ea, eb, Real.sin_sub_sin]
  have k1 : Real.sin ((x - y) / 2) * Real.sin ((x - y) / 2) ≤ Real.sin ((x - y) / 2) * Real.cos ((x + y) / 2) := mul_le_mul_of_nonneg_left hc s0
  have k2 : (2 / Real.pi * ((x - y) / 2)) * (2 / Real.pi * ((x - y) / 2)) ≤ Real.sin ((x - y) / 2) * Real.sin ((x - y) / 2) :=
    mul_le_mul hs hs (by positivity) s0
  have k3 : (2 / Real.pi * ((x - y) / 2)) * (2 / Real.pi * ((x - y) / 2)) * Real.pi ^ 2 = (x - y) ^ 2 := by
    field_simp
  have k4 : (2 / Real.pi * ((x - y) / 2)) * (2 / Real.pi * ((x - y) / 2)) * Real.pi ^ 2 ≤ (a - b) / 2 * Real.pi ^ 2 :=
    mul_le_mul_of_nonneg_right (by linarith) (by positivity)
  linarith

theorem arcsin_near {a b : ℝ} (ha : |a| ≤ 1) (hb : |b| ≤ 1) (h : |a - b| ≤ 2 ^ (-49 : ℤ)) : |Real.arcsin a - Real.arcsin b| ≤ 2 ^ (-23 : ℤ) := by
  have key : 2 * (Real.arcsin a - Real.arcsin b) ^ 2 ≤ Real.pi ^ 2 * |a - b| := by
    rcases le_total b a with h0 | h0
    · rw [abs_of_nonneg (by linarith : 0 ≤ a - b)]
      exact arcsin_spread (abs_le.1 ha).2 (abs_le.1 hb).1 h0
    · rw [abs_of_nonpos (by linarith : a - b ≤ 0)]
      have := arcsin_spread (abs_le.1 hb).2 (abs_le.1 ha).1 h0
      have e : (Real.arcsin a - Real.arcsin b) ^ 2 = (Real.arcsin b - Real.arcsin a) ^ 2 := by ring
      rw [e, neg_sub]
      exact this
  apply abs_le_of_sq_le_sq _ (two_zpow_real _).le
  have p2 : Real.pi ^ 2 ≤ 16 := by
    have h1 := Real.pi_le_four
    have h2 := Real.pi_pos
    calc Real.pi ^ 2 = Real.pi * Real.pi := sq _
      _ ≤ 4 * 4 := mul_le_mul h1 h1 h2.le (by norm_num)
      _ = 16 := by norm_num
  have := mul_le_mul p2 h (abs_nonneg _) (by norm_num)
  have e : ((2 : ℝ) ^ (-23 : ℤ)) ^ 2 = 16 * 2 ^ (-49 : ℤ) / 2 := by norm_num
  rw [e]
  have key2 := key.trans this
  generalize (Real.arcsin a - Real.arcsin b) ^ 2 = X at key2 ⊢
  generalize (2 : ℝ) ^ (-49 : ℤ) = Z at key2 ⊢
  linarith

theorem row_of {r v : DVec} {m : Coord.Mat} {i : Fin 3} {u w : ℝ} (h0 : Near r.x (m i 0) unit53) (h1 : Near r.y (m i 1) unit53) (h2 : Near r.z (m i 2) unit53)
    (hv : Near v.x (Real.cos u * Real.cos w) (31 / 10 * unit53) ∧ Near v.y (Real.sin u * Real.cos w) (31 / 10 * unit53) ∧ Near v.z (Real.sin w) unit53)
    (hn : m i 0 ^ 2 + m i 1 ^ 2 + m i 2 ^ 2 ≤ 1 + 1 / 100) (a0 : |m i 0| ≤ 1) (a1 : |m i 1| ≤ 1) (a2 : |m i 2| ≤ 1) :
    Near (DMat.row r v) ((m *ᵥ Coord.columnVector u w) i) (2 ^ (-49 : ℤ)) := by
  have e : (m *ᵥ Coord.columnVector u w) i = m i 0 * (Real.cos u * Real.cos w) + m i 1 * (Real.sin u * Real.cos w) + m i 2 * Real.sin w := by
    simp [mulVec, dotProduct, Fin.sum_univ_three, Coord.columnVector]
  rw [e, ← bound49]
  exact near_row h0 h1 h2 hv.1 hv.2.1 hv.2.2 hn a0 a1 a2 (column_norm u w)

theorem near_const (q : ℚ) (h : IsDouble q) {r : ℝ} (hr : (q : ℝ) = r) : Near (.num q) r unit53 := hr ▸ near_mono (near_exact' h) unit53_pos.le

theorem near_decimal (q : ℚ) (h : |q| ≤ 1) {r : ℝ} (hr : (q : ℝ) = r) : Near (Dbl.round q) r unit53 := hr ▸ round_near h

theorem near_decimal_neg (q : ℚ) (h : |q| ≤ 1) {r : ℝ} (hr : -(q : ℝ) = r) : Near (Dbl.round q).neg r unit53 := hr ▸ near_neg (round_near h)

theorem latitude_num {w : DVec} {p : ℚ} (h : w.latitude = some p) : w.z = .num p := by
  unfold DVec.latitude at h
  split at h
  · next q hq =>
    split at h
    · rw [hq, Option.some.inj h]
    · cases h
  · cases h

theorem latitude_bounds {w : DVec} {p : ℚ} (h : w.latitude = some p) : -1 ≤ p ∧ p ≤ 1 := by
  unfold DVec.latitude at h
  split at h
  · next q hq =>
    split at h
    · next hb => rw [← Option.some.inj h]; exact hb
    · cases h
  · cases h

theorem latitude_some {w : DVec} {p q : ℚ} (h1 : w.z = .num q) (h : w.latitude = some p) : q = p ∧ |(p : ℝ)| ≤ 1 := by
  have := latitude_num h
  rw [h1] at this
  refine ⟨Dbl.num.inj this, ?_⟩
  obtain ⟨a, b⟩ := latitude_bounds h
  have : |p| ≤ 1 := abs_le.2 ⟨a, b⟩
  exact_mod_cast this

theorem latitude_none {w : DVec} {q : ℚ} (h1 : w.z = .num q) (h : w.latitude = none) : 1 < |(q : ℝ)| := by
  unfold DVec.latitude at h
  rw [h1] at h
  simp only at h
  split at h
  · cases h
  · next hb =>
    have : 1 < |q| := by
      by_contra hc
      exact hb (abs_le.1 (not_lt.1 hc))
    exact_mod_cast this

/-- The squared third coordinate is at most the squared norm of the third row. -/
theorem third_sq (m : Coord.Mat) (u v : ℝ) : (m *ᵥ Coord.columnVector u v) 2 ^ 2 ≤ m 2 0 ^ 2 + m 2 1 ^ 2 + m 2 2 ^ 2 := by
  have e : (m *ᵥ Coord.columnVector u v) 2 = m 2 0 * (Real.cos u * Real.cos v) + m 2 1 * (Real.sin u * Real.cos v) + m 2 2 * Real.sin v := by
    simp [mulVec, dotProduct, Fin.sum_univ_three, Coord.columnVector]
  have hn := column_norm u v
  rw [e]
  generalize Real.cos u * Real.cos v = x at *
  generalize Real.sin u * Real.cos v = y at *
  generalize Real.sin v = z at *
  generalize m 2 0 = a
  generalize m 2 1 = b
  generalize m 2 2 = c
  have : (a * x + b * y + c * z) ^ 2 ≤ (a ^ 2 + b ^ 2 + c ^ 2) * (x ^ 2 + y ^ 2 + z ^ 2) := by
    linarith [sq_nonneg (a * y - b * x), sq_nonneg (a * z - c * x), sq_nonneg (b * z - c * y)]
  rwa [hn, mul_one] at this

theorem galactic_third {m : Coord.Mat} (h : m = Coord.galacticToRaDec ∨ m = Coord.raDecToGalactic) (u v : ℝ) :
    (m *ᵥ Coord.columnVector u v) 2 ^ 2 ≤ 1 - 599 / 10 ^ 11 := by
  refine (third_sq m u v).trans ?_
  rcases h with rfl | rfl <;> simp [Coord.galacticToRaDec, Coord.raDecToGalactic] <;> norm_num

theorem third_le {T : Trig} {a : ℚ} {D : DMat} {M : Coord.Mat} (h : SameMatrix T a D M) (u v : ℝ) : |(M *ᵥ Coord.columnVector u v) 2| ≤ 1 := by
  rw [← sq_le_one_iff_abs_le_one]
  refine (third_sq M u v).trans ?_
  have := Real.sin_sq_add_cos_sq (a : ℝ)
  cases h <;> simp [Coord.haDecHorizon, Coord.haDecRaDec, Coord.eclipticToRaDec, Coord.raDecToEcliptic, Coord.galacticToRaDec, Coord.raDecToGalactic] <;>
    linarith

/-- The doubles around ±1. -/
theorem pole_or_less {p : ℚ} (hp : IsDouble p) (h1 : -1 ≤ p) (h2 : p ≤ 1) : (p = 1 ∨ p = -1) ∨ |(p : ℝ)| ≤ 1 - unit53 := by
  have hp' : IsDouble |p| := by rcases abs_cases p with h | h <;> rw [h.1] <;> [exact hp; exact isDouble_neg hp]
  have hle : |p| ≤ 1 := abs_le.2 ⟨h1, h2⟩
  by_cases h1p : |p| = 1
  · left
    exact eq_or_eq_neg_of_abs_eq h1p
  · right
    have hlt : |p| < 1 := lt_of_le_of_ne hle h1p
    have key : |p| ≤ 1 - 2 ^ (-53 : ℤ) := by
      by_contra hc
      have hm : |p| = ((2 ^ 53 - 1 : ℤ) : ℚ) * 2 ^ (-53 : ℤ) := by
        refine double_gap (by norm_num) hp' ?_
        rw [abs_lt]
        norm_num at hc ⊢
        constructor <;> linarith
      rw [hm] at hc
      norm_num at hc
    have := (Rat.cast_le (K := ℝ)).2 key
    rw [Rat.cast_sub, Rat.cast_abs, Rat.cast_one, Rat.cast_zpow, Rat.cast_ofNat] at this
    exact this

theorem arcsin_away {x t : ℝ} (h0 : 0 ≤ t) (h1 : t ≤ Real.pi) (h : |x| ≤ Real.cos t) : |Real.arcsin x| ≤ Real.pi / 2 - t := by
  obtain ⟨a, b⟩ := abs_le.1 h
  have e : Real.arcsin (Real.cos t) = Real.pi / 2 - t := by
    rw [← Real.sin_pi_div_two_sub, Real.arcsin_sin (by linarith) (by linarith)]
  rw [abs_le, ← e, ← Real.arcsin_neg]
  exact ⟨Real.arcsin_le_arcsin a, Real.arcsin_le_arcsin b⟩

theorem round_isDouble {q p : ℚ} (h : Dbl.round q = .num p) : IsDouble p := by
  cases hn : FloatFmt.double.nearest |q| with
  | some n =>
    rw [round_some hn] at h
    rw [← Dbl.num.inj h]
    exact signed_double q (nearest_lt (abs_nonneg q) hn)
  | none => rw [round_none hn] at h; cases h

theorem row_isDouble {r v : DVec} {p : ℚ} (h : DMat.row r v = .num p) : IsDouble p := by
  unfold DMat.row at h
  generalize ((Dbl.num 0).add (r.x.mul v.x)).add (r.y.mul v.y) = a at h
  generalize r.z.mul v.z = b at h
  cases a with
  | num x =>
    cases b with
    | num y => exact round_isDouble h
    | inf _ => cases h
    | nan => cases h
  | inf s =>
    cases b with
    | num y => cases h
    | inf t => cases s <;> cases t <;> cases h
    | nan => cases h
  | nan => cases b <;> cases h

/-- Away from the poles the arc sine spreads numbers by at most π. -/
theorem arcsin_moderate {a b : ℝ} (ha : |a| ≤ 1) (hb : |b| ≤ 1) (h : b ≤ a) (h1 : |Real.arcsin a| ≤ Real.pi / 3) (h2 : |Real.arcsin b| ≤ Real.pi / 3) :
    Real.arcsin a - Real.arcsin b ≤ Real.pi * (a - b) := by
  have pi0 := Real.pi_pos
  have ea : a = Real.sin (Real.arcsin a) := (Real.sin_arcsin (abs_le.1 ha).1 (abs_le.1 ha).2).symm
  have eb : b = Real.sin (Real.arcsin b) := (Real.sin_arcsin (abs_le.1 hb).1 (abs_le.1 hb).2).symm
  have hxy : Real.arcsin b ≤ Real.arcsin a := Real.arcsin_le_arcsin h
  have e : a - b = 2 * Real.sin ((Real.arcsin a - Real.arcsin b) / 2) * Real.cos ((Real.arcsin a + Real.arcsin b) / 2) := by
    rw [← Real.sin_sub_sin, ← ea, ← eb]
  generalize Real.arcsin a = x at *
  generalize Real.arcsin b = y at *
  obtain ⟨x1, x2⟩ := abs_le.1 h1
  obtain ⟨y1, y2⟩ := abs_le.1 h2
  have t0 : 0 ≤ (x - y) / 2 := by linarith
  have hs : 2 / Real.pi * ((x - y) / 2) ≤ Real.sin ((x - y) / 2) := Real.mul_le_sin t0 (by linarith)
  have s0 : 0 ≤ Real.sin ((x - y) / 2) := le_trans (by positivity) hs
  have hc : 1 / 2 ≤ Real.cos ((x + y) / 2) := by
    rw [← Real.cos_pi_div_three, ← Real.cos_abs ((x + y) / 2)]
    exact Real.cos_le_cos_of_nonneg_of_le_pi (abs_nonneg _) (by linarith) (abs_le.2 ⟨by linarith, by linarith⟩)
  have k1 : Real.sin ((x - y) / 2) * (1 / 2) ≤ Real.sin ((x - y) / 2) * Real.cos ((x + y) / 2) := mul_le_mul_of_nonneg_left hc s0
  have k2 : Real.pi * (2 / Real.pi * ((x - y) / 2)) = x - y := by field_simp
  have k3 : Real.pi * (2 / Real.pi * ((x - y) / 2)) ≤ Real.pi * (a - b) := mul_le_mul_of_nonneg_left (by linarith) pi0.le
  linarith

theorem eight_isDouble : IsDouble eightDegrees := ⟨5030569068109113, -55, by norm_num, by norm_num, by norm_num, rfl⟩

theorem eight_cast : ((eightDegrees : ℚ) : ℝ) = 5030569068109113 / 2 ^ 55 := by
  unfold eightDegrees; norm_num

theorem eight_sin {T : Trig} (hT : BestPossible T) : T.sin (.num eightDegrees) = .num ((5014239404989977 : ℤ) * 2 ^ (-55 : ℤ)) := by
  refine closest_eq (hT _ eight_isDouble).1 (by norm_num) ⟨_, _, by norm_num, by norm_num, by norm_num, rfl⟩ ?_
  rw [eight_cast, abs_sub_comm]
  have e : (((5014239404989977 : ℤ) * 2 ^ (-55 : ℤ) : ℚ) : ℝ) = 5014239404989977 / 2 ^ 55 := by norm_num
  rw [e]
  exact sin_eight.trans (by norm_num)

theorem eight_cos {T : Trig} (hT : BestPossible T) : T.cos (.num eightDegrees) = .num ((8919541810762874 : ℤ) * 2 ^ (-53 : ℤ)) := by
  refine closest_eq (hT _ eight_isDouble).2 (by norm_num) ⟨_, _, by norm_num, by norm_num, by norm_num, rfl⟩ ?_
  rw [eight_cast, abs_sub_comm]
  have e : (((8919541810762874 : ℤ) * 2 ^ (-53 : ℤ) : ℚ) : ℝ) = 4459770905381437 / 2 ^ 52 := by norm_num
  rw [e]
  exact cos_eight.trans (by norm_num)

theorem closest_self {d : Dbl} {q : ℚ} {r : ℝ} (h : ClosestDouble d r) (hq : IsDouble q) (hr : (q : ℝ) = r) : d = .num q := by
  obtain ⟨x, rfl, -, h2⟩ := h
  have := h2 q hq
  rw [hr, sub_self, abs_zero] at this
  have h3 : (x : ℝ) = r := by linarith [abs_nonpos_iff.1 this]
  rw [← hr] at h3
  rw [Rat.cast_injective h3]

/-- Directions of nearby complex numbers. -/
theorem arg_near (w z : ℂ) : ∃ k : ℤ, |w.arg - z.arg - 2 * Real.pi * k| * ‖z‖ ≤ Real.pi * ‖w - z‖ := by
  have pi0 := Real.pi_pos
  by_cases hz : z = 0
  · exact ⟨0, by rw [hz, norm_zero, mul_zero]; positivity⟩
  by_cases hw : w = 0
  · refine ⟨0, ?_⟩
    rw [hw, Complex.arg_zero, zero_sub, zero_sub, norm_neg, Int.cast_zero, mul_zero, sub_zero, abs_neg]
    exact mul_le_mul_of_nonneg_right (Complex.abs_arg_le_pi z) (norm_nonneg _)
  have nz : (0 : ℝ) < ‖z‖ := norm_pos_iff.2 hz
  have nw : (0 : ℝ) < ‖w‖ := norm_pos_iff.2 hw
  have nzc : (‖z‖ : ℂ) ≠ 0 := by exact_mod_cast nz.ne'
  have nwc : (‖w‖ : ℂ) ≠ 0 := by exact_mod_cast nw.ne'
  have e1 : ((w / z).arg : Real.Angle) = ((w.arg - z.arg : ℝ) : Real.Angle) := by
    rw [Complex.arg_div_coe_angle hw hz, Real.Angle.coe_sub]
  obtain ⟨k, hk⟩ := Real.Angle.angle_eq_iff_two_pi_dvd_sub.1 e1
  refine ⟨-k, ?_⟩
  have e2 : w.arg - z.arg - 2 * Real.pi * ((-k : ℤ) : ℝ) = (w / z).arg := by push_cast; linarith
  rw [e2, ← Complex.angle_eq_abs_arg hw hz]
  have u1 : ‖w / ‖w‖‖ = 1 := by rw [norm_div, Complex.norm_real, norm_norm, div_self nw.ne']
  have u2 : ‖z / ‖z‖‖ = 1 := by rw [norm_div, Complex.norm_real, norm_norm, div_self nz.ne']
  have e3 : InnerProductGeometry.angle w z = InnerProductGeometry.angle (w / ‖w‖) (z / ‖z‖) := by
    rw [Complex.angle_eq_abs_arg hw hz, Complex.angle_eq_abs_arg (div_ne_zero hw nwc) (div_ne_zero hz nzc)]
    have : w / ‖w‖ / (z / ‖z‖) = ((‖z‖ / ‖w‖ : ℝ) : ℂ) * (w / z) := by
      push_cast
      field_simp
    rw [this, Complex.arg_real_mul _ (div_pos nz nw)]
  rw [e3]
  have h1 := Complex.angle_le_mul_norm_sub u1 u2
  have h2 : ‖w / ‖w‖ - z / ‖z‖‖ * ‖z‖ ≤ 2 * ‖w - z‖ := by
    have e4 : (w / ‖w‖ - z / ‖z‖) * (‖z‖ : ℂ) = ((‖z‖ - ‖w‖ : ℝ) : ℂ) * (w / ‖w‖) + (w - z) := by
      push_cast
      field_simp
      ring
    have e5 : ‖w / ‖w‖ - z / ‖z‖‖ * ‖z‖ = ‖(w / ‖w‖ - z / ‖z‖) * (‖z‖ : ℂ)‖ := by
      rw [norm_mul, Complex.norm_real, norm_norm]
    rw [e5, e4]
    refine (norm_add_le _ _).trans ?_
    rw [norm_mul, u1, mul_one, Complex.norm_real, Real.norm_eq_abs, abs_sub_comm]
    have := abs_norm_sub_norm_le w z
    linarith
  calc _ ≤ (Real.pi / 2 * ‖w / ‖w‖ - z / ‖z‖‖) * ‖z‖ := mul_le_mul_of_nonneg_right h1 nz.le
    _ = Real.pi / 2 * (‖w / ‖w‖ - z / ‖z‖‖ * ‖z‖) := by ring
    _ ≤ Real.pi / 2 * (2 * ‖w - z‖) := mul_le_mul_of_nonneg_left h2 (by positivity)
    _ = _ := by ring

end Astro
