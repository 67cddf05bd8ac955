import Verif.Spec.FrameDouble
import Verif.Props.QtyDouble

/-
C129: setters and getters of frames in doubles.
-/

set_option exponentiation.threshold 3000

namespace Astro

open Spec Time

attribute [local irreducible] FloatFmt.nearest FloatFmt.value Dbl.round

theorem apply_factor (f : DFrame) (c : DFrame.Call) (i : Part) : factor (f.apply c) i = factor f i := by cases c <;> cases i <;> rfl

theorem run_factor (f : DFrame) (calls : List DFrame.Call) (i : Part) : factor (f.run calls) i = factor f i := by
  induction calls generalizing f with
  | nil => rfl
  | cons c cs ih => exact (ih (f.apply c)).trans (apply_factor f c i)

theorem apply_other (f : DFrame) (c : DFrame.Call) (i : Part) (h : given c i = none) : readPart (f.apply c) i = readPart f i := by
  cases c <;> cases i <;> first | rfl | cases h

theorem run_other (f : DFrame) (calls : List DFrame.Call) (i : Part) (h : ∀ c ∈ calls, given c i = none) : readPart (f.run calls) i = readPart f i := by
  induction calls generalizing f with
  | nil => rfl
  | cons c cs ih => exact (ih (f.apply c) fun d hd => h d (.tail _ hd)).trans (apply_other f c i (h c (.head _)))

theorem apply_given (f : DFrame) (c : DFrame.Call) (i : Part) (v : Dbl) (h : given c i = some v) :
    readPart (f.apply c) i = (match factor f i with | some k => readAngle k (storeAngle k v) | none => v) := by
  cases c <;> cases i <;> first | (cases h; rfl) | cases h

theorem run_append (f : DFrame) (a b : List DFrame.Call) : f.run (a ++ b) = (f.run a).run b := List.foldl_append

/-- **C129.** What no call of a sequence sets is read as before. -/
theorem C129_untouched (f : DFrame) (calls : List DFrame.Call) (i : Part) (h : ∀ c ∈ calls, given c i = none) : readPart (f.run calls) i = readPart f i :=
  run_other f calls i h

/-- **C129.** A distance and a radial velocity are read exactly as they were given last. -/
theorem C129_exact (f : DFrame) (calls : List DFrame.Call) (i : Part) (hi : i = .dist ∨ i = .radial) (v : Dbl) (h : LastGiven calls i v) : readPart (f.run calls) i = v := by
  obtain ⟨before, c, after, rfl, hc, ha⟩ := h
  rw [run_append]
  show readPart (((f.run before).apply c).run after) i = v
  rw [run_other _ _ _ ha, apply_given _ _ _ _ hc]
  rcases hi with rfl | rfl <;> rfl

/-- **C129.** After any sequence of calls, an angle is read as the value given to it last up to a fraction of 2^-51, whatever its unit. -/
theorem C129_last (f : DFrame) (calls : List DFrame.Call) (i : Part) (k x : ℚ) (hk : factor f i = some (.num k)) (hlo : 2 ^ (-400 : ℤ) ≤ |k|) (hhi : |k| ≤ 2 ^ (400 : ℤ))
    (h : LastGiven calls i (.num x)) (hx : x = 0 ∨ (2 ^ (-500 : ℤ) ≤ |x| ∧ |x| ≤ 2 ^ (500 : ℤ))) :
    Near (readPart (f.run calls) i) x (|(x : ℝ)| * 2 ^ (-51 : ℤ)) := by
  obtain ⟨before, c, after, rfl, hc, ha⟩ := h
  rw [run_append]
  show Near (readPart (((f.run before).apply c).run after) i) _ _
  rw [run_other _ _ _ ha, apply_given _ _ _ _ hc, run_factor, hk]
  exact C126_back hlo hhi hx

/-- **C129.** In radians every angle is read exactly as given. -/
theorem C129_radian (f : DFrame) (calls : List DFrame.Call) (i : Part) (x : ℚ) (dx : IsDouble x) (hk : factor f i = some (.num 1)) (h : LastGiven calls i (.num x)) :
    readPart (f.run calls) i = .num x := by
  obtain ⟨before, c, after, rfl, hc, ha⟩ := h
  rw [run_append]
  show readPart (((f.run before).apply c).run after) i = _
  rw [run_other _ _ _ ha, apply_given _ _ _ _ hc, run_factor, hk]
  show readAngle (.num 1) (storeAngle (.num 1) (.num x)) = _
  rw [(C126_radian dx).1, (C126_radian dx).2]

theorem round_value {t p : ℚ} (h : Dbl.round t = .num p) : p = ieee.rnd t := by
  rcases round_cases t with ⟨x, h1, h2⟩ | h1
  · rw [h1] at h
    exact (Dbl.num.inj h).symm.trans h2
  · rw [h1] at h
    cases h

theorem given_setPart (i : Part) (v : Dbl) : given (setPart i v) i = some v := by cases i <;> rfl

theorem rewritten_factor (f : DFrame) (i j : Part) (n : Nat) : factor (rewritten f i n) j = factor f j := by
  induction n with
  | zero => rfl
  | succ n ih => exact (apply_factor _ _ _).trans ih

theorem rewritten_succ (f : DFrame) (i : Part) (k : Dbl) (hk : factor f i = some k) (n : Nat) :
    readPart (rewritten f i (n + 1)) i = readAngle k (storeAngle k (readPart (rewritten f i n) i)) := by
  show readPart ((rewritten f i n).apply _) i = _
  rw [apply_given _ _ _ _ (given_setPart i _), rewritten_factor, hk]

/-- Writing and reading keeps the order of two angles. -/
theorem again_le {k x y p q : ℚ} (hk : 0 < k) (hxy : x ≤ y) (hp : readAngle (.num k) (storeAngle (.num k) (.num x)) = .num p)
    (hq : readAngle (.num k) (storeAngle (.num k) (.num y)) = .num q) : p ≤ q := by
  unfold readAngle storeAngle at hp hq
  rw [mul_num, div_num hk.ne'] at hp hq
  rcases round_cases (x * k) with ⟨a, ha, ea⟩ | ha <;> rw [ha] at hp
  · rcases round_cases (y * k) with ⟨b, hb, eb⟩ | hb <;> rw [hb] at hq
    · rcases round_cases (1 / k) with ⟨j, hj, ej⟩ | hj <;> rw [hj] at hp hq
      · rw [mul_num] at hp hq
        have j0 : 0 ≤ j := by
          rw [ej, ← Time.near_zero ieee]
          exact Time.near_mono ieee (by positivity)
        have ab : a ≤ b := by
          rw [ea, eb]
          exact Time.near_mono ieee (mul_le_mul_of_nonneg_right hxy hk.le)
        rw [round_value hp, round_value hq]
        exact Time.near_mono ieee (mul_le_mul_of_nonneg_right ab j0)
      · unfold Dbl.mul at hp
        dsimp only at hp
        split at hp <;> cases hp
    · rcases round_cases (1 / k) with ⟨j, hj, -⟩ | hj <;> rw [hj] at hq
      · unfold Dbl.mul at hq
        dsimp only at hq
        split at hq <;> cases hq
      · cases hq
  · rcases round_cases (1 / k) with ⟨j, hj, -⟩ | hj <;> rw [hj] at hp
    · unfold Dbl.mul at hp
      dsimp only at hp
      split at hp <;> cases hp
    · cases hp

theorem drift_step {x y z n e : ℝ} (he : 0 ≤ e) (hn : 2 * n * e ≤ 1) (h1 : |y - x| ≤ |x| * (2 * n * e)) (h2 : |z - y| ≤ |y| * e) :
    |z - x| ≤ |x| * (2 * (n + 1) * e) := by
  have a1 : |y| ≤ |x| * (1 + 2 * n * e) := by
    have := abs_sub_abs_le_abs_sub y x
    linarith
  have a2 : |y| * e ≤ |x| * (1 + 2 * n * e) * e := mul_le_mul_of_nonneg_right a1 he
  have a3 : |x| * e * (2 * n * e) ≤ |x| * e * 1 := mul_le_mul_of_nonneg_left hn (by positivity)
  have a4 : |z - x| ≤ |z - y| + |y - x| := abs_sub_le z y x
  nlinarith

/-- **C129.** An angle that is read and written back again and again moves by a fraction of at most 2^-50 each time. -/
theorem C129_drift (f : DFrame) (i : Part) (k x : ℚ) (hk : factor f i = some (.num k)) (hlo : 2 ^ (-400 : ℤ) ≤ |k|) (hhi : |k| ≤ 2 ^ (400 : ℤ))
    (hf : readPart f i = .num x) (dx : IsDouble x) (hx : x = 0 ∨ (2 ^ (-499 : ℤ) ≤ |x| ∧ |x| ≤ 2 ^ (499 : ℤ))) (n : Nat) (hn : n ≤ 2 ^ 49) :
    Near (readPart (rewritten f i n) i) x (|(x : ℝ)| * (n * 2 ^ (-50 : ℤ))) := by
  have e2 : (2 : ℝ) ^ (-50 : ℤ) = 2 * 2 ^ (-51 : ℤ) := by norm_num
  induction n with
  | zero => exact ⟨x, hf, dx, by simp⟩
  | succ n ih =>
    obtain ⟨y, h1, h2, h3⟩ := ih (by omega)
    have hn' : (n : ℝ) * 2 ^ (-50 : ℤ) ≤ 1 / 2 := by
      have : (n : ℝ) ≤ 2 ^ 49 := by exact_mod_cast (by omega : n ≤ 2 ^ 49)
      calc (n : ℝ) * 2 ^ (-50 : ℤ) ≤ 2 ^ 49 * 2 ^ (-50 : ℤ) := mul_le_mul_of_nonneg_right this (by positivity)
        _ = 1 / 2 := by norm_num
    have hy : y = 0 ∨ (2 ^ (-500 : ℤ) ≤ |y| ∧ |y| ≤ 2 ^ (500 : ℤ)) := by
      have b1 : |(y : ℝ) - x| ≤ |(x : ℝ)| * (1 / 2) := h3.trans (mul_le_mul_of_nonneg_left hn' (abs_nonneg _))
      have b2 : |y - x| ≤ |x| * (1 / 2) := by
        have b3 : ((|y - x| : ℚ) : ℝ) ≤ ((|x| * (1 / 2) : ℚ) : ℝ) := by
          push_cast
          exact b1
        exact Rat.cast_le.1 b3
      rcases hx with rfl | ⟨l, u⟩
      · left
        simpa using b2
      · right
        have c1 := abs_sub_abs_le_abs_sub y x
        have c2 := abs_sub_abs_le_abs_sub x y
        rw [abs_sub_comm x y] at c2
        have p1 : (2 : ℚ) ^ (-499 : ℤ) = 2 * 2 ^ (-500 : ℤ) := by rw [show (-499 : ℤ) = 1 + -500 by norm_num, zpow_add₀ (by norm_num)]; norm_num
        have p2 : (2 : ℚ) ^ (500 : ℤ) = 2 * 2 ^ (499 : ℤ) := by rw [show (500 : ℤ) = 1 + 499 by norm_num, zpow_add₀ (by norm_num)]; norm_num
        rw [p1] at l
        rw [p2]
        clear p1 p2 hlo hhi e2 hn' h3 b1
        generalize (2 : ℚ) ^ (-500 : ℤ) = s at *
        generalize (2 : ℚ) ^ (499 : ℤ) = t at *
        constructor <;> linarith
    rw [rewritten_succ f i _ hk, h1]
    obtain ⟨z, g1, g2, g3⟩ := C126_back (x := y) hlo hhi hy
    refine ⟨z, g1, g2, ?_⟩
    rw [e2] at h3 hn' ⊢
    have := drift_step (n := n) (e := 2 ^ (-51 : ℤ)) (x := x) (y := y) (z := z) (by positivity)
      (by rw [show (2 : ℝ) * n * 2 ^ (-51 : ℤ) = n * (2 * 2 ^ (-51 : ℤ)) by ring]; exact hn'.trans (by norm_num)) (by rw [show (2 : ℝ) * n * 2 ^ (-51 : ℤ) = n * (2 * 2 ^ (-51 : ℤ)) by ring]; exact h3) g3
    push_cast
    rw [show ((n : ℝ) + 1) * (2 * 2 ^ (-51 : ℤ)) = 2 * (n + 1) * 2 ^ (-51 : ℤ) by ring]
    exact this

/-- **C129.** It always moves the same way: if the first time does not make it larger, no later time does, and likewise for smaller. -/
theorem C129_direction (f : DFrame) (i : Part) (k : ℚ) (hk : factor f i = some (.num k)) (h0 : 0 < k) (x : Nat → ℚ) (N : Nat)
    (hx : ∀ n ≤ N, readPart (rewritten f i n) i = .num (x n)) :
    (∀ n < N, x n ≤ x (n + 1)) ∨ (∀ n < N, x (n + 1) ≤ x n) := by
  have step : ∀ n, n + 1 ≤ N → readAngle (.num k) (storeAngle (.num k) (.num (x n))) = .num (x (n + 1)) := by
    intro n hn
    rw [← hx n (by omega), ← rewritten_succ f i _ hk, hx _ hn]
  rcases le_total (x 0) (x 1) with h | h
  · left
    intro n
    induction n with
    | zero => exact fun _ => h
    | succ n ih => exact fun hn => again_le h0 (ih (by omega)) (step n (by omega)) (step (n + 1) (by omega))
  · right
    intro n
    induction n with
    | zero => exact fun _ => h
    | succ n ih => exact fun hn => again_le h0 (ih (by omega)) (step (n + 1) (by omega)) (step n (by omega))

/-- **C129.** With the factor of degrees, 9 written, read and written back comes out lower each of the first two times and stays from then on. -/
theorem C129_nine (f : DFrame) (i : Part) (hk : factor f i = some degreeFactor) (hf : readPart f i = .num 9) :
    ∃ p q : ℚ, q < p ∧ p < 9 ∧ readPart (rewritten f i 1) i = .num p ∧ ∀ n, readPart (rewritten f i (n + 2)) i = .num q := by
  have s1 : readAngle degreeFactor (storeAngle degreeFactor (.num 9)) = .num (5066549580791807 * 2 ^ (-49 : ℤ)) := by decide +kernel
  have s2 : readAngle degreeFactor (storeAngle degreeFactor (.num (5066549580791807 * 2 ^ (-49 : ℤ)))) = .num (5066549580791806 * 2 ^ (-49 : ℤ)) := by decide +kernel
  have s3 : readAngle degreeFactor (storeAngle degreeFactor (.num (5066549580791806 * 2 ^ (-49 : ℤ)))) = .num (5066549580791806 * 2 ^ (-49 : ℤ)) := by decide +kernel
  refine ⟨_, 5066549580791806 * 2 ^ (-49 : ℤ), ?_, ?_, by rw [rewritten_succ f i _ hk]; show readAngle _ (storeAngle _ (readPart f i)) = _; rw [hf, s1], ?_⟩
  · norm_num
  · norm_num
  · intro n
    induction n with
    | zero =>
      rw [rewritten_succ f i _ hk, rewritten_succ f i _ hk]
      show readAngle _ (storeAngle _ (readAngle _ (storeAngle _ (readPart f i)))) = _
      rw [hf, s1, s2]
    | succ n ih => rw [rewritten_succ f i _ hk, ih, s3]

/-- One of the two stored angles of the motion. -/
def motionPart (f : DFrame) : Part → Dbl
  | .pmLat => f.motion.c0
  | _ => f.motion.c1

theorem motion_other (f : DFrame) (c : DFrame.Call) (i : Part) (hi : i = .pmLat ∨ i = .pmLon) (h : given c i = none) : motionPart (f.apply c) i = motionPart f i := by
  rcases hi with rfl | rfl <;> cases c <;> first | rfl | cases h

theorem motion_last (f : DFrame) (calls : List DFrame.Call) (i : Part) (hi : i = .pmLat ∨ i = .pmLon) (k v : Dbl) (hk : factor f i = some k)
    (h : LastGiven calls i v) : motionPart (f.run calls) i = storeAngle k v := by
  obtain ⟨before, c, after, rfl, hc, ha⟩ := h
  have kept : ∀ (l : List DFrame.Call) (g : DFrame), (∀ d ∈ l, given d i = none) → motionPart (g.run l) i = motionPart g i := by
    intro l
    induction l with
    | nil => exact fun _ _ => rfl
    | cons d l ih => exact fun g hl => (ih (g.apply d) fun e he => hl e (.tail _ he)).trans (motion_other g d i hi (hl d (.head _)))
  have hm : factor (f.run before) i = some k := (run_factor f before i).trans hk
  rw [run_append]
  show motionPart (((f.run before).apply c).run after) i = _
  rw [kept _ _ ha]
  rcases hi with rfl | rfl <;> cases Option.some.inj hm <;> cases c <;> first | (cases hc; rfl) | cases hc

theorem degrees_small {x : ℚ} (hlo : 2 ^ (-1000 : ℤ) ≤ |x|) (hhi : |x| ≤ 2 ^ (1000 : ℤ)) :
    ∃ q : ℚ, storeAngle degreeFactor (.num x) = .num q ∧ |x| / 58 < |q| ∧ |q| < |x| / 57 := by
  obtain ⟨q, h1, -, h3, h4⟩ := C126_degrees hlo hhi
  have x0 : (0 : ℝ) < |(x : ℝ)| := by
    have : (0 : ℚ) < |x| := lt_of_lt_of_le (zpow_pos (by norm_num) _) hlo
    exact_mod_cast this
  have e : (1 : ℝ) + 2 ^ (-43 : ℤ) ≤ 1.0001 := by norm_num
  have e' : (1 : ℝ) ≤ 1 + 2 ^ (-44 : ℤ) := by norm_num
  have pi0 := Real.pi_pos
  have pi1 := Real.pi_lt_d2
  have pi2 := Real.pi_gt_d2
  have b : |(q : ℝ)| < |(x : ℝ)| / 57 := by
    refine h4.trans_lt ?_
    calc |(x : ℝ)| * Real.pi / 180 * (1 + 2 ^ (-43 : ℤ)) ≤ |(x : ℝ)| * Real.pi / 180 * 1.0001 := mul_le_mul_of_nonneg_left e (by positivity)
      _ = |(x : ℝ)| * (Real.pi / 180 * 1.0001) := by ring
      _ < |(x : ℝ)| * (1 / 57) := by
        refine mul_lt_mul_of_pos_left ?_ x0
        norm_num at pi1 ⊢
        linarith
      _ = |(x : ℝ)| / 57 := by ring
  have a : |(x : ℝ)| / 58 < |(q : ℝ)| := by
    refine lt_of_lt_of_le ?_ h3
    calc |(x : ℝ)| / 58 = |(x : ℝ)| * (1 / 58) := by ring
      _ < |(x : ℝ)| * (Real.pi / 180) := by
        refine mul_lt_mul_of_pos_left ?_ x0
        norm_num at pi2 ⊢
        linarith
      _ = |(x : ℝ)| * Real.pi / 180 * 1 := by ring
      _ ≤ _ := mul_le_mul_of_nonneg_left e' (by positivity)
  refine ⟨q, h1, ?_, ?_⟩
  · have a' : ((|x| / 58 : ℚ) : ℝ) < ((|q| : ℚ) : ℝ) := by
      push_cast
      exact a
    exact Rat.cast_lt.1 a'
  · have b' : ((|q| : ℚ) : ℝ) < ((|x| / 57 : ℚ) : ℝ) := by
      push_cast
      exact b
    exact Rat.cast_lt.1 b'

/-- **C129.** get_proper_motion does not agree with the getters: with motions of `x` and `y` degrees set last, its two numbers, which it calls degrees, are
between a fifty-eighth and a fifty-seventh of them. -/
theorem C129_proper_motion (f : DFrame) (calls : List DFrame.Call) (x y : ℚ) (hk : f.m0 = degreeFactor) (hk' : f.m1 = degreeFactor)
    (hlo : 2 ^ (-1000 : ℤ) ≤ |x|) (hhi : |x| ≤ 2 ^ (1000 : ℤ)) (hlo' : 2 ^ (-1000 : ℤ) ≤ |y|) (hhi' : |y| ≤ 2 ^ (1000 : ℤ))
    (h : LastGiven calls .pmLat (.num x)) (h' : LastGiven calls .pmLon (.num y)) :
    ∃ p q : ℚ, (f.run calls).properMotion = (.num p, .num q) ∧ (|x| / 58 < |p| ∧ |p| < |x| / 57) ∧ |y| / 58 < |q| ∧ |q| < |y| / 57 := by
  obtain ⟨p, p1, p2⟩ := degrees_small hlo hhi
  obtain ⟨q, q1, q2⟩ := degrees_small hlo' hhi'
  refine ⟨p, q, ?_, p2, q2⟩
  have a := motion_last f calls .pmLat (.inl rfl) _ _ (congrArg some hk) h
  have b := motion_last f calls .pmLon (.inr rfl) _ _ (congrArg some hk') h'
  exact Prod.ext (a.trans p1) (b.trans q1)

/-- **C129.** Writing one quantity back leaves all others as they were. -/
theorem C129_others (f : DFrame) (i j : Part) (h : i ≠ j) (n : Nat) : readPart (rewritten f i n) j = readPart f j := by
  induction n with
  | zero => rfl
  | succ n ih =>
    refine (apply_other _ _ _ ?_).trans ih
    cases i <;> cases j <;> first | rfl | exact absurd rfl h

/-- The unit of the latitude is 1/64 radian and the calls set it twice: the second value counts, the distance is exact, the motion untouched. -/
example (f : DFrame) (h : f.k0 = .num (1 / 64)) : let calls := [DFrame.Call.latLonDist (.num 10) (.num 20) (.num 7), .pmLon (.num 3), .lat (.num 45)]
    Near (readPart (f.run calls) .lat) 45 (45 * 2 ^ (-51 : ℤ)) ∧ readPart (f.run calls) .dist = .num 7 ∧ readPart (f.run calls) .radial = readPart f .radial := by
  refine ⟨?_, C129_exact f _ .dist (.inl rfl) _ ⟨[], _, _, rfl, rfl, by simp [given]⟩, C129_untouched f _ .radial (by simp [given])⟩
  have := C129_last f [DFrame.Call.latLonDist (.num 10) (.num 20) (.num 7), .pmLon (.num 3), .lat (.num 45)] .lat (1 / 64) 45 (congrArg some h) (by norm_num [abs_of_pos])
    (by norm_num [abs_of_pos]) ⟨[_, _], _, [], rfl, rfl, by simp⟩ (.inr ⟨by norm_num, by norm_num⟩)
  simpa using this

end Astro
