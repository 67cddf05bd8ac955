import Verif.Lemmas.QtyDouble
import Verif.Props.VecDouble

/-
Helper lemmas: Cartesian vectors with several units.
-/

set_option exponentiation.threshold 3000

namespace Astro

open Spec Time

attribute [local irreducible] FloatFmt.nearest FloatFmt.value Dbl.round

variable {U : Type} {size : U → ℝ} {F : Factors U} {ε : ℝ}

/-- The error of one conversion. -/
noncomputable def castErr (ε : ℝ) : ℝ := (1 + ε) * (1 + unit53) - 1

theorem castErr_nonneg (h0 : 0 ≤ ε) : 0 ≤ castErr ε := by
  have u0 := unit53_pos
  unfold castErr
  nlinarith

theorem castErr_le (h1 : ε ≤ 1 / 16) : castErr ε ≤ ε + 107 / 100 * unit53 := by
  have u0 := unit53_pos
  unfold castErr
  nlinarith

theorem castErr_small (h1 : ε ≤ 1 / 16) : castErr ε ≤ 1 / 15 := by
  have := castErr_le h1
  have := unit53_small
  norm_num at this
  linarith

theorem size_ne (hF : AccurateFactors size F ε) (u : U) : size u ≠ 0 := (hF.positive u).ne'

/-- A number that is neither huge nor tiny in a unit. -/
def Usual (A : ℝ) : Prop := A = 0 ∨ (2 ^ (-400 : ℤ) ≤ |A| ∧ |A| ≤ 2 ^ (400 : ℤ))

theorem usual_of (hF : AccurateFactors size F ε) {u : U} {X : ℝ} (h : Ordinary size u X) : Usual (X / size u) := by
  have s := hF.positive u
  rcases h with h | ⟨h1, h2⟩
  · left; rw [h, zero_div]
  · right
    rw [abs_div, abs_of_pos s, le_div_iff₀ s, div_le_iff₀ s]
    exact ⟨h1, h2⟩

theorem usual_le {A : ℝ} (h : Usual A) : |A| ≤ 2 ^ (400 : ℤ) := by
  rcases h with h | h
  · rw [h, abs_zero]; exact (two_zpow_real _).le
  · exact h.2

theorem usual_mul {A B : ℝ} (ha : Usual A) (hb : Usual B) : (A * B = 0 ∨ 2 ^ (-1000 : ℤ) ≤ |A * B|) ∧ |A * B| ≤ 2 ^ (1000 : ℤ) := by
  constructor
  · rcases ha with h | ⟨h1, -⟩
    · left; rw [h, zero_mul]
    · rcases hb with h | ⟨h2, -⟩
      · left; rw [h, mul_zero]
      · right
        rw [abs_mul]
        refine le_trans ?_ (mul_le_mul h1 h2 (two_zpow_real _).le (abs_nonneg _))
        rw [← zpow_add₀ (by norm_num)]
        exact zpow_le_zpow_right₀ (by norm_num) (by norm_num)
  · rw [abs_mul]
    refine (mul_le_mul (usual_le ha) (usual_le hb) (abs_nonneg _) (two_zpow_real _).le).trans ?_
    rw [← zpow_add₀ (by norm_num)]
    exact zpow_le_zpow_right₀ (by norm_num) (by norm_num)

/-- Conversion of a number from one unit to another. -/
theorem cast_rel (hF : AccurateFactors size F ε) (h0 : 0 ≤ ε) (h1 : ε ≤ 1 / 16) {u u' : U} {x : ℚ} {X : ℝ} (hX : X = x * size u) (ho : Ordinary size u' X) :
    ∃ p, (Dbl.num x).mul (F u u') = .num p ∧ IsDouble p ∧ Rel p (X / size u') (castErr ε) := by
  obtain ⟨k, hk, dk, ek⟩ := hF.other u u'
  have s := hF.positive u
  have s' := hF.positive u'
  have e : (x : ℝ) * (size u / size u') = X / size u' := by rw [hX]; ring
  have hr : Rel k (size u / size u') ε := by
    unfold Rel
    rw [abs_of_pos (div_pos s s')]
    exact ek
  have ou := usual_of hF ho
  obtain ⟨p, hp, dp, ep⟩ := rel_mul (rel_self x) hr le_rfl h0 (by norm_num) (by linarith)
    (by
      rw [e]
      rcases ou with h | h
      · exact Or.inl h
      · exact Or.inr (le_trans (zpow_le_zpow_right₀ (by norm_num) (by norm_num)) h.1))
    (by rw [e]; exact (usual_le ou).trans (zpow_le_zpow_right₀ (by norm_num) (by norm_num)))
  refine ⟨p, by rw [hk, hp], dp, ?_⟩
  rw [e] at ep
  refine rel_mono ep (le_of_eq ?_)
  unfold castErr
  ring

theorem rel_abs {a : ℚ} {A e : ℝ} (h : Rel a A e) : |(a : ℝ)| ≤ |A| * (1 + e) := by
  have h1 := abs_sub_abs_le_abs_sub (a : ℝ) A
  unfold Rel at h
  linarith

/-- The sum of two approximations. -/
theorem sum_rel {a b : ℚ} {A B e : ℝ} (da : IsDouble a) (db : IsDouble b) (ha : Rel a A e) (hb : Rel b B e) (h1 : e ≤ 1 / 2)
    (hA : |A| ≤ 2 ^ (1000 : ℤ)) (hB : |B| ≤ 2 ^ (1000 : ℤ)) :
    ∃ s, (Dbl.num a).add (.num b) = .num s ∧ IsDouble s ∧ |(s : ℝ) - (A + B)| ≤ (|A| + |B|) * (e + (1 + e) * unit53) := by
  have b1 := rel_abs ha
  have b2 := rel_abs hb
  have u0 := unit53_pos
  have pe : ∀ {t : ℝ}, |t| ≤ 2 ^ (1000 : ℤ) → |t| * (1 + e) ≤ 2 * 2 ^ (1000 : ℤ) := by
    intro t ht
    calc |t| * (1 + e) ≤ |t| * 2 := mul_le_mul_of_nonneg_left (by linarith) (abs_nonneg _)
      _ ≤ _ := by rw [mul_comm]; exact mul_le_mul_of_nonneg_left ht (by norm_num)
  have hab : |a + b| ≤ 2 ^ (1023 : ℤ) := by
    have : ((|a + b| : ℚ) : ℝ) ≤ ((2 ^ (1023 : ℤ) : ℚ) : ℝ) := by
      rw [zpow_cast]
      push_cast
      refine (abs_add_le _ _).trans ((add_le_add (b1.trans (pe hA)) (b2.trans (pe hB))).trans ?_)
      rw [show (2 : ℝ) ^ (1023 : ℤ) = 2 ^ (1000 : ℤ) * 2 ^ (23 : ℤ) from by rw [← zpow_add₀ (by norm_num)]; norm_num]
      have := two_zpow_real 1000
      generalize (2 : ℝ) ^ (1000 : ℤ) = t at *
      norm_num
      linarith
    exact (Rat.cast_le (K := ℝ)).1 this
  obtain ⟨s, h1, h2, h3, -⟩ := add_err da db hab
  refine ⟨s, h1, h2, ?_⟩
  have h4 : |(s : ℝ) - (a + b)| ≤ |(a : ℝ) + b| * unit53 := by
    have := (Rat.cast_le (K := ℝ)).2 h3
    rw [← unit53_eq]
    push_cast at this
    exact this
  have h5 : |(a : ℝ) + b| ≤ (|A| + |B|) * (1 + e) := (abs_add_le _ _).trans (by linarith)
  have h6 := mul_le_mul_of_nonneg_right h5 u0.le
  unfold Rel at ha hb
  have e1 : (s : ℝ) - (A + B) = (s - (a + b)) + ((a - A) + (b - B)) := by ring
  rw [e1]
  refine (abs_add_le _ _).trans ?_
  have h7 := abs_add_le ((a : ℝ) - A) (b - B)
  have h8 : (|A| + |B|) * (e + (1 + e) * unit53) = (|A| + |B|) * (1 + e) * unit53 + (|A| * e + |B| * e) := by ring
  rw [h8]
  linarith

theorem rel_neg {a : ℚ} {A e : ℝ} (h : Rel a A e) : Rel (-a) (-A) e := by
  unfold Rel at *
  rw [abs_neg]
  push_cast
  rw [show -(a : ℝ) - -A = -(a - A) by ring, abs_neg]
  exact h

theorem diff_rel {a b : ℚ} {A B e : ℝ} (da : IsDouble a) (db : IsDouble b) (ha : Rel a A e) (hb : Rel b B e) (h1 : e ≤ 1 / 2)
    (hA : |A| ≤ 2 ^ (1000 : ℤ)) (hB : |B| ≤ 2 ^ (1000 : ℤ)) :
    ∃ s, (Dbl.num a).sub (.num b) = .num s ∧ IsDouble s ∧ |(s : ℝ) - (A - B)| ≤ (|A| + |B|) * (e + (1 + e) * unit53) := by
  obtain ⟨s, h1, h2, h3⟩ := sum_rel da (isDouble_neg db) ha (rel_neg hb) h1 hA (by rw [abs_neg]; exact hB)
  rw [abs_neg, ← sub_eq_add_neg] at h3
  exact ⟨s, h1, h2, h3⟩

/-- The mean of two approximations. -/
theorem mean_rel {a b : ℚ} {A B e : ℝ} (da : IsDouble a) (db : IsDouble b) (ha : Rel a A e) (hb : Rel b B e) (h1 : e ≤ 1 / 2)
    (hA : Usual A) (hB : Usual B) :
    ∃ s, ((Dbl.num a).add (.num b)).div (.num 2) = .num s ∧ IsDouble s ∧ |(s : ℝ) - (A + B) / 2| ≤ (|A| + |B|) / 2 * (e + (2 + e) * unit53) := by
  have b1 := rel_abs ha
  have b2 := rel_abs hb
  have u0 := unit53_pos
  have bound : ∀ {t : ℚ} {T : ℝ}, Usual T → |(t : ℝ)| ≤ |T| * (1 + e) → |t| ≤ 2 ^ 1022 := by
    intro t T hT ht
    have h2 : |T| * (1 + e) ≤ 2 * 2 ^ (400 : ℤ) := by
      calc |T| * (1 + e) ≤ |T| * 2 := mul_le_mul_of_nonneg_left (by linarith) (abs_nonneg _)
        _ ≤ _ := by rw [mul_comm]; exact mul_le_mul_of_nonneg_left (usual_le hT) (by norm_num)
    have h3 : (2 : ℝ) * 2 ^ (400 : ℤ) ≤ 2 ^ (1022 : ℤ) := by
      rw [show (2 : ℝ) * 2 ^ (400 : ℤ) = 2 ^ (401 : ℤ) from by rw [show (401 : ℤ) = 1 + 400 by norm_num, zpow_add₀ (by norm_num)]; norm_num]
      exact zpow_le_zpow_right₀ (by norm_num) (by norm_num)
    have h4 : ((|t| : ℚ) : ℝ) ≤ ((2 ^ (1022 : ℤ) : ℚ) : ℝ) := by
      rw [zpow_cast, Rat.cast_abs]
      exact ht.trans (h2.trans h3)
    have h5 := (Rat.cast_le (K := ℝ)).1 h4
    rwa [show (2 : ℚ) ^ (1022 : ℤ) = 2 ^ 1022 from zpow_ofNat 2 1022] at h5
  obtain ⟨m, hm, dm, m1, m2, em⟩ := half_sum da db (bound hA b1) (bound hB b2)
  refine ⟨m, hm, dm, ?_⟩
  by_cases hz : |A| + |B| = 0
  · have hA0 : A = 0 := abs_eq_zero.1 (by linarith [abs_nonneg A, abs_nonneg B])
    have hB0 : B = 0 := abs_eq_zero.1 (by linarith [abs_nonneg A, abs_nonneg B])
    subst hA0 hB0
    simp only [abs_zero, zero_mul] at b1 b2
    have a0 : a = 0 := by exact_mod_cast abs_nonpos_iff.1 b1
    have b0 : b = 0 := by exact_mod_cast abs_nonpos_iff.1 b2
    subst a0 b0
    simp only [min_self, max_self] at m1 m2
    have : m = 0 := le_antisymm m2 m1
    subst this
    simp
  · have hlow : (2 : ℝ) ^ (-400 : ℤ) ≤ |A| + |B| := by
      rcases hA with h | h
      · rcases hB with h' | h'
        · rw [h, h'] at hz; simp at hz
        · linarith [h'.1, abs_nonneg A]
      · linarith [h.1, abs_nonneg B]
    have hsp : (2 : ℝ) ^ (-1075 : ℤ) ≤ (|A| + |B|) / 2 * unit53 / 2 := by
      have e1 : (2 : ℝ) ^ (-1075 : ℤ) ≤ 2 ^ (-400 : ℤ) * 2 ^ (-55 : ℤ) := by
        rw [← zpow_add₀ (by norm_num)]
        exact zpow_le_zpow_right₀ (by norm_num) (by norm_num)
      have e2 : (2 : ℝ) ^ (-55 : ℤ) = unit53 / 4 := by norm_num [unit53]
      rw [e2] at e1
      have e3 := mul_le_mul_of_nonneg_right hlow (show 0 ≤ unit53 / 4 by positivity)
      linarith
    have h4 : |(m : ℝ) - (a + b) / 2| ≤ |((a : ℝ) + b) / 2| * unit53 + 2 ^ (-1075 : ℤ) := by
      have := (Rat.cast_le (K := ℝ)).2 em
      rw [← unit53_eq]
      unfold speck at this
      push_cast at this
      exact this
    have h5 : |((a : ℝ) + b) / 2| ≤ (|A| + |B|) / 2 * (1 + e) := by
      rw [abs_div, abs_of_pos (by norm_num : (0 : ℝ) < 2)]
      have := abs_add_le (a : ℝ) b
      linarith
    have h6 := mul_le_mul_of_nonneg_right h5 u0.le
    have h7 := abs_add_le ((a : ℝ) - A) (b - B)
    unfold Rel at ha hb
    have e1 : (m : ℝ) - (A + B) / 2 = (m - (a + b) / 2) + ((a - A) + (b - B)) / 2 := by ring
    rw [e1]
    refine (abs_add_le _ _).trans ?_
    rw [abs_div, abs_of_pos (by norm_num : (0 : ℝ) < 2)]
    have h8 : (|A| + |B|) / 2 * (e + (2 + e) * unit53) = (|A| + |B|) / 2 * (1 + e) * unit53 + (|A| + |B|) / 2 * unit53 + (|A| * e + |B| * e) / 2 := by ring
    rw [h8]
    have h9 : 0 ≤ (|A| + |B|) / 2 * unit53 := by positivity
    generalize (2 : ℝ) ^ (-1075 : ℤ) = t at *
    linarith

theorem scale_rel (hF : AccurateFactors size F ε) {t : ℚ} {T e : ℝ} {u : U} (h : Rel t (T / size u) e) : |t * size u - T| ≤ |T| * e := by
  have s0 := hF.positive u
  have e1 : t * size u - T = (t - T / size u) * size u := by field_simp
  rw [e1, abs_mul, abs_of_pos s0]
  refine (mul_le_mul_of_nonneg_right h s0.le).trans (le_of_eq ?_)
  rw [abs_div, abs_of_pos s0]
  field_simp

theorem cross_err (h0 : 0 ≤ ε) (h1 : ε ≤ 1 / 16) : (1 + castErr ε) * (1 + castErr ε) * (1 + unit53) - 1 ≤ 9 / 4 * ε + 34 / 10 * unit53 := by
  have u0 := unit53_pos
  have u1 := unit53_small
  have c0 := castErr_nonneg h0
  have c1 := castErr_le h1
  have c2 := castErr_small h1
  generalize castErr ε = c at *
  have e1 : c * c ≤ c * (1 / 15) := mul_le_mul_of_nonneg_left c2 c0
  have e2 : c * unit53 ≤ 1 / 15 * unit53 := mul_le_mul_of_nonneg_right c2 u0.le
  have e3 : c * c * unit53 ≤ c * (1 / 15) * unit53 := mul_le_mul_of_nonneg_right e1 u0.le
  have e : (1 + c) * (1 + c) * (1 + unit53) - 1 = 2 * c + c * c + unit53 + 2 * (c * unit53) + c * c * unit53 := by ring
  rw [e]
  linarith

/-- One coordinate of a cross product. -/
theorem cross_part (hF : AccurateFactors size F ε) (h0 : 0 ≤ ε) (h1 : ε ≤ 1 / 16) {y z' z y' : ℚ} {Y Z' Z Y' : ℝ} {u w' w v' : U}
    (hY : Y = y * size u) (hZ' : Z' = z' * size w') (hZ : Z = z * size w) (hY' : Y' = y' * size v')
    (o1 : Ordinary size u Y) (o2 : Ordinary size w' Z') (o3 : Ordinary size u Z) (o4 : Ordinary size w' Y') :
    ∃ p, ((Dbl.num y).mul (.num z')).sub (((Dbl.num z).mul (F w u)).mul ((Dbl.num y').mul (F v' w'))) = .num p ∧ IsDouble p ∧
      |p * (size u * size w') - (Y * Z' - Z * Y')| ≤ (|Y * Z'| + |Z * Y'|) * (3 * ε + 2 ^ (-50 : ℤ)) := by
  have su := hF.positive u
  have sw := hF.positive w'
  have u0 := unit53_pos
  have u1 := unit53_small
  have c0 := castErr_nonneg h0
  have c2 := castErr_small h1
  have ce := cross_err h0 h1
  obtain ⟨c, hc, dc, ec⟩ := cast_rel hF h0 h1 hZ o3
  obtain ⟨d, hd, dd, ed⟩ := cast_rel hF h0 h1 hY' o4
  have ey : (y : ℝ) = Y / size u := by rw [hY]; field_simp
  have ez : (z' : ℝ) = Z' / size w' := by rw [hZ']; field_simp
  have ry : Rel y (Y / size u) (castErr ε) := by rw [← ey]; exact rel_mono (rel_self y) c0
  have rz : Rel z' (Z' / size w') (castErr ε) := by rw [← ez]; exact rel_mono (rel_self z') c0
  have m1 := usual_mul (usual_of hF o1) (usual_of hF o2)
  have m2 := usual_mul (usual_of hF o3) (usual_of hF o4)
  obtain ⟨g, hg, dg, eg⟩ := rel_mul ry rz c0 c0 (by linarith) (by linarith) m1.1 m1.2
  obtain ⟨k, hk, dk, ek⟩ := rel_mul ec ed c0 c0 (by linarith) (by linarith) m2.1 m2.2
  have big : (1 + castErr ε) * (1 + castErr ε) * (1 + unit53) - 1 ≤ 1 / 2 := by norm_num at u1; linarith
  obtain ⟨s, hs, ds, es⟩ := diff_rel dg dk eg ek big m1.2 m2.2
  refine ⟨s, by rw [hc, hd, hg, hk, hs], ds, ?_⟩
  have sp : 0 < size u * size w' := mul_pos su sw
  have e1 : s * (size u * size w') - (Y * Z' - Z * Y') = (s - (Y / size u * (Z' / size w') - Z / size u * (Y' / size w'))) * (size u * size w') := by field_simp
  rw [e1, abs_mul, abs_of_pos sp]
  refine (mul_le_mul_of_nonneg_right es sp.le).trans ?_
  generalize hE : (1 + castErr ε) * (1 + castErr ε) * (1 + unit53) - 1 = E at *
  have e2 : (|Y / size u * (Z' / size w')| + |Z / size u * (Y' / size w')|) * (E + (1 + E) * unit53) * (size u * size w') =
      (|Y * Z'| + |Z * Y'|) * (E + (1 + E) * unit53) := by
    rw [abs_mul, abs_mul, abs_mul, abs_mul, abs_div, abs_div, abs_div, abs_div, abs_of_pos su, abs_of_pos sw]
    field_simp
  rw [e2]
  refine mul_le_mul_of_nonneg_left ?_ (by positivity)
  have e3 : (1 + E) * unit53 ≤ (1 + 1 / 2) * unit53 := mul_le_mul_of_nonneg_right (by linarith) u0.le
  rw [show (2 : ℝ) ^ (-50 : ℤ) = 8 * unit53 by norm_num [unit53]]
  linarith

/-- The coordinates in the unit of the first one. -/
theorem first_rel (hF : AccurateFactors size F ε) (h0 : 0 ≤ ε) (h1 : ε ≤ 1 / 16) {a : QVec U} {X Y Z : ℝ} (ha : Measures size a X Y Z)
    (oa : Ordinary size a.u1 X ∧ Ordinary size a.u1 Y ∧ Ordinary size a.u1 Z) :
    ∃ p q r : ℚ, Coords (a.inFirst F) p q r ∧ Rel p (X / size a.u1) (castErr ε) ∧ Rel q (Y / size a.u1) (castErr ε) ∧ Rel r (Z / size a.u1) (castErr ε) := by
  obtain ⟨x, y, z, ⟨hv, dx, dy, dz⟩, hX, hY, hZ⟩ := ha
  obtain ⟨q, hq, dq, eq⟩ := cast_rel hF h0 h1 hY oa.2.1
  obtain ⟨r, hr, dr, er⟩ := cast_rel hF h0 h1 hZ oa.2.2
  have s0 := hF.positive a.u1
  have ex : (x : ℝ) = X / size a.u1 := by rw [hX]; field_simp
  refine ⟨x, q, r, ⟨?_, dx, dq, dr⟩, ?_, eq, er⟩
  · unfold QVec.inFirst
    rw [hv]
    show DVec.mk _ _ _ = _
    rw [hq, hr]
  · rw [← ex]
    exact rel_mono (rel_self x) (castErr_nonneg h0)

theorem rel_zero {q : ℚ} {e : ℝ} (h : Rel q 0 e) : q = 0 := by
  unfold Rel at h
  simp only [sub_zero, abs_zero, zero_mul] at h
  exact_mod_cast abs_nonpos_iff.1 h

theorem pair_err (h0 : 0 ≤ ε) (h1 : ε ≤ 1 / 16) : (1 + castErr ε) * (1 + castErr ε) - 1 ≤ 9 / 4 * ε + 23 / 10 * unit53 := by
  have u0 := unit53_pos
  have c0 := castErr_nonneg h0
  have c1 := castErr_le h1
  have c2 := castErr_small h1
  generalize castErr ε = c at *
  have e1 : c * c ≤ c * (1 / 15) := mul_le_mul_of_nonneg_left c2 c0
  have e : (1 + c) * (1 + c) - 1 = 2 * c + c * c := by ring
  rw [e]
  linarith

theorem product_low {A B : ℝ} (ha : Usual A) (hb : Usual B) (h : A * B ≠ 0) : 2 ^ (-1000 : ℤ) ≤ |A * B| := (usual_mul ha hb).1.resolve_left h

/-- The dot product of approximations. -/
theorem dot_rel {v w : DVec} {p q r p' q' r' : ℚ} {A B C A' B' C' : ℝ} (h0 : 0 ≤ ε) (h1 : ε ≤ 1 / 16) (hv : Coords v p q r) (hw : Coords w p' q' r')
    (ep : Rel p A (castErr ε)) (eq : Rel q B (castErr ε)) (er : Rel r C (castErr ε)) (ep' : Rel p' A' (castErr ε)) (eq' : Rel q' B' (castErr ε))
    (er' : Rel r' C' (castErr ε)) (uA : Usual A) (uB : Usual B) (uC : Usual C) (uA' : Usual A') (uB' : Usual B') (uC' : Usual C') :
    ∃ d : ℚ, v.dot w = .num d ∧ |(d : ℝ) - (A * A' + B * B' + C * C')| ≤ (|A * A'| + |B * B'| + |C * C'|) * (3 * ε + 2 ^ (-50 : ℤ)) := by
  have u0 := unit53_pos
  have u1 := unit53_small
  have c0 := castErr_nonneg h0
  have c2 := castErr_small h1
  have g1 := rel_product ep ep'
  have g2 := rel_product eq eq'
  have g3 := rel_product er er'
  have pe := pair_err h0 h1
  have half : (1 + castErr ε) * (1 + castErr ε) - 1 ≤ 1 / 2 := by norm_num at u1; linarith
  have b1 := (abs_between g1 half).2
  have b2 := (abs_between g2 half).2
  have b3 := (abs_between g3 half).2
  have m1 := (usual_mul uA uA').2
  have m2 := (usual_mul uB uB').2
  have m3 := (usual_mul uC uC').2
  have top : |p * p'| + |q * q'| + |r * r'| ≤ 2 ^ 1022 := by
    have : ((|p * p'| + |q * q'| + |r * r'| : ℚ) : ℝ) ≤ ((2 ^ (1022 : ℤ) : ℚ) : ℝ) := by
      rw [zpow_cast]
      push_cast
      rw [show (2 : ℝ) ^ (1022 : ℤ) = 2 ^ (1000 : ℤ) * 2 ^ (22 : ℤ) from by rw [← zpow_add₀ (by norm_num)]; norm_num]
      have := two_zpow_real 1000
      generalize (2 : ℝ) ^ (1000 : ℤ) = t at *
      rw [show (2 : ℝ) ^ (22 : ℤ) = 4194304 by norm_num]
      linarith
    have h5 := (Rat.cast_le (K := ℝ)).1 this
    rwa [show (2 : ℚ) ^ (1022 : ℤ) = 2 ^ 1022 from zpow_ofNat 2 1022] at h5
  obtain ⟨d, hd, ed⟩ := C104_error v w p q r p' q' r' hv hw top
  refine ⟨d, hd, ?_⟩
  generalize hS : |A * A'| + |B * B'| + |C * C'| = S at *
  by_cases hz : S = 0
  · have z1 : A * A' = 0 := abs_eq_zero.1 (by linarith [abs_nonneg (A * A'), abs_nonneg (B * B'), abs_nonneg (C * C')])
    have z2 : B * B' = 0 := abs_eq_zero.1 (by linarith [abs_nonneg (A * A'), abs_nonneg (B * B'), abs_nonneg (C * C')])
    have z3 : C * C' = 0 := abs_eq_zero.1 (by linarith [abs_nonneg (A * A'), abs_nonneg (B * B'), abs_nonneg (C * C')])
    have none : ∀ {s s' : ℚ} {T : ℝ}, T = 0 → |(s : ℝ) * s' - T| ≤ |T| * ((1 + castErr ε) * (1 + castErr ε) - 1) → s * s' = 0 := by
      intro s s' T hT h
      rw [hT] at h
      simp only [sub_zero, abs_zero, zero_mul] at h
      exact_mod_cast abs_nonpos_iff.1 h
    have k1 := none z1 g1
    have k2 := none z2 g2
    have k3 := none z3 g3
    have e0 : v.dot w = .num 0 := by
      unfold DVec.dot
      rw [hv.1, hw.1]
      show ((Dbl.num p).mul (.num p')).add (((Dbl.num q).mul (.num q')).add ((Dbl.num r).mul (.num r'))) = _
      simp only [mul_num, k1, k2, k3, round_zero]
      have z : (Dbl.num 0).add (.num 0) = .num 0 := by
        show Dbl.round (0 + 0) = _
        rw [add_zero, round_zero]
      rw [z, z]
    rw [e0] at hd
    rw [← Dbl.num.inj hd, z1, z2, z3, hz]
    simp
  · have low : (2 : ℝ) ^ (-1000 : ℤ) ≤ S := by
      by_cases n1 : A * A' = 0
      · by_cases n2 : B * B' = 0
        · by_cases n3 : C * C' = 0
          · rw [n1, n2, n3] at hS
            simp at hS
            exact absurd hS.symm hz
          · have := product_low uC uC' n3
            linarith [abs_nonneg (A * A'), abs_nonneg (B * B')]
        · have := product_low uB uB' n2
          linarith [abs_nonneg (A * A'), abs_nonneg (C * C')]
      · have := product_low uA uA' n1
        linarith [abs_nonneg (B * B'), abs_nonneg (C * C')]
    have tiny : (2 : ℝ) ^ (-1073 : ℤ) ≤ S * (unit53 / 2 ^ 10) := by
      have e1 : (2 : ℝ) ^ (-1073 : ℤ) ≤ 2 ^ (-1000 : ℤ) * 2 ^ (-63 : ℤ) := by
        rw [← zpow_add₀ (by norm_num)]
        exact zpow_le_zpow_right₀ (by norm_num) (by norm_num)
      have e2 : (2 : ℝ) ^ (-63 : ℤ) = unit53 / 2 ^ 10 := by norm_num [unit53]
      rw [e2] at e1
      exact e1.trans (mul_le_mul_of_nonneg_right low (by positivity))
    have h4 : |(d : ℝ) - (p * p' + q * q' + r * r')| ≤ 4 * unit53 * (|(p : ℝ) * p'| + |(q : ℝ) * q'| + |(r : ℝ) * r'|) + 2 ^ (-1073 : ℤ) := by
      have := (Rat.cast_le (K := ℝ)).2 ed
      rw [show (4 : ℝ) * unit53 = 2 ^ (-51 : ℤ) by norm_num [unit53]]
      push_cast at this
      exact this
    have e1 : (d : ℝ) - (A * A' + B * B' + C * C') = (d - (p * p' + q * q' + r * r')) + ((p * p' - A * A') + (q * q' - B * B') + (r * r' - C * C')) := by ring
    have h5 := abs_add_three ((p : ℝ) * p' - A * A') (q * q' - B * B') (r * r' - C * C')
    generalize hE : (1 + castErr ε) * (1 + castErr ε) - 1 = E at *
    have h6 : |(p : ℝ) * p'| + |(q : ℝ) * q'| + |(r : ℝ) * r'| ≤ S * (1 + E) := by
      have k1 := abs_sub_abs_le_abs_sub ((p : ℝ) * p') (A * A')
      have k2 := abs_sub_abs_le_abs_sub ((q : ℝ) * q') (B * B')
      have k3 := abs_sub_abs_le_abs_sub ((r : ℝ) * r') (C * C')
      rw [← hS]
      linarith
    have S0 : 0 ≤ S := (two_zpow_real _).le.trans low
    have h7 : 4 * unit53 * (|(p : ℝ) * p'| + |(q : ℝ) * q'| + |(r : ℝ) * r'|) ≤ 4 * unit53 * (S * (1 + E)) := mul_le_mul_of_nonneg_left h6 (by positivity)
    rw [e1]
    refine (abs_add_le _ _).trans ?_
    have h8 : |(p : ℝ) * p' - A * A'| + |(q : ℝ) * q' - B * B'| + |(r : ℝ) * r' - C * C'| ≤ S * E := by rw [← hS]; linarith
    have h9 : 4 * unit53 * (1 + E) + E + unit53 / 2 ^ 10 ≤ 3 * ε + 2 ^ (-50 : ℤ) := by
      have k : E * unit53 ≤ 1 / 7 * unit53 := mul_le_mul_of_nonneg_right (by norm_num at u1; linarith) u0.le
      rw [show (2 : ℝ) ^ (-50 : ℤ) = 8 * unit53 by norm_num [unit53]]
      norm_num
      linarith
    have h10 := mul_le_mul_of_nonneg_left h9 S0
    have h11 : S * (4 * unit53 * (1 + E) + E + unit53 / 2 ^ 10) = 4 * unit53 * (S * (1 + E)) + S * E + S * (unit53 / 2 ^ 10) := by ring
    rw [h11] at h10
    generalize (2 : ℝ) ^ (-1073 : ℤ) = t at *
    generalize (2 : ℝ) ^ (-50 : ℤ) = t' at *
    generalize S * (unit53 / 2 ^ 10) = t'' at *
    linarith

theorem usual_range {p : ℚ} {A e : ℝ} (h : Rel p A e) (he : e ≤ 1 / 2) (u : Usual A) : |p| ≤ 2 ^ (401 : ℤ) ∧ (A ≠ 0 → 2 ^ (-401 : ℤ) ≤ |p|) := by
  obtain ⟨h1, h2⟩ := abs_between h he
  constructor
  · have : ((|p| : ℚ) : ℝ) ≤ ((2 ^ (401 : ℤ) : ℚ) : ℝ) := by
      rw [zpow_cast, Rat.cast_abs]
      refine h2.trans ((mul_le_mul_of_nonneg_left (usual_le u) (by norm_num)).trans (le_of_eq ?_))
      rw [show (401 : ℤ) = 1 + 400 by norm_num, zpow_add₀ (by norm_num), zpow_one]
    exact (Rat.cast_le (K := ℝ)).1 this
  · intro hA
    have hl := (u.resolve_left hA).1
    have : ((2 ^ (-401 : ℤ) : ℚ) : ℝ) ≤ ((|p| : ℚ) : ℝ) := by
      rw [zpow_cast, Rat.cast_abs]
      refine le_trans (le_of_eq ?_) ((div_le_div_of_nonneg_right hl (by norm_num : (0 : ℝ) ≤ 2)).trans h1)
      rw [show (-401 : ℤ) = -400 + -1 by norm_num, zpow_add₀ (by norm_num), zpow_neg_one, div_eq_mul_inv]
    exact (Rat.cast_le (K := ℝ)).1 this

/-- The squares are neither huge nor tiny. -/
theorem square_range {p q r : ℚ} {A B C e : ℝ} (hp : Rel p A e) (hq : Rel q B e) (hr : Rel r C e) (he : e ≤ 1 / 2) (uA : Usual A) (uB : Usual B) (uC : Usual C)
    (hn : A ≠ 0 ∨ B ≠ 0 ∨ C ≠ 0) : 2 ^ (-900 : ℤ) ≤ p * p + q * q + r * r ∧ p * p + q * q + r * r ≤ 2 ^ (900 : ℤ) := by
  have rp := usual_range hp he uA
  have rq := usual_range hq he uB
  have rr := usual_range hr he uC
  have low : ∀ {t : ℚ}, 2 ^ (-401 : ℤ) ≤ |t| → 2 ^ (-900 : ℤ) ≤ t * t := by
    intro t ht
    rw [← abs_mul_abs_self]
    refine le_trans ?_ (mul_le_mul ht ht (two_zpow_pos _).le (abs_nonneg _))
    rw [← zpow_add₀ (by norm_num)]
    exact zpow_le_zpow_right₀ (by norm_num) (by norm_num)
  have high : ∀ {t : ℚ}, |t| ≤ 2 ^ (401 : ℤ) → t * t ≤ 2 ^ (802 : ℤ) := by
    intro t ht
    rw [← abs_mul_abs_self]
    refine (mul_le_mul ht ht (abs_nonneg _) (two_zpow_pos _).le).trans (le_of_eq ?_)
    rw [← zpow_add₀ (by norm_num)]
    norm_num
  have n1 := mul_self_nonneg p
  have n2 := mul_self_nonneg q
  have n3 := mul_self_nonneg r
  constructor
  · rcases hn with h | h | h
    · linarith [low (rp.2 h)]
    · linarith [low (rq.2 h)]
    · linarith [low (rr.2 h)]
  · have h1 := high rp.1
    have h2 := high rq.1
    have h3 := high rr.1
    have e : (2 : ℚ) ^ (802 : ℤ) * 4 ≤ 2 ^ (900 : ℤ) := by
      rw [show (4 : ℚ) = 2 ^ (2 : ℤ) by norm_num, ← zpow_add₀ (by norm_num)]
      exact zpow_le_zpow_right₀ (by norm_num) (by norm_num)
    have := two_zpow_pos 802
    generalize (2 : ℚ) ^ (802 : ℤ) = t at *
    generalize (2 : ℚ) ^ (900 : ℤ) = t' at *
    linarith

/-- The length of an approximation. -/
theorem length_rel {p q r : ℚ} {A B C e : ℝ} (h0 : 0 ≤ e) (hp : Rel p A e) (hq : Rel q B e) (hr : Rel r C e) :
    |√((p : ℝ) * p + q * q + r * r) - √(A * A + B * B + C * C)| ≤ √(A * A + B * B + C * C) * e := by
  have s1 : Spec.size ![(p : ℝ), q, r] = √((p : ℝ) * p + q * q + r * r) := by rw [size_eq]; simp [sq]
  have s2 : Spec.size ![A, B, C] = √(A * A + B * B + C * C) := by rw [size_eq]; simp [sq]
  have c : chord ![(p : ℝ), q, r] ![A, B, C] ≤ √(A * A + B * B + C * C) * e := by
    unfold chord
    apply Real.sqrt_le_iff.2
    refine ⟨by positivity, ?_⟩
    rw [mul_pow, Real.sq_sqrt (by nlinarith [mul_self_nonneg A, mul_self_nonneg B, mul_self_nonneg C])]
    have key : ∀ {t : ℚ} {T : ℝ}, Rel t T e → ((t : ℝ) - T) ^ 2 ≤ T * T * e ^ 2 := by
      intro t T h
      rw [← sq_abs]
      refine (pow_le_pow_left₀ (abs_nonneg _) h 2).trans (le_of_eq ?_)
      rw [mul_pow, sq_abs]
      ring
    have k1 := key hp
    have k2 := key hq
    have k3 := key hr
    show ((p : ℝ) - A) ^ 2 + ((q : ℝ) - B) ^ 2 + ((r : ℝ) - C) ^ 2 ≤ _
    linarith
  have t1 := size_sub ![(p : ℝ), q, r] ![A, B, C]
  have t2 := size_sub ![A, B, C] ![(p : ℝ), q, r]
  rw [chord_comm] at t2
  rw [s1, s2] at t1 t2
  rw [abs_le]
  constructor <;> linarith

theorem not_all_zero {A B C : ℝ} (h : ¬ (A = 0 ∧ B = 0 ∧ C = 0)) : A ≠ 0 ∨ B ≠ 0 ∨ C ≠ 0 := by tauto

/-- The magnitude of an approximation. -/
theorem mag_rel {v : DVec} {p q r : ℚ} {A B C : ℝ} (h0 : 0 ≤ ε) (h1 : ε ≤ 1 / 16) (hv : Coords v p q r)
    (ep : Rel p A (castErr ε)) (eq : Rel q B (castErr ε)) (er : Rel r C (castErr ε)) (uA : Usual A) (uB : Usual B) (uC : Usual C) :
    ∃ m : ℚ, v.magnitude = .num m ∧ |(m : ℝ) - √(A * A + B * B + C * C)| ≤ √(A * A + B * B + C * C) * (ε + 2 ^ (-50 : ℤ)) := by
  have u0 := unit53_pos
  have c0 := castErr_nonneg h0
  have c1 := castErr_le h1
  have c2 := castErr_small h1
  by_cases hz : A = 0 ∧ B = 0 ∧ C = 0
  · obtain ⟨rfl, rfl, rfl⟩ := hz
    have p0 := rel_zero ep
    have q0 := rel_zero eq
    have r0 := rel_zero er
    subst p0 q0 r0
    refine ⟨0, ?_, by simp⟩
    have := C106_integers v 0 0 0 0 (by simpa using hv) (by norm_num) (by norm_num)
    simpa using this
  · obtain ⟨lo, hi⟩ := square_range ep eq er (by linarith) uA uB uC (not_all_zero hz)
    obtain ⟨m, hm, em, -⟩ := C106_error v p q r hv (le_trans (zpow_le_zpow_right₀ (by norm_num) (by norm_num)) lo)
      (hi.trans (zpow_le_zpow_right₀ (by norm_num) (by norm_num)))
    refine ⟨m, hm, ?_⟩
    have hl := length_rel c0 ep eq er
    have L0 : 0 ≤ √(A * A + B * B + C * C) := Real.sqrt_nonneg _
    generalize √((p : ℝ) * p + q * q + r * r) = L' at *
    generalize √(A * A + B * B + C * C) = L at *
    have e1 : (m : ℝ) - L = (m - L') + (L' - L) := by ring
    rw [e1]
    refine (abs_add_le _ _).trans ((add_le_add em hl).trans ?_)
    have h2 : L' ≤ L * (1 + castErr ε) := by linarith [(abs_le.1 hl).2]
    rw [show (2 : ℝ) ^ (-51 : ℤ) = 4 * unit53 by norm_num [unit53], show (2 : ℝ) ^ (-50 : ℤ) = 8 * unit53 by norm_num [unit53]]
    have h3 : 4 * unit53 * L' ≤ 4 * unit53 * (L * (1 + castErr ε)) := mul_le_mul_of_nonneg_left h2 (by positivity)
    have h4 : castErr ε * unit53 ≤ 1 / 15 * unit53 := mul_le_mul_of_nonneg_right c2 u0.le
    have h5 : 4 * unit53 * (1 + castErr ε) + castErr ε ≤ ε + 8 * unit53 := by linarith
    have h6 := mul_le_mul_of_nonneg_left h5 L0
    linarith

/-- Scaling a length by a unit. -/
theorem sqrt_scale {s X Y Z : ℝ} (hs : 0 < s) : √(X / s * (X / s) + Y / s * (Y / s) + Z / s * (Z / s)) = √(X * X + Y * Y + Z * Z) / s := by
  have e : X / s * (X / s) + Y / s * (Y / s) + Z / s * (Z / s) = (X * X + Y * Y + Z * Z) / (s * s) := by field_simp
  rw [e, Real.sqrt_div' _ (mul_self_nonneg s), Real.sqrt_mul_self hs.le]

end Astro
