import Verif.Lemmas.TallTrees
import Verif.Lemmas.SmoothGravity
import Mathlib.Analysis.SpecialFunctions.Trigonometric.Deriv

/-
Two bodies nearer to each other than the softening distance go around each other as two points on a spring: the difference of
their states turns as `w' = i w`.
-/

namespace NB

open Finset Complex

/-- Two equal masses for which the period is `2 π`. -/
noncomputable def twinMass : ℕ → ℝ := fun _ => 5e-13

/-- Where the two bodies are ... -/
noncomputable def twinPos (t : ℝ) (i : ℕ) (k : Fin 3) : ℝ :=
  if k = 0 then (if i = 0 then 1e-5 * Real.cos t else -(1e-5 * Real.cos t)) else 0

/-- ... and their velocities. -/
noncomputable def twinVel (t : ℝ) (i : ℕ) (k : Fin 3) : ℝ :=
  if k = 0 then (if i = 0 then -(1e-5 * Real.sin t) else 1e-5 * Real.sin t) else 0

/-- The difference of the states of the two bodies, as a point of the plane. -/
noncomputable def rel : (ℕ → ℝ) →ₗ[ℝ] ℂ where
  toFun y := ((y 0 - y 1 : ℝ) : ℂ) - ((y 6 - y 7 : ℝ) : ℂ) * I
  map_add' y z := by simp only [Pi.add_apply]; push_cast; ring
  map_smul' c y := by simp only [Pi.smul_apply, smul_eq_mul, RingHom.id_apply, real_smul]; push_cast; ring

lemma rel_apply (y : ℕ → ℝ) : rel y = ((y 0 - y 1 : ℝ) : ℂ) - ((y 6 - y 7 : ℝ) : ℂ) * I := rfl

lemma sqrt_eps : Real.sqrt (1e-8 : ℝ) = 1e-4 := by
  rw [show (1e-8 : ℝ) = 1e-4 ^ 2 by norm_num]
  exact Real.sqrt_sq (by norm_num)

lemma erase_zero : (range 2).erase 0 = {1} := by decide
lemma erase_one : (range 2).erase 1 = {0} := by decide

lemma twin_accel {r : ℕ → Fin 3 → ℝ} (h : Spec.dist2 (r 0) (r 1) ≤ 1e-8) (k : Fin 3) :
    Spec.accel 1e-8 2 r twinMass 0 k = -(r 0 k - r 1 k) / 2 ∧ Spec.accel 1e-8 2 r twinMass 1 k = (r 0 k - r 1 k) / 2 := by
  have h' : Spec.dist2 (r 1) (r 0) ≤ 1e-8 := by
    unfold Spec.dist2 at h ⊢
    linarith
  unfold Spec.accel twinMass
  rw [erase_zero, erase_one, sum_singleton, sum_singleton, max_eq_right h, max_eq_right h', sqrt_eps]
  constructor <;> (norm_num; ring)

/-- While the bodies are near each other the derivative turns by a right angle. -/
lemma rel_deriv {y : ℕ → ℝ} (h : ∀ j, j < 12 → |y j| ≤ 2e-5) :
    rel (C69.newtonDeriv 2 twinMass y) = I * rel y := by
  have hd : Spec.dist2 (C02.pos 2 y 0) (C02.pos 2 y 1) ≤ 1e-8 := by
    have e : ∀ i j, i < 12 → j < 12 → (y i - y j) ^ 2 ≤ 1.6e-9 := by
      intro i j hi hj
      have h1 := abs_le.1 (h i hi)
      have h2 := abs_le.1 (h j hj)
      have h3 : |y i - y j| ≤ 4e-5 := by rw [abs_le]; constructor <;> linarith [h1.1, h1.2, h2.1, h2.2]
      calc (y i - y j) ^ 2 = |y i - y j| ^ 2 := (sq_abs _).symm
        _ ≤ (4e-5) ^ 2 := pow_le_pow_left₀ (abs_nonneg _) h3 2
        _ = 1.6e-9 := by norm_num
    unfold Spec.dist2
    simp only [pos_eq]
    have h1 := e 0 1 (by norm_num) (by norm_num)
    have h2 := e 2 3 (by norm_num) (by norm_num)
    have h3 := e 4 5 (by norm_num) (by norm_num)
    norm_num at h1 h2 h3 ⊢
    linarith
  have ha := twin_accel hd 0
  simp only [pos_eq] at ha
  norm_num at ha
  have e0 : C69.newtonDeriv 2 twinMass y 0 = y 6 := by unfold C69.newtonDeriv; norm_num
  have e1 : C69.newtonDeriv 2 twinMass y 1 = y 7 := by unfold C69.newtonDeriv; norm_num
  have e6 : C69.newtonDeriv 2 twinMass y 6 = -(y 0 - y 1) / 2 := by
    unfold C69.newtonDeriv
    norm_num
    rw [ha.1]
  have e7 : C69.newtonDeriv 2 twinMass y 7 = (y 0 - y 1) / 2 := by
    unfold C69.newtonDeriv
    norm_num
    exact ha.2
  rw [rel_apply, rel_apply, e0, e1, e6, e7]
  push_cast
  linear_combination ((y 6 : ℂ) - y 7) * I_mul_I

lemma twin_dist (t : ℝ) : Spec.dist2 (twinPos t 0) (twinPos t 1) ≤ 4e-10 := by
  have := Real.cos_sq_le_one t
  have h : Spec.dist2 (twinPos t 0) (twinPos t 1) = 4e-10 * Real.cos t ^ 2 := by
    unfold Spec.dist2 twinPos
    rw [if_pos rfl, if_pos rfl, if_pos rfl, if_neg (by decide), if_neg (by decide), if_neg (by decide), if_neg (by decide),
      if_neg (by decide)]
    ring
  rw [h]
  linarith

/-- The two bodies move under softened gravity. -/
lemma twin_motion (T : ℝ) : Spec.Motion 1e-8 2 twinMass T twinPos twinVel := by
  have hd : ∀ t, Spec.dist2 (twinPos t 0) (twinPos t 1) ≤ 1e-8 := fun t => (twin_dist t).trans (by norm_num)
  constructor
  · intro t _ i hi k
    unfold twinPos twinVel
    by_cases hk : k = 0
    · simp only [hk, if_true]
      by_cases h0 : i = 0
      · simp only [h0, if_true]
        have := ((Real.hasDerivAt_cos t).const_mul (1e-5 : ℝ)).hasDerivWithinAt (s := Set.Icc 0 T)
        exact this.congr_deriv (by ring)
      · simp only [h0, if_false]
        have := ((Real.hasDerivAt_cos t).const_mul (1e-5 : ℝ)).neg.hasDerivWithinAt (s := Set.Icc 0 T)
        exact this.congr_deriv (by ring)
    · simp only [hk, if_false]
      exact hasDerivWithinAt_const _ _ _
  · intro t _ i hi k
    have ha := twin_accel (hd t) k
    obtain rfl | rfl : i = 0 ∨ i = 1 := by omega
    · rw [ha.1]
      unfold twinVel twinPos
      by_cases hk : k = 0
      · simp only [hk, if_true]
        have := ((Real.hasDerivAt_sin t).const_mul (1e-5 : ℝ)).neg.hasDerivWithinAt (s := Set.Icc 0 T)
        exact this.congr_deriv (by norm_num)
      · simp only [hk, if_false]
        exact (hasDerivWithinAt_const t (Set.Icc 0 T) (0 : ℝ)).congr_deriv (by norm_num)
    · rw [ha.2]
      unfold twinVel twinPos
      by_cases hk : k = 0
      · simp only [hk, if_true]
        have := ((Real.hasDerivAt_sin t).const_mul (1e-5 : ℝ)).hasDerivWithinAt (s := Set.Icc 0 T)
        exact this.congr_deriv (by norm_num)
      · simp only [hk, if_false]
        exact (hasDerivWithinAt_const t (Set.Icc 0 T) (0 : ℝ)).congr_deriv (by norm_num)

lemma twin_off (t : ℝ) : ∀ i, i < 2 → ∀ j, j < 2 → i ≠ j → Spec.dist2 (twinPos t i) (twinPos t j) ≠ 1e-8 := by
  intro i hi j hj hij
  have h1 := twin_dist t
  have h2 : Spec.dist2 (twinPos t 1) (twinPos t 0) = Spec.dist2 (twinPos t 0) (twinPos t 1) := by unfold Spec.dist2; ring
  obtain ⟨rfl, rfl⟩ | ⟨rfl, rfl⟩ : (i = 0 ∧ j = 1) ∨ (i = 1 ∧ j = 0) := by omega
  · exact ne_of_lt (h1.trans_lt (by norm_num))
  · rw [h2]; exact ne_of_lt (h1.trans_lt (by norm_num))

lemma twin_abs (t : ℝ) (j : Fin (6 * 2)) : |stateOf 2 twinPos twinVel t j| ≤ 1e-5 := by
  have hc : |1e-5 * Real.cos t| ≤ 1e-5 := by
    rw [abs_mul, abs_of_pos (by norm_num)]
    exact mul_le_of_le_one_right (by norm_num) (Real.abs_cos_le_one t)
  have hs : |1e-5 * Real.sin t| ≤ 1e-5 := by
    rw [abs_mul, abs_of_pos (by norm_num)]
    exact mul_le_of_le_one_right (by norm_num) (Real.abs_sin_le_one t)
  have h0 : |(0 : ℝ)| ≤ 1e-5 := by norm_num
  show |packed 2 (twinPos t) (twinVel t) j| ≤ _
  unfold packed twinPos twinVel
  split_ifs <;> first | exact hc | exact hs | exact h0 | (rw [abs_neg]; first | exact hc | exact hs)

lemma rel_twin (t : ℝ) : rel (packed 2 (twinPos t) (twinVel t)) = 2e-5 * turn t := by
  have e0 : packed 2 (twinPos t) (twinVel t) 0 = 1e-5 * Real.cos t := rfl
  have e1 : packed 2 (twinPos t) (twinVel t) 1 = -(1e-5 * Real.cos t) := rfl
  have e6 : packed 2 (twinPos t) (twinVel t) 6 = -(1e-5 * Real.sin t) := rfl
  have e7 : packed 2 (twinPos t) (twinVel t) 7 = 1e-5 * Real.sin t := rfl
  rw [rel_apply, e0, e1, e6, e7, turn, Complex.exp_mul_I, ← ofReal_cos, ← ofReal_sin]
  push_cast
  ring

/-- States near to each other have differences near to each other. -/
lemma rel_near {y z : ℕ → ℝ} {d : ℝ} (h : ‖firstN (6 * 2) y - firstN (6 * 2) z‖ ≤ d) : ‖rel y - rel z‖ ≤ 4 * d := by
  have hc : ∀ j, j < 12 → |y j - z j| ≤ d := fun j hj =>
    (norm_le_pi_norm (firstN (6 * 2) y - firstN (6 * 2) z) ⟨j, hj⟩).trans h
  have h0 := hc 0 (by norm_num)
  have h1 := hc 1 (by norm_num)
  have h6 := hc 6 (by norm_num)
  have h7 := hc 7 (by norm_num)
  rw [← map_sub, rel_apply]
  refine (norm_sub_le _ _).trans ?_
  rw [norm_mul, norm_I, mul_one, norm_real, norm_real, Real.norm_eq_abs, Real.norm_eq_abs]
  have a1 : |(y - z) 0 - (y - z) 1| ≤ d + d := (abs_sub _ _).trans (add_le_add h0 h1)
  have a2 : |(y - z) 6 - (y - z) 7| ≤ d + d := (abs_sub _ _).trans (add_le_add h6 h7)
  linarith

end NB
