import Mathlib.Analysis.Calculus.MeanValue
import Mathlib.Analysis.SpecialFunctions.Exp
import Mathlib.Analysis.Complex.Exponential
import Mathlib.Analysis.Normed.Module.Basic
import Mathlib.Tactic.Lemma
import Mathlib.Tactic.Linarith
import Mathlib.Tactic.Positivity
import Mathlib.Tactic.Ring
import Mathlib.Tactic.GCongr

/-
Schemes that differ from Euler's by a small multiple of the square of the step converge, for a Lipschitz right hand
side (Grönwall's argument, step after step).
-/

namespace NB

open Set Finset

section
variable {E : Type} [NormedAddCommGroup E] [NormedSpace ℝ E]

/-- `x` solves `x' = f x` on `[0, T]`. -/
def Solves (f : E → E) (T : ℝ) (x : ℝ → E) : Prop :=
  ∀ t ∈ Icc (0 : ℝ) T, HasDerivWithinAt x (f (x t)) (Icc 0 T) t

/-- How far a solution is from one step of Euler's method. -/
lemma Solves.euler_error {f : E → E} {T L B : ℝ} {x : ℝ → E} (hx : Solves f T x) (hL : 0 ≤ L)
    (hf : ∀ a b, ‖f a - f b‖ ≤ L * ‖a - b‖) (hB : ∀ t ∈ Icc (0 : ℝ) T, ‖f (x t)‖ ≤ B) {t d : ℝ} (ht : 0 ≤ t)
    (hd : 0 ≤ d) (htd : t + d ≤ T) : ‖x (t + d) - x t - d • f (x t)‖ ≤ L * B * d * d := by
  have hsub : Icc t (t + d) ⊆ Icc 0 T := fun s hs => ⟨ht.trans hs.1, hs.2.trans htd⟩
  have hB0 : 0 ≤ B := (norm_nonneg _).trans (hB t (hsub ⟨le_rfl, by linarith⟩))
  have hder : ∀ s ∈ Icc t (t + d), HasDerivWithinAt x (f (x s)) (Icc t (t + d)) s :=
    fun s hs => (hx s (hsub hs)).mono hsub
  have h1 : ∀ s ∈ Icc t (t + d), ‖x s - x t‖ ≤ B * d := by
    intro s hs
    have := (convex_Icc t (t + d)).norm_image_sub_le_of_norm_hasDerivWithin_le hder
      (fun s hs => hB s (hsub hs)) (⟨le_rfl, by linarith⟩ : t ∈ Icc t (t + d)) hs
    refine this.trans (mul_le_mul_of_nonneg_left ?_ hB0)
    rw [Real.norm_eq_abs, abs_of_nonneg (by linarith [hs.1])]
    linarith [hs.2]
  have hder2 : ∀ s ∈ Icc t (t + d), HasDerivWithinAt (fun s => x s - s • f (x t)) (f (x s) - f (x t))
      (Icc t (t + d)) s := by
    intro s hs
    have h2 : HasDerivWithinAt (fun s : ℝ => s • f (x t)) ((1 : ℝ) • f (x t)) (Icc t (t + d)) s :=
      (hasDerivWithinAt_id s _).smul_const _
    rw [one_smul] at h2
    exact (hder s hs).sub h2
  have h3 := (convex_Icc t (t + d)).norm_image_sub_le_of_norm_hasDerivWithin_le hder2
    (C := L * (B * d)) (fun s hs => (hf _ _).trans (mul_le_mul_of_nonneg_left (h1 s hs) hL))
    (⟨le_rfl, by linarith⟩ : t ∈ Icc t (t + d)) (⟨by linarith, le_rfl⟩ : t + d ∈ Icc t (t + d))
  have e : x (t + d) - (t + d) • f (x t) - (x t - t • f (x t)) = x (t + d) - x t - d • f (x t) := by
    rw [add_smul]; abel
  rw [e, Real.norm_eq_abs, show t + d - t = d by ring, abs_of_nonneg hd] at h3
  calc _ ≤ L * (B * d) * d := h3
    _ = L * B * d * d := by ring

/-- **Convergence.**  Steps `d 0, d 1, …` not longer than `δ` lead from `y 0` to `y 1`, `y 2`, …; each step differs
from Euler's by at most `c d δ` times the largest derivative so far, and `g d`.  Then the states stay close to the
solution. -/
lemma converge {f : E → E} {T L B c g δ : ℝ} {x : ℝ → E} (hx : Solves f T x) (hL : 0 ≤ L)
    (hf : ∀ a b, ‖f a - f b‖ ≤ L * ‖a - b‖) (hB : ∀ t ∈ Icc (0 : ℝ) T, ‖f (x t)‖ ≤ B) (hc : 0 ≤ c) (hg : 0 ≤ g) (hδ : 0 ≤ δ)
    {N : ℕ} {d : ℕ → ℝ} (hd : ∀ k, k < N → 0 ≤ d k ∧ d k ≤ δ) (hT : ∑ k ∈ range N, d k ≤ T) {y : ℕ → E}
    (hy : ∀ k, k < N → ∀ M, (∀ j, j ≤ k → ‖f (y j)‖ ≤ M) → ‖y (k + 1) - y k - d k • f (y k)‖ ≤ c * d k * δ * M + g * d k) :
    ∀ k, k ≤ N → ‖y k - x (∑ j ∈ range k, d j)‖ ≤
      (‖y 0 - x 0‖ + ((L + c) * B * δ + g) * ∑ j ∈ range k, d j) * Real.exp (L * (1 + c * δ) * ∑ j ∈ range k, d j) := by
  have hmono : ∀ j k, j ≤ k → k ≤ N → ∑ i ∈ range j, d i ≤ ∑ i ∈ range k, d i := by
    intro j k hjk hkN
    refine sum_le_sum_of_subset_of_nonneg (range_subset_range.2 hjk) fun i hi _ => ?_
    exact (hd i (by have := mem_range.1 hi; omega)).1
  have hpos : ∀ k, k ≤ N → 0 ≤ ∑ i ∈ range k, d i := fun k hk => by simpa using hmono 0 k (Nat.zero_le _) hk
  have hTle : ∀ k, k ≤ N → ∑ i ∈ range k, d i ≤ T := fun k hk => (hmono k N hk le_rfl).trans hT
  set e0 := ‖y 0 - x 0‖ with he0
  have h0 : 0 ≤ e0 := norm_nonneg _
  by_cases hN : N = 0
  · subst hN
    intro k hk
    have : k = 0 := by omega
    subst this
    simp [e0]
  have hB0 : 0 ≤ B := (norm_nonneg _).trans (hB 0 ⟨le_rfl, (hpos N le_rfl).trans hT⟩)
  set D := (L + c) * B * δ + g with hD
  have hD0 : 0 ≤ D := by positivity
  set L' := L * (1 + c * δ) with hL'
  have hL0 : 0 ≤ L' := by positivity
  let ε : ℕ → ℝ := fun k => (e0 + D * ∑ j ∈ range k, d j) * Real.exp (L' * ∑ j ∈ range k, d j)
  have hε0 : ∀ k, k ≤ N → 0 ≤ ε k := fun k hk => by
    have := hpos k hk
    positivity
  have hεm : ∀ j k, j ≤ k → k ≤ N → ε j ≤ ε k := by
    intro j k hjk hk
    have h1 := hmono j k hjk hk
    have h2 := hpos j (hjk.trans hk)
    have h3 := hpos k hk
    simp only [ε]
    gcongr
  show ∀ k, k ≤ N → ‖y k - x (∑ j ∈ range k, d j)‖ ≤ ε k
  intro k
  induction k using Nat.strong_induction_on with
  | _ k ih =>
    intro hk
    match k, ih, hk with
    | 0, _, _ => simp [ε, e0]
    | k + 1, ih, hk =>
      have hkN : k < N := by omega
      obtain ⟨hd0, hdδ⟩ := hd k hkN
      set t := ∑ j ∈ range k, d j with ht
      have ht0 : 0 ≤ t := hpos k (by omega)
      have htd : t + d k ≤ T := by
        have := hTle (k + 1) hk
        rwa [sum_range_succ] at this
      have hM : ∀ j, j ≤ k → ‖f (y j)‖ ≤ B + L * ε k := by
        intro j hj
        have h1 := ih j (by omega) (by omega)
        have h2 := hf (y j) (x (∑ i ∈ range j, d i))
        have h3 := hB (∑ i ∈ range j, d i) ⟨hpos j (by omega), hTle j (by omega)⟩
        have h4 : ‖f (y j)‖ ≤ ‖f (y j) - f (x (∑ i ∈ range j, d i))‖ + ‖f (x (∑ i ∈ range j, d i))‖ := by
          simpa using norm_add_le (f (y j) - f (x (∑ i ∈ range j, d i))) (f (x (∑ i ∈ range j, d i)))
        have h5 : L * ‖y j - x (∑ i ∈ range j, d i)‖ ≤ L * ε k :=
          mul_le_mul_of_nonneg_left (h1.trans (hεm j k hj (by omega))) hL
        linarith
      have g1 := hy k hkN _ hM
      have g2 := hx.euler_error hL hf hB ht0 hd0 htd
      have g3 := ih k (by omega) (by omega)
      rw [← ht] at g3
      have g4 := hf (y k) (x t)
      have e : y (k + 1) - x (t + d k) = (y (k + 1) - y k - d k • f (y k)) - (x (t + d k) - x t - d k • f (x t)) +
          (y k - x t) + d k • (f (y k) - f (x t)) := by
        rw [smul_sub]; abel
      have g5 : ‖y (k + 1) - x (t + d k)‖ ≤ c * d k * δ * (B + L * ε k) + g * d k + L * B * d k * d k + ε k +
          d k * (L * ε k) := by
        rw [e]
        refine (norm_add_le _ _).trans (add_le_add ((norm_add_le _ _).trans (add_le_add ((norm_sub_le _ _).trans
          (add_le_add g1 g2)) g3)) ?_)
        rw [norm_smul, Real.norm_eq_abs, abs_of_nonneg hd0]
        exact mul_le_mul_of_nonneg_left (g4.trans (mul_le_mul_of_nonneg_left g3 hL)) hd0
      have hεk := hε0 k (by omega)
      have g6 : L * B * d k * d k ≤ L * B * d k * δ := mul_le_mul_of_nonneg_left hdδ (by positivity)
      have g7 : ‖y (k + 1) - x (t + d k)‖ ≤ (1 + L' * d k) * ε k + D * d k := by
        refine g5.trans ?_
        have : (1 + L' * d k) * ε k + D * d k = c * d k * δ * (B + L * ε k) + g * d k + L * B * d k * δ + ε k +
          d k * (L * ε k) := by rw [hL', hD]; ring
        rw [this]
        linarith
      rw [sum_range_succ, ← ht]
      refine g7.trans ?_
      show _ ≤ (e0 + D * ∑ j ∈ range (k + 1), d j) * Real.exp (L' * ∑ j ∈ range (k + 1), d j)
      rw [sum_range_succ, ← ht, mul_add L', Real.exp_add]
      have g8 : 1 + L' * d k ≤ Real.exp (L' * d k) := by
        have := Real.add_one_le_exp (L' * d k)
        linarith
      have g9 : 1 ≤ Real.exp (L' * t) * Real.exp (L' * d k) := by
        rw [← Real.exp_add]
        exact Real.one_le_exp (by positivity)
      have g10 : (1 + L' * d k) * ε k ≤ (e0 + D * t) * Real.exp (L' * t) * Real.exp (L' * d k) := by
        calc (1 + L' * d k) * ε k ≤ Real.exp (L' * d k) * ε k := mul_le_mul_of_nonneg_right g8 hεk
          _ = _ := by simp only [ε, ← ht]; ring
      have g11 : D * d k ≤ D * d k * (Real.exp (L' * t) * Real.exp (L' * d k)) :=
        le_mul_of_one_le_right (by positivity) g9
      calc (1 + L' * d k) * ε k + D * d k
          ≤ (e0 + D * t) * Real.exp (L' * t) * Real.exp (L' * d k) +
            D * d k * (Real.exp (L' * t) * Real.exp (L' * d k)) := add_le_add g10 g11
        _ = (e0 + D * (t + d k)) * (Real.exp (L' * t) * Real.exp (L' * d k)) := by ring

end

end NB
