import Mathlib.Analysis.SpecialFunctions.Exp
import Mathlib.Analysis.Complex.Exponential
import Mathlib.Algebra.BigOperators.Module
import Mathlib.Tactic.Linarith
import Mathlib.Tactic.Positivity
import Mathlib.Tactic.Ring
import Mathlib.Tactic.Lemma

/-
How far a walk around the circle, each step of which is a little off, comes from the point it should reach.
-/

namespace NB

open Finset Complex

/-- One step around the circle. -/
noncomputable def turn (h : ℝ) : ℂ := Complex.exp (h * I)

lemma norm_turn (h : ℝ) : ‖turn h‖ = 1 := Complex.norm_exp_ofReal_mul_I h

lemma turn_ne (h : ℝ) : turn h ≠ 0 := Complex.exp_ne_zero _

lemma turn_pow (h : ℝ) (N : ℕ) : turn h ^ N = turn (N * h) := by
  unfold turn
  rw [← Complex.exp_nat_mul]
  congr 1
  push_cast
  ring

/-- The beginning of the exponential series. -/
lemma turn_series (p : ℕ) : ∃ C : ℝ, 0 ≤ C ∧ ∀ h : ℝ, 0 ≤ h → h ≤ 1 →
    ‖turn h - ∑ j ∈ range (p + 2), (h * I) ^ j / (j.factorial : ℂ)‖ ≤ C * h ^ (p + 2) := by
  refine ⟨(p + 2).succ * ((p + 2).factorial * (p + 2 : ℕ) : ℝ)⁻¹, by positivity, fun h h0 h1 => ?_⟩
  have e : ‖(h * I : ℂ)‖ = h := by rw [norm_mul, norm_I, mul_one, norm_real, Real.norm_eq_abs, abs_of_nonneg h0]
  have := Complex.exp_bound (x := h * I) (by rw [e]; exact h1) (n := p + 2) (by omega)
  rw [e, mul_comm (h ^ (p + 2))] at this
  exact_mod_cast this

/-- **The distance after `N` steps** each of which adds `κ h^{p+1}` of what there is, up to `C h^{p+2}` (the first one up to
`C h^{p+1}`), is `N h^{p+1} |κ|` times the radius, up to the next order. -/
lemma drift {p : ℕ} (hp : 1 ≤ p) {T B C : ℝ} (hT : 0 ≤ T) (hC : 0 ≤ C) (hB : 0 ≤ B) (κ : ℂ) :
    ∃ D : ℝ, 0 ≤ D ∧ ∀ (N : ℕ) (h : ℝ) (w : ℕ → ℂ), 0 ≤ h → h ≤ 1 → N * h ≤ T → (∀ k, k ≤ N → ‖w k‖ ≤ B) →
      (0 < N → ‖w 1 - turn h * w 0‖ ≤ C * h ^ (p + 1)) →
      (∀ k, 0 < k → k < N → ‖w (k + 1) - (turn h + κ * h ^ (p + 1)) * w k‖ ≤ C * h ^ (p + 2)) →
      N * h * ‖κ‖ * ‖w 0‖ * h ^ p - D * h ^ (p + 1) ≤ ‖w N - turn h ^ N * w 0‖ := by
  set G := ‖κ‖ * B + C with hG
  have hG0 : 0 ≤ G := by positivity
  set C₁ := C + ‖κ‖ * (T * G) with hC₁
  have hC₁0 : 0 ≤ C₁ := by positivity
  refine ⟨T * C₁ + G + ‖κ‖ * B, by positivity, fun N h w h0 h1 hN hw hfirst hnext => ?_⟩
  set e := turn h with he
  have hen : ‖e‖ = 1 := norm_turn h
  have he0 : e ≠ 0 := turn_ne h
  obtain ⟨u, hu⟩ : ∃ u : ℕ → ℂ, u = fun k => (e ^ k)⁻¹ * w k := ⟨_, rfl⟩
  have hinv : ∀ k, ‖(e ^ k)⁻¹‖ = 1 := fun k => by rw [norm_inv, norm_pow, hen, one_pow, inv_one]
  have hun : ∀ k, ‖u k‖ = ‖w k‖ := fun k => by rw [hu, norm_mul, hinv, one_mul]
  have hpow : ∀ m, 0 ≤ h ^ m := fun m => pow_nonneg h0 m
  have hle : h ^ (p + 2) ≤ h ^ (p + 1) := pow_le_pow_of_le_one h0 h1 (by omega)
  have hle2 : h ^ (p + 1) * h ^ p ≤ h ^ (p + 2) := by
    rw [← pow_add]
    exact pow_le_pow_of_le_one h0 h1 (by omega)
  have e1 : ∀ k, u (k + 1) - u k = (e ^ (k + 1))⁻¹ * (w (k + 1) - e * w k) := fun k => by
    rw [hu]
    simp only [pow_succ]
    field_simp
  have hnκ : ∀ z : ℂ, ‖κ * (h : ℂ) ^ (p + 1) * z‖ = ‖κ‖ * h ^ (p + 1) * ‖z‖ := fun z => by
    rw [norm_mul, norm_mul, norm_pow, norm_real, Real.norm_eq_abs, abs_of_nonneg h0]
  -- the increments
  have hinc : ∀ k, k < N → ‖u (k + 1) - u k‖ ≤ G * h ^ (p + 1) := by
    intro k hk
    rw [e1, norm_mul, hinv, one_mul]
    rcases Nat.eq_zero_or_pos k with rfl | hk0
    · refine (hfirst hk).trans (mul_le_mul_of_nonneg_right ?_ (hpow _))
      rw [hG]
      have := mul_nonneg (norm_nonneg κ) hB
      linarith
    · have h2 := hnext k hk0 hk
      have e2 : w (k + 1) - e * w k = (w (k + 1) - (e + κ * h ^ (p + 1)) * w k) + κ * h ^ (p + 1) * w k := by ring
      rw [e2]
      refine (norm_add_le _ _).trans ?_
      rw [hnκ]
      have h3 := mul_le_mul_of_nonneg_left (hw k hk.le) (mul_nonneg (norm_nonneg κ) (hpow (p + 1)))
      have h4 := mul_le_mul_of_nonneg_left hle hC
      rw [hG]
      linarith
  have hdist : ∀ k, k ≤ N → ‖u k - u 0‖ ≤ T * G * h ^ p := by
    intro k hk
    have h2 : ‖u k - u 0‖ ≤ k * (G * h ^ (p + 1)) := by
      clear hw
      induction k with
      | zero => simp
      | succ k ih =>
        have := ih (by omega)
        have h3 := hinc k (by omega)
        have e3 : u (k + 1) - u 0 = (u (k + 1) - u k) + (u k - u 0) := by ring
        rw [e3]
        refine (norm_add_le _ _).trans ?_
        push_cast
        linarith
    refine h2.trans ?_
    have h3 : (k : ℝ) * h ≤ T := (mul_le_mul_of_nonneg_right (by exact_mod_cast hk) h0).trans hN
    calc (k : ℝ) * (G * h ^ (p + 1)) = k * h * (G * h ^ p) := by rw [pow_succ]; ring
      _ ≤ T * (G * h ^ p) := mul_le_mul_of_nonneg_right h3 (mul_nonneg hG0 (hpow p))
      _ = _ := by ring
  obtain ⟨v, hv⟩ : ∃ v : ℂ, v = e⁻¹ * (κ * h ^ (p + 1)) * u 0 := ⟨_, rfl⟩
  have hvn : ‖v‖ = ‖κ‖ * h ^ (p + 1) * ‖w 0‖ := by
    rw [hv, mul_assoc, norm_mul, hnκ, hun]
    rw [norm_inv, hen, inv_one, one_mul]
  have hstep : ∀ k, 0 < k → k < N → ‖(u (k + 1) - u k) - v‖ ≤ C₁ * h ^ (p + 2) := by
    intro k hk0 hk
    have h2 := hnext k hk0 hk
    have e2 : (u (k + 1) - u k) - v = (e ^ (k + 1))⁻¹ * (w (k + 1) - (e + κ * h ^ (p + 1)) * w k) +
        e⁻¹ * (κ * h ^ (p + 1) * (u k - u 0)) := by
      rw [e1, hv]
      have : u k = (e ^ k)⁻¹ * w k := by rw [hu]
      rw [this, pow_succ]
      field_simp
      ring
    rw [e2]
    refine (norm_add_le _ _).trans ?_
    rw [norm_mul, hinv, one_mul, norm_mul, norm_inv, hen, inv_one, one_mul, hnκ]
    have h3 := mul_le_mul_of_nonneg_left (hdist k hk.le) (mul_nonneg (norm_nonneg κ) (hpow (p + 1)))
    have h4 : ‖κ‖ * h ^ (p + 1) * (T * G * h ^ p) ≤ ‖κ‖ * (T * G) * h ^ (p + 2) := by
      calc _ = ‖κ‖ * (T * G) * (h ^ (p + 1) * h ^ p) := by ring
        _ ≤ _ := mul_le_mul_of_nonneg_left hle2 (by positivity)
    rw [hC₁]
    linarith
  have hfirst' : 0 < N → ‖(u 1 - u 0) - v‖ ≤ (G + ‖κ‖ * B) * h ^ (p + 1) := by
    intro hN0
    refine (norm_sub_le _ _).trans ?_
    rw [hvn]
    have h2 := hinc 0 hN0
    have h3 := mul_le_mul_of_nonneg_left (hw 0 (by omega)) (mul_nonneg (norm_nonneg κ) (hpow (p + 1)))
    rw [zero_add] at h2
    linarith
  -- the sum
  have hsum : ∀ k, k ≤ N → ‖u k - u 0 - k * v‖ ≤ k * (C₁ * h ^ (p + 2)) + (G + ‖κ‖ * B) * h ^ (p + 1) := by
    intro k hk
    have h5 : 0 ≤ (G + ‖κ‖ * B) * h ^ (p + 1) := mul_nonneg (by positivity) (hpow _)
    induction k with
    | zero => simpa using h5
    | succ k ih =>
      have h2 := ih (by omega)
      have e3 : u (k + 1) - u 0 - ((k + 1 : ℕ) : ℂ) * v = ((u (k + 1) - u k) - v) + (u k - u 0 - k * v) := by
        push_cast; ring
      rw [e3]
      refine (norm_add_le _ _).trans ?_
      rcases Nat.eq_zero_or_pos k with rfl | hk0
      · have h6 := hfirst' (by omega)
        have h7 : 0 ≤ C₁ * h ^ (p + 2) := mul_nonneg hC₁0 (hpow _)
        simp only [Nat.cast_zero, zero_mul, sub_self, norm_zero, zero_add, Nat.cast_one, one_mul, add_zero] at *
        linarith
      · have h6 := hstep k hk0 (by omega)
        push_cast
        linarith
  have hend := hsum N le_rfl
  have e4 : w N - e ^ N * w 0 = e ^ N * (u N - u 0) := by
    have : u N = (e ^ N)⁻¹ * w N := by rw [hu]
    have h0' : u 0 = w 0 := by rw [hu]; simp
    rw [this, h0']
    field_simp
  rw [e4, norm_mul, norm_pow, hen, one_pow, one_mul]
  have h6 : ‖(N : ℂ) * v‖ ≤ ‖u N - u 0‖ + ‖u N - u 0 - N * v‖ := by
    have : (N : ℂ) * v = (u N - u 0) - (u N - u 0 - N * v) := by ring
    rw [this]
    simpa using norm_sub_le (u N - u 0) (u N - u 0 - N * v)
  have h7 : ‖(N : ℂ) * v‖ = N * h * ‖κ‖ * ‖w 0‖ * h ^ p := by
    rw [norm_mul, hvn, norm_natCast, pow_succ]; ring
  rw [h7] at h6
  have h8 : N * (C₁ * h ^ (p + 2)) ≤ T * C₁ * h ^ (p + 1) := by
    calc N * (C₁ * h ^ (p + 2)) = N * h * (C₁ * h ^ (p + 1)) := by rw [pow_succ h (p + 1)]; ring
      _ ≤ T * (C₁ * h ^ (p + 1)) := mul_le_mul_of_nonneg_right hN (mul_nonneg hC₁0 (hpow _))
      _ = _ := by ring
  linarith

end NB
