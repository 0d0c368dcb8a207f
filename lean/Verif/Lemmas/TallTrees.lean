import Verif.Lemmas.Drift
import Mathlib.Algebra.Module.LinearMap.Basic
import Mathlib.Analysis.Complex.Basic

/-
Runge-Kutta schemes on the equation of the circle `w' = i w`.
-/

namespace NB

open Finset Complex

/-- `A^m 1`. -/
def tall {K : Type} [CommRing K] (s : ℕ) (a : ℕ → ℕ → K) : ℕ → ℕ → K
  | 0, _ => 1
  | m + 1, i => ∑ j ∈ range s, a i j * tall s a m j

/-- `b · A^m 1`: the left side of the order condition of the tree without branches with `m + 1` nodes. -/
def tallSum {K : Type} [CommRing K] (s : ℕ) (a : ℕ → ℕ → K) (b : ℕ → K) (m : ℕ) : K := ∑ i ∈ range s, b i * tall s a m i

/-- The conditions of these trees hold up to the order `p` and no further. -/
def TallOrder (s : ℕ) (a : ℕ → ℕ → ℝ) (b : ℕ → ℝ) (p : ℕ) : Prop :=
  (∀ m, m < p → tallSum s a b m = 1 / ((m + 1).factorial : ℝ)) ∧ tallSum s a b p ≠ 1 / ((p + 1).factorial : ℝ)

section
variable {V : Type} [AddCommGroup V] [Module ℝ V] (ℓ : V →ₗ[ℝ] ℂ)

/-- The stages as a power series. -/
lemma stage_series {s : ℕ} {a : ℕ → ℕ → ℝ} {A B h : ℝ} (hA : 0 ≤ A) (hh : 0 ≤ h)
    (hrow : ∀ i, i < s → ∑ j ∈ range s, |a i j| ≤ A) {y : V} {k : ℕ → V}
    (hk : ∀ i, i < s → ℓ (k i) = I * (ℓ y + h * ∑ j ∈ range s, a i j * ℓ (k j))) (hB : ∀ i, i < s → ‖ℓ (k i)‖ ≤ B) (m : ℕ) :
    ∀ i, i < s → ‖ℓ (k i) - I * ℓ y * ∑ l ∈ range m, (h * I) ^ l * ((tall s a l i : ℝ) : ℂ)‖ ≤ A ^ m * B * h ^ m := by
  induction m with
  | zero => intro i hi; simpa using hB i hi
  | succ m ih =>
    intro i hi
    have e : ℓ (k i) - I * ℓ y * ∑ l ∈ range (m + 1), (h * I) ^ l * ((tall s a l i : ℝ) : ℂ) =
        h * I * ∑ j ∈ range s, a i j * (ℓ (k j) - I * ℓ y * ∑ l ∈ range m, (h * I) ^ l * ((tall s a l j : ℝ) : ℂ)) := by
      rw [sum_range_succ', hk i hi]
      have h1 : ∑ l ∈ range m, (h * I : ℂ) ^ (l + 1) * ((tall s a (l + 1) i : ℝ) : ℂ) =
          h * I * ∑ j ∈ range s, a i j * ∑ l ∈ range m, (h * I) ^ l * ((tall s a l j : ℝ) : ℂ) := by
        simp only [tall, ofReal_sum, ofReal_mul, mul_sum]
        rw [sum_comm]
        refine sum_congr rfl fun j _ => sum_congr rfl fun l _ => ?_
        rw [pow_succ]
        ring
      rw [h1]
      simp only [tall, ofReal_one, pow_zero, mul_one, mul_sub, sum_sub_distrib]
      have h2 : ∑ j ∈ range s, (a i j : ℂ) * (I * ℓ y * ∑ l ∈ range m, (h * I) ^ l * ((tall s a l j : ℝ) : ℂ)) =
          I * ℓ y * ∑ j ∈ range s, a i j * ∑ l ∈ range m, (h * I) ^ l * ((tall s a l j : ℝ) : ℂ) := by
        rw [mul_sum]
        exact sum_congr rfl fun j _ => by ring
      rw [h2]
      ring
    rw [e, norm_mul, norm_mul, norm_I, mul_one, norm_real, Real.norm_eq_abs, abs_of_nonneg hh]
    have h3 : ‖∑ j ∈ range s, (a i j : ℂ) * (ℓ (k j) - I * ℓ y * ∑ l ∈ range m, (h * I) ^ l * ((tall s a l j : ℝ) : ℂ))‖ ≤
        A * (A ^ m * B * h ^ m) := by
      refine (norm_sum_le _ _).trans ?_
      have hb : 0 ≤ A ^ m * B * h ^ m := by
        have : 0 ≤ B := (norm_nonneg _).trans (hB i hi)
        positivity
      calc _ ≤ ∑ j ∈ range s, |a i j| * (A ^ m * B * h ^ m) := sum_le_sum fun j hj => by
            rw [norm_mul, norm_real, Real.norm_eq_abs]
            exact mul_le_mul_of_nonneg_left (ih j (mem_range.1 hj)) (abs_nonneg _)
        _ = (∑ j ∈ range s, |a i j|) * (A ^ m * B * h ^ m) := by rw [sum_mul]
        _ ≤ _ := mul_le_mul_of_nonneg_right (hrow i hi) hb
    calc h * _ ≤ h * (A * (A ^ m * B * h ^ m)) := mul_le_mul_of_nonneg_left h3 hh
      _ = _ := by rw [pow_succ, pow_succ]; ring

/-- What is left over of a step whose stages are known up to `h^m`. -/
lemma end_series {s : ℕ} {b : ℕ → ℝ} {h R : ℝ} (hh : 0 ≤ h) {y : V} {k : ℕ → V} {g : ℕ → ℂ}
    (hk : ∀ i, i < s → ‖ℓ (k i) - I * ℓ y * g i‖ ≤ R) :
    ‖ℓ (y + h • ∑ i ∈ range s, b i • k i) - ℓ y * (1 + h * I * ∑ i ∈ range s, b i * g i)‖ ≤
      h * ((∑ i ∈ range s, |b i|) * R) := by
  have e : ℓ (y + h • ∑ i ∈ range s, b i • k i) - ℓ y * (1 + h * I * ∑ i ∈ range s, b i * g i) =
      h * ∑ i ∈ range s, b i * (ℓ (k i) - I * ℓ y * g i) := by
    rw [map_add, map_smul, map_sum]
    simp only [map_smul, real_smul, mul_sub, sum_sub_distrib]
    have : ∑ i ∈ range s, (b i : ℂ) * (I * ℓ y * g i) = I * ℓ y * ∑ i ∈ range s, b i * g i := by
      rw [mul_sum]
      exact sum_congr rfl fun j _ => by ring
    rw [this]
    ring
  rw [e, norm_mul, norm_real, Real.norm_eq_abs, abs_of_nonneg hh]
  refine mul_le_mul_of_nonneg_left ((norm_sum_le _ _).trans ?_) hh
  rw [sum_mul]
  refine sum_le_sum fun i hi => ?_
  rw [norm_mul, norm_real, Real.norm_eq_abs]
  exact mul_le_mul_of_nonneg_left (hk i (mem_range.1 hi)) (abs_nonneg _)

/-- The multiple of `h^{p+1}` by which a step of such a scheme is off. -/
noncomputable def tallDefect (s : ℕ) (a : ℕ → ℕ → ℝ) (b : ℕ → ℝ) (p : ℕ) : ℂ :=
  ((tallSum s a b p - 1 / ((p + 1).factorial : ℝ) : ℝ) : ℂ) * I ^ (p + 1)

lemma tallDefect_ne {s : ℕ} {a : ℕ → ℕ → ℝ} {b : ℕ → ℝ} {p : ℕ} (h : TallOrder s a b p) : tallDefect s a b p ≠ 0 := by
  refine mul_ne_zero ?_ (pow_ne_zero _ I_ne_zero)
  rw [Ne, ofReal_eq_zero, sub_eq_zero]
  exact h.2

/-- **A step around the circle.** -/
lemma circle_step {s : ℕ} {a : ℕ → ℕ → ℝ} {b : ℕ → ℝ} {p : ℕ} (ho : TallOrder s a b p) {B W : ℝ} (hB0 : 0 ≤ B) :
    ∃ C, 0 ≤ C ∧ ∀ (h : ℝ) (y : V) (k : ℕ → V), 0 ≤ h → h ≤ 1 →
      (∀ i, i < s → ℓ (k i) = I * (ℓ y + h * ∑ j ∈ range s, a i j * ℓ (k j))) → (∀ i, i < s → ‖ℓ (k i)‖ ≤ B) → ‖ℓ y‖ ≤ W →
      ‖ℓ (y + h • ∑ i ∈ range s, b i • k i) - (turn h + tallDefect s a b p * h ^ (p + 1)) * ℓ y‖ ≤ C * h ^ (p + 2) := by
  obtain ⟨A, hAd⟩ : ∃ A, A = ∑ i ∈ range s, ∑ j ∈ range s, |a i j| := ⟨_, rfl⟩
  have hA0 : 0 ≤ A := hAd ▸ sum_nonneg fun i _ => sum_nonneg fun j _ => abs_nonneg _
  have hrow : ∀ i, i < s → ∑ j ∈ range s, |a i j| ≤ A := fun i hi => hAd ▸
    single_le_sum (f := fun i => ∑ j ∈ range s, |a i j|) (fun i _ => sum_nonneg fun j _ => abs_nonneg _) (mem_range.2 hi)
  obtain ⟨Ce, hCe, hexp⟩ := turn_series p
  set β := ∑ i ∈ range s, |b i| with hβ
  have hβ0 : 0 ≤ β := sum_nonneg fun i _ => abs_nonneg _
  refine ⟨β * (A ^ (p + 1) * B) + Ce * |W|, by positivity, fun h y k h0 h1 hk hB hW => ?_⟩
  have hst := stage_series ℓ hA0 h0 hrow hk hB (p + 1)
  have hend := end_series ℓ (b := b) h0 (y := y) (k := k)
    (g := fun i => ∑ l ∈ range (p + 1), (h * I) ^ l * ((tall s a l i : ℝ) : ℂ)) hst
  have e1 : (1 : ℂ) + h * I * ∑ i ∈ range s, (b i : ℂ) * ∑ l ∈ range (p + 1), (h * I) ^ l * ((tall s a l i : ℝ) : ℂ) =
      ∑ j ∈ range (p + 2), (h * I) ^ j / (j.factorial : ℂ) + tallDefect s a b p * h ^ (p + 1) := by
    have h2 : ∑ i ∈ range s, (b i : ℂ) * ∑ l ∈ range (p + 1), (h * I) ^ l * ((tall s a l i : ℝ) : ℂ) =
        ∑ l ∈ range (p + 1), (h * I) ^ l * ((tallSum s a b l : ℝ) : ℂ) := by
      simp only [mul_sum]
      rw [sum_comm]
      refine sum_congr rfl fun l _ => ?_
      rw [tallSum, ofReal_sum, mul_sum]
      refine sum_congr rfl fun i _ => ?_
      push_cast
      ring
    have h3 : ∑ l ∈ range p, (h * I : ℂ) ^ l * ((tallSum s a b l : ℝ) : ℂ) =
        ∑ l ∈ range p, (h * I : ℂ) ^ l / ((l + 1).factorial : ℂ) := sum_congr rfl fun l hl => by
      rw [ho.1 l (mem_range.1 hl)]
      push_cast
      ring
    rw [h2, sum_range_succ, h3, show p + 2 = (p + 1) + 1 from rfl, sum_range_succ' _ (p + 1), sum_range_succ _ p, tallDefect]
    have h4 : ∑ k ∈ range p, (h * I : ℂ) ^ (k + 1) / ((k + 1).factorial : ℂ) =
        h * I * ∑ l ∈ range p, (h * I : ℂ) ^ l / ((l + 1).factorial : ℂ) := by
      rw [mul_sum]
      exact sum_congr rfl fun l _ => by rw [pow_succ]; ring
    rw [h4]
    push_cast
    simp only [mul_pow, pow_zero, Nat.factorial_zero, Nat.cast_one, div_one, pow_succ]
    ring
  rw [e1] at hend
  have e2 : ℓ (y + h • ∑ i ∈ range s, b i • k i) - (turn h + tallDefect s a b p * h ^ (p + 1)) * ℓ y =
      (ℓ (y + h • ∑ i ∈ range s, b i • k i) - ℓ y *
        (∑ j ∈ range (p + 2), (h * I) ^ j / (j.factorial : ℂ) + tallDefect s a b p * h ^ (p + 1))) -
      (turn h - ∑ j ∈ range (p + 2), (h * I) ^ j / (j.factorial : ℂ)) * ℓ y := by ring
  rw [e2]
  refine (norm_sub_le _ _).trans ?_
  rw [norm_mul]
  have h5 := mul_le_mul (hexp h h0 h1) (hW.trans (le_abs_self W)) (norm_nonneg _) (mul_nonneg hCe (pow_nonneg h0 _))
  have e3 : h * (β * (A ^ (p + 1) * B * h ^ (p + 1))) = β * (A ^ (p + 1) * B) * h ^ (p + 2) := by
    rw [pow_succ h (p + 1)]; ring
  rw [e3] at hend
  linarith

end

end NB
