import Verif.Lemmas.ButcherExact
import Verif.Lemmas.ConvergeSteps

/-
Steps that follow a solution up to an order: walks of such steps, explicit Runge-Kutta schemes, Stetter's scheme.
-/

namespace NB

open Finset
open Spec (RTree)

section
variable {V E : Type} [AddCommGroup V] [Module ℝ V] [NormedAddCommGroup E] [NormedSpace ℝ E]

/-- In a step of `P` not longer than `δ` the distance from the solution `x` changes by at most `C (e + g)` times the
step, when it is `e` before. -/
def Follows (π : V →ₗ[ℝ] E) (x : ℝ → E) (T C g δ : ℝ) (P : ℝ → V → V → Prop) : Prop :=
  ∀ t h y y', 0 ≤ t → 0 < h → h ≤ δ → t + h ≤ T → P h y y' →
    ‖(π y' - x (t + h)) - (π y - x t)‖ ≤ C * (‖π y - x t‖ + g) * h

variable {π : V →ₗ[ℝ] E} {f : E → E} {L : ℝ} {x : ℝ → E} {T : ℝ}

lemma Follows.next {C g δ : ℝ} {P : ℝ → V → V → Prop} (hP : Follows π x T C g δ P) {t h : ℝ} {y y' : V} (ht : 0 ≤ t)
    (hh : 0 < h) (hδ : h ≤ δ) (hT : t + h ≤ T) (h' : P h y y') :
    ‖π y' - x (t + h)‖ + g ≤ (1 + C * h) * (‖π y - x t‖ + g) := by
  have h1 := hP t h y y' ht hh hδ hT h'
  have h2 : ‖π y' - x (t + h)‖ ≤ ‖(π y' - x (t + h)) - (π y - x t)‖ + ‖π y - x t‖ := by
    simpa using norm_add_le ((π y' - x (t + h)) - (π y - x t)) (π y - x t)
  linarith

/-- Walks of such steps. -/
lemma walk_follows {C g δ : ℝ} (hC : 0 ≤ C) (hg : 0 ≤ g) {P : ℝ → V → V → Prop} (hP : Follows π x T C g δ P)
    (a : List ℝ) : (∀ h ∈ a, 0 < h ∧ h ≤ δ) → ∀ t y y', 0 ≤ t → t + a.sum ≤ T → Walk P a y y' →
      ‖π y' - x (t + a.sum)‖ + g ≤ (‖π y - x t‖ + g) * Real.exp (C * a.sum) ∧
      ‖(π y' - x (t + a.sum)) - (π y - x t)‖ ≤ C * ((‖π y - x t‖ + g) * Real.exp (C * a.sum)) * a.sum := by
  induction a with
  | nil =>
    intro _ t y y' _ _ h
    obtain rfl : y = y' := h
    simp
  | cons h a ih =>
    intro ha t y y' ht hT ⟨z, h1, h2⟩
    obtain ⟨h0, hδ⟩ := ha h (by simp)
    have hs0 : 0 ≤ a.sum := List.sum_nonneg fun x hx => (ha x (by simp [hx])).1.le
    rw [List.sum_cons] at hT ⊢
    obtain ⟨g1, g2⟩ := ih (fun x hx => ha x (by simp [hx])) (t + h) z y' (by linarith) (by linarith) h2
    have k1 := hP.next ht h0 hδ (by linarith) h1
    have k2 := hP t h y z ht h0 hδ (by linarith) h1
    set E0 := ‖π y - x t‖ + g with hE
    have hE0 : 0 ≤ E0 := by positivity
    have e1 : 1 + C * h ≤ Real.exp (C * h) := by linarith [Real.add_one_le_exp (C * h)]
    have e2 : Real.exp (C * (h + a.sum)) = Real.exp (C * h) * Real.exp (C * a.sum) := by rw [mul_add, Real.exp_add]
    have e3 : t + (h + a.sum) = t + h + a.sum := by ring
    have k3 : ‖π z - x (t + h)‖ + g ≤ Real.exp (C * h) * E0 := k1.trans (mul_le_mul_of_nonneg_right e1 hE0)
    have k4 : (‖π z - x (t + h)‖ + g) * Real.exp (C * a.sum) ≤ E0 * Real.exp (C * (h + a.sum)) := by
      rw [e2]
      calc _ ≤ Real.exp (C * h) * E0 * Real.exp (C * a.sum) := mul_le_mul_of_nonneg_right k3 (Real.exp_nonneg _)
        _ = _ := by ring
    rw [e3]
    refine ⟨g1.trans k4, ?_⟩
    have e4 : (π y' - x (t + h + a.sum)) - (π y - x t) =
        ((π y' - x (t + h + a.sum)) - (π z - x (t + h))) + ((π z - x (t + h)) - (π y - x t)) := by abel
    rw [e4]
    have k5 : C * E0 * h ≤ C * (E0 * Real.exp (C * (h + a.sum))) * h := by
      have : E0 ≤ E0 * Real.exp (C * (h + a.sum)) := le_mul_of_one_le_right hE0 (Real.one_le_exp (by positivity))
      gcongr
    have k6 : C * ((‖π z - x (t + h)‖ + g) * Real.exp (C * a.sum)) * a.sum ≤
        C * (E0 * Real.exp (C * (h + a.sum))) * a.sum := by gcongr
    calc _ ≤ C * (E0 * Real.exp (C * (h + a.sum))) * a.sum + C * (E0 * Real.exp (C * (h + a.sum))) * h :=
          (norm_add_le _ _).trans (add_le_add (g2.trans k6) (k2.trans k5))
      _ = _ := by ring

/-! ### Explicit Runge-Kutta schemes -/

/-- No stage uses a later one. -/
def Lower (s : ℕ) (a : ℕ → ℕ → ℝ) : Prop := ∀ i, i < s → ∀ j, i ≤ j → j < s → a i j = 0

lemma Lower.sum {s : ℕ} {a : ℕ → ℕ → ℝ} (h : Lower s a) {i : ℕ} (hi : i < s) (k : ℕ → E) :
    ∑ j ∈ range s, a i j • k j = ∑ j ∈ range i, a i j • k j := by
  refine (sum_subset (range_subset_range.2 hi.le) fun j hj hj' => ?_).symm
  rw [h i hi j (by simpa using hj') (mem_range.1 hj), zero_smul]

/-- What the errors of the stages make of the end of the step. -/
lemma end_error {s : ℕ} {a : ℕ → ℕ → ℝ} {b : ℕ → ℝ} {p : ℕ} {η C δ : ℝ} {K : ℕ → ℝ → ℝ → E}
    (hA : Accurate f T x s a b p η K C δ) {t h R : ℝ} (ht : 0 ≤ t) (hh : 0 < h) (hδ : h ≤ δ) (hT : t + h ≤ T) (y : V)
    (k : ℕ → V) (hk : ∀ i, i < s → ‖π (k i) - K i t h‖ ≤ R) :
    ‖(π (y + h • ∑ i ∈ range s, b i • k i) - x (t + h)) - (π y - x t)‖ ≤
      ((∑ i ∈ range s, |b i|) * R + C * (h ^ p + η)) * h := by
  have e : (π (y + h • ∑ i ∈ range s, b i • k i) - x (t + h)) - (π y - x t) =
      h • ∑ i ∈ range s, b i • (π (k i) - K i t h) - (x (t + h) - (x t + h • ∑ i ∈ range s, b i • K i t h)) := by
    rw [map_add, map_smul, map_sum]
    simp only [map_smul, smul_sub, sum_sub_distrib]
    abel
  rw [e]
  have h1 := hA.advance t h ht hh.le hδ hT
  have h2 : ‖h • ∑ i ∈ range s, b i • (π (k i) - K i t h)‖ ≤ h * ((∑ i ∈ range s, |b i|) * R) := by
    rw [norm_smul, Real.norm_eq_abs, abs_of_pos hh]
    refine mul_le_mul_of_nonneg_left ((norm_sum_le _ _).trans ?_) hh.le
    rw [sum_mul]
    refine sum_le_sum fun i hi => ?_
    rw [norm_smul, Real.norm_eq_abs]
    exact mul_le_mul_of_nonneg_left (hk i (mem_range.1 hi)) (abs_nonneg _)
  refine (norm_sub_le _ _).trans ((add_le_add h2 h1).trans (le_of_eq (by ring)))

/-- **An explicit scheme follows the solutions up to its order.** -/
lemma erk_follows (hL : 0 ≤ L) (hf : ∀ a b, ‖f a - f b‖ ≤ L * ‖a - b‖) {s : ℕ} {a : ℕ → ℕ → ℝ} {b : ℕ → ℝ} (c : ℕ → ℝ)
    {p : ℕ} {η C δ₀ : ℝ} {K : ℕ → ℝ → ℝ → E} (hη : 0 ≤ η) (hA : Accurate f T x s a b p η K C δ₀) (hlow : Lower s a) :
    ∃ C', 0 ≤ C' ∧ ∀ (F : ℕ → ℝ → V → V) (θ : ℝ), 0 ≤ θ → Within π f θ F → ∀ δ, δ ≤ δ₀ →
      Follows π x T C' (δ ^ p + η + θ) δ (fun d y y' => ∃ n₀ t, Spec.ERKStep F n₀ s a b c t d y y') := by
  set A := ∑ i ∈ range s, ∑ j ∈ range i, |a i j| with hAd
  have hA0 : 0 ≤ A := sum_nonneg fun i _ => sum_nonneg fun j _ => abs_nonneg _
  have hrow : ∀ i, i < s → ∑ j ∈ range i, |a i j| ≤ A := fun i hi =>
    single_le_sum (f := fun i => ∑ j ∈ range i, |a i j|) (fun i _ => sum_nonneg fun j _ => abs_nonneg _) (mem_range.2 hi)
  have hδ₀ := hA.pos
  have hC := hA.nonneg
  set q := 1 + L * δ₀ * A with hq
  have hq1 : 1 ≤ q := by
    have : 0 ≤ L * δ₀ * A := by positivity
    linarith
  have hq0 : 0 ≤ q := by linarith
  set β := ∑ i ∈ range s, |b i| with hβ
  have hβ0 : 0 ≤ β := sum_nonneg fun i _ => abs_nonneg _
  refine ⟨β * q ^ s * (L + C + 1) + C, by positivity, ?_⟩
  rintro F θ hθ hF δ hδ t h y y' ht hh hhδ hT ⟨n₀, t', k, hk, rfl⟩
  have hhδ₀ := hhδ.trans hδ
  set e := ‖π y - x t‖ with he
  have he0 : 0 ≤ e := norm_nonneg _
  set R := L * e + C * h ^ p + θ with hR
  have hR0 : 0 ≤ R := by positivity
  have bound : ∀ i, i < s → ‖π (k i) - K i t h‖ ≤ q ^ (i + 1) * R := by
    intro i
    induction i using Nat.strong_induction_on with
    | _ i ih =>
      intro hi
      have h1 := hA.stage t h ht hh.le hhδ₀ (by linarith) i hi
      rw [hlow.sum hi] at h1
      generalize hz : y + h • ∑ j ∈ range i, a i j • k j = z
      have h2 : ‖π (k i) - f (π z)‖ ≤ θ := by rw [hk i hi, hz]; exact hF _ _ _
      have h3 : ‖f (π z) - f (x t + h • ∑ j ∈ range i, a i j • K j t h)‖ ≤ L * (e + δ₀ * (A * (q ^ i * R))) := by
        refine (hf _ _).trans (mul_le_mul_of_nonneg_left ?_ hL)
        have e1 : π z - (x t + h • ∑ j ∈ range i, a i j • K j t h) =
            (π y - x t) + h • ∑ j ∈ range i, a i j • (π (k j) - K j t h) := by
          rw [← hz, map_add, map_smul, map_sum]
          simp only [map_smul, smul_sub, sum_sub_distrib]
          abel
        rw [e1]
        refine (norm_add_le _ _).trans (add_le_add le_rfl ?_)
        rw [norm_smul, Real.norm_eq_abs, abs_of_pos hh]
        refine mul_le_mul hhδ₀ ((norm_sum_le _ _).trans ?_) (norm_nonneg _) hδ₀.le
        calc ∑ j ∈ range i, ‖a i j • (π (k j) - K j t h)‖ ≤ ∑ j ∈ range i, |a i j| * (q ^ i * R) :=
              sum_le_sum fun j hj => by
                rw [norm_smul, Real.norm_eq_abs]
                refine mul_le_mul_of_nonneg_left ?_ (abs_nonneg _)
                have hj' := mem_range.1 hj
                exact (ih j hj' (by omega)).trans (mul_le_mul_of_nonneg_right (pow_le_pow_right₀ hq1 hj') hR0)
          _ = (∑ j ∈ range i, |a i j|) * (q ^ i * R) := by rw [sum_mul]
          _ ≤ A * (q ^ i * R) := mul_le_mul_of_nonneg_right (hrow i hi) (by positivity)
      have e2 : π (k i) - K i t h = (π (k i) - f (π z)) + ((f (π z) - f (x t + h • ∑ j ∈ range i, a i j • K j t h)) -
          (K i t h - f (x t + h • ∑ j ∈ range i, a i j • K j t h))) := by abel
      rw [e2]
      have h4 : R ≤ q ^ i * R := le_mul_of_one_le_left hR0 (one_le_pow₀ hq1)
      calc _ ≤ θ + (L * (e + δ₀ * (A * (q ^ i * R))) + C * h ^ p) :=
            (norm_add_le _ _).trans (add_le_add h2 ((norm_sub_le _ _).trans (add_le_add h3 h1)))
        _ = R + L * δ₀ * A * (q ^ i * R) := by rw [hR]; ring
        _ ≤ q ^ i * R + L * δ₀ * A * (q ^ i * R) := by linarith
        _ = q ^ (i + 1) * R := by rw [pow_succ, hq]; ring
  have h5 := end_error hA ht hh hhδ₀ hT y k (R := q ^ s * R) fun i hi =>
    (bound i hi).trans (mul_le_mul_of_nonneg_right (pow_le_pow_right₀ hq1 hi) hR0)
  refine h5.trans (mul_le_mul_of_nonneg_right ?_ hh.le)
  have h6 : h ^ p ≤ δ ^ p := pow_le_pow_left₀ hh.le hhδ p
  have hp0 : 0 ≤ h ^ p := by positivity
  have hd0 : 0 ≤ δ ^ p := hp0.trans h6
  have h7 : R ≤ (L + C + 1) * (e + (δ ^ p + η + θ)) := by
    rw [hR]
    have : 0 ≤ L * (δ ^ p + η + θ) + C * (e + η + θ) + (e + δ ^ p + η) + C * (δ ^ p - h ^ p) := by
      have : 0 ≤ δ ^ p - h ^ p := by linarith
      positivity
    nlinarith
  have h8 : C * (h ^ p + η) ≤ C * (e + (δ ^ p + η + θ)) := mul_le_mul_of_nonneg_left (by linarith) hC
  calc β * (q ^ s * R) + C * (h ^ p + η) ≤ β * (q ^ s * ((L + C + 1) * (e + (δ ^ p + η + θ)))) +
        C * (e + (δ ^ p + η + θ)) := by gcongr
    _ = _ := by ring

end

end NB
