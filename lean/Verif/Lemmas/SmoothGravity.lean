import Verif.Lemmas.Butcher
import Verif.Lemmas.Motion
import Mathlib.Analysis.Calculus.TaylorIntegral
import Mathlib.Analysis.SpecialFunctions.Sqrt
import Mathlib.Topology.MetricSpace.Thickening

/-
Softened gravity is smooth where no two bodies are exactly at the distance of the cutoff.
-/

namespace NB

open Finset

section
variable {E : Type} [NormedAddCommGroup E] [NormedSpace ℝ E] [ProperSpace E]

/-- The Taylor coefficients of a function. -/
noncomputable def taylorCoeffs (f : E → E) : Coeffs E := fun m y => (m.factorial : ℝ)⁻¹ • iteratedFDeriv ℝ m f y

/-- A function smooth around a compact set has uniform Taylor expansions there. -/
lemma jet_of_smooth {f : E → E} {A U : Set E} (hA : IsCompact A) (hU : IsOpen U) (hAU : A ⊆ U)
    (hf : ∀ y ∈ U, ∀ n : ℕ, ContDiffAt ℝ n f y) : Jet f A (taylorCoeffs f) := by
  obtain ⟨ρ, hρ, hsub⟩ := hA.exists_cthickening_subset_open hU hAU
  have hcomp : IsCompact (Metric.cthickening ρ A) := hA.cthickening
  have hbd : ∀ m : ℕ, ∃ B, ∀ y ∈ Metric.cthickening ρ A, ‖iteratedFDeriv ℝ m f y‖ ≤ B := fun m =>
    hcomp.exists_bound_of_continuousOn fun y hy =>
      ((hf y (hsub hy) m).continuousAt_iteratedFDeriv le_rfl).continuousWithinAt
  have hself : A ⊆ Metric.cthickening ρ A := Metric.self_subset_cthickening A
  constructor
  · intro m
    obtain ⟨B, hB⟩ := hbd m
    refine ⟨|(m.factorial : ℝ)⁻¹| * B, fun y hy => ?_⟩
    unfold taylorCoeffs
    rw [norm_smul, Real.norm_eq_abs]
    exact mul_le_mul_of_nonneg_left (hB y (hself hy)) (abs_nonneg _)
  · intro p
    obtain ⟨B, hB⟩ := hbd (p + 1)
    refine ⟨(p.factorial : ℝ)⁻¹ * B, ρ, hρ, fun y hy v hv => ?_⟩
    have hin : ∀ t ∈ Set.Icc (0 : ℝ) 1, y + t • v ∈ Metric.cthickening ρ A := by
      intro t ht
      refine Metric.mem_cthickening_of_dist_le _ y ρ A hy ?_
      rw [dist_eq_norm, add_sub_cancel_left, norm_smul, Real.norm_eq_abs, abs_of_nonneg ht.1]
      calc t * ‖v‖ ≤ 1 * ‖v‖ := mul_le_mul_of_nonneg_right ht.2 (norm_nonneg _)
        _ ≤ ρ := by rw [one_mul]; exact hv
    have key := map_add_eq_sum_add_integral_iteratedFDeriv (n := p) (f := f) (x := y) (y := v)
      fun t ht => by exact_mod_cast hf _ (hsub (hin t ht)) (p + 1)
    have e : f (y + v) - ∑ m ∈ range (p + 1), taylorCoeffs f m y (fun _ => v) =
        (p.factorial : ℝ)⁻¹ • ∫ t in (0 : ℝ)..1, (1 - t) ^ p • iteratedFDeriv ℝ (p + 1) f (y + t • v) (fun _ => v) := by
      rw [key]
      exact add_sub_cancel_left _ _
    rw [e, norm_smul, Real.norm_eq_abs, abs_of_nonneg (by positivity), mul_assoc]
    refine mul_le_mul_of_nonneg_left ?_ (by positivity)
    have hint : ‖∫ t in (0 : ℝ)..1, (1 - t) ^ p • iteratedFDeriv ℝ (p + 1) f (y + t • v) (fun _ => v)‖ ≤
        B * ‖v‖ ^ (p + 1) * |(1 : ℝ) - 0| := by
      refine intervalIntegral.norm_integral_le_of_norm_le_const fun t ht => ?_
      rw [Set.uIoc_of_le zero_le_one] at ht
      have ht' : t ∈ Set.Icc (0 : ℝ) 1 := ⟨ht.1.le, ht.2⟩
      rw [norm_smul, Real.norm_eq_abs, abs_of_nonneg (pow_nonneg (by linarith [ht.2]) _)]
      have h1 : (1 - t) ^ p ≤ 1 := pow_le_one₀ (by linarith [ht.2]) (by linarith [ht.1])
      have h2 : ‖iteratedFDeriv ℝ (p + 1) f (y + t • v) (fun _ => v)‖ ≤ B * ‖v‖ ^ (p + 1) := by
        refine (ContinuousMultilinearMap.le_opNorm _ _).trans ?_
        rw [prod_const, card_univ, Fintype.card_fin]
        exact mul_le_mul_of_nonneg_right (hB _ (hin t ht')) (by positivity)
      calc (1 - t) ^ p * ‖iteratedFDeriv ℝ (p + 1) f (y + t • v) (fun _ => v)‖
          ≤ 1 * (B * ‖v‖ ^ (p + 1)) := mul_le_mul h1 h2 (norm_nonneg _) zero_le_one
        _ = _ := one_mul _
    simpa using hint
end

/-- The states in which no two bodies are exactly at the distance of the cutoff. -/
def offCutoff (n : ℕ) : Set (Fin (6 * n) → ℝ) :=
  {z | ∀ i, i < n → ∀ j, j < n → i ≠ j → Spec.dist2 (C02.pos n (padded z) i) (C02.pos n (padded z) j) ≠ 1e-8}

lemma padded_contDiff {N : ℕ} (j : ℕ) (m : ℕ) : ContDiff ℝ m (fun z : Fin N → ℝ => padded z j) := by
  unfold padded
  split_ifs with h
  · exact contDiff_apply ℝ ℝ (⟨j, h⟩ : Fin N)
  · exact contDiff_const

lemma pos_contDiff {n : ℕ} (i : ℕ) (k : Fin 3) (m : ℕ) :
    ContDiff ℝ m (fun z : Fin (6 * n) → ℝ => C02.pos n (padded z) i k) := by
  simp only [pos_eq]
  exact padded_contDiff _ m

lemma dist2_contDiff {n : ℕ} (i j : ℕ) (m : ℕ) :
    ContDiff ℝ m (fun z : Fin (6 * n) → ℝ => Spec.dist2 (C02.pos n (padded z) i) (C02.pos n (padded z) j)) := by
  unfold Spec.dist2
  exact ((((pos_contDiff i 0 m).sub (pos_contDiff j 0 m)).pow 2).add
    (((pos_contDiff i 1 m).sub (pos_contDiff j 1 m)).pow 2)).add (((pos_contDiff i 2 m).sub (pos_contDiff j 2 m)).pow 2)

lemma offCutoff_isOpen (n : ℕ) : IsOpen (offCutoff n) := by
  have : offCutoff n = ⋂ i ∈ range n, ⋂ j ∈ range n, {z | i ≠ j →
      Spec.dist2 (C02.pos n (padded z) i) (C02.pos n (padded z) j) ≠ 1e-8} := by
    ext z
    simp [offCutoff]
  rw [this]
  refine isOpen_biInter_finset fun i _ => isOpen_biInter_finset fun j _ => ?_
  by_cases h : i = j
  · simp [h]
  · simp only [ne_eq, h, not_false_eq_true, forall_const]
    exact isOpen_ne_fun (dist2_contDiff i j 0).continuous continuous_const

lemma gravity_smooth (n : ℕ) (M : ℕ → ℝ) : ∀ z ∈ offCutoff n, ∀ m : ℕ, ContDiffAt ℝ m (gravity n M) z := by
  intro z hz m
  have hacc : ∀ i, i < n → ∀ k, ContDiffAt ℝ m
      (fun z : Fin (6 * n) → ℝ => Spec.accel 1e-8 n (C02.pos n (padded z)) M i k) z := by
    intro i hi k
    unfold Spec.accel
    refine ContDiffAt.sum fun j hj => ?_
    have hj' := mem_range.1 (mem_of_mem_erase hj)
    have hne := hz i hi j hj' (ne_of_mem_erase hj).symm
    have hmax : ContDiffAt ℝ m (fun z : Fin (6 * n) → ℝ =>
        max (Spec.dist2 (C02.pos n (padded z) i) (C02.pos n (padded z) j)) 1e-8) z := by
      have hcont := (dist2_contDiff (n := n) i j 0).continuous
      rcases lt_or_gt_of_ne hne with h | h
      · refine (contDiffAt_const (c := (1e-8 : ℝ))).congr_of_eventuallyEq ?_
        filter_upwards [hcont.continuousAt.eventually_lt continuousAt_const h] with w hw
        exact max_eq_right hw.le
      · refine (dist2_contDiff i j m).contDiffAt.congr_of_eventuallyEq ?_
        filter_upwards [continuousAt_const.eventually_lt hcont.continuousAt h] with w hw
        exact max_eq_left hw.le
    have hpos : 0 < max (Spec.dist2 (C02.pos n (padded z) i) (C02.pos n (padded z) j)) 1e-8 :=
      lt_of_lt_of_le (by norm_num) (le_max_right _ _)
    refine ContDiffAt.div (contDiffAt_const.mul ((pos_contDiff i k m).contDiffAt.sub (pos_contDiff j k m).contDiffAt))
      ((hmax.sqrt hpos.ne').pow 3) ?_
    have := Real.sqrt_pos.2 hpos
    positivity
  rw [contDiffAt_pi]
  intro j
  have hj := j.2
  show ContDiffAt ℝ m (fun z => C69.newtonDeriv n M (padded z) j) z
  unfold C69.newtonDeriv
  split_ifs
  · exact (padded_contDiff _ m).contDiffAt
  all_goals exact hacc _ (by omega) _

/-- A motion in which no two bodies come to the distance of the cutoff is a smooth one. -/
lemma motion_smooth {n : ℕ} {M : ℕ → ℝ} {T : ℝ} {q v : ℝ → ℕ → Fin 3 → ℝ} (h : Spec.Motion 1e-8 n M T q v)
    (hoff : ∀ t ∈ Set.Icc (0 : ℝ) T, ∀ i, i < n → ∀ j, j < n → i ≠ j → Spec.dist2 (q t i) (q t j) ≠ 1e-8) :
    Jet (gravity n M) (stateOf n q v '' Set.Icc 0 T) (taylorCoeffs (gravity n M)) := by
  have hc : ContinuousOn (stateOf n q v) (Set.Icc 0 T) := fun t ht => (motion_solves h t ht).continuousWithinAt
  refine jet_of_smooth (isCompact_Icc.image_of_continuousOn hc) (offCutoff_isOpen n) ?_ (gravity_smooth n M)
  rintro _ ⟨t, ht, rfl⟩ i hi j hj hij
  have e : ∀ i, i < n → C02.pos n (padded (stateOf n q v t)) i = q t i := by
    intro i hi
    funext k
    have hk : (k : ℕ) * n + i < 6 * n := by
      have : (k : ℕ) * n ≤ 2 * n := Nat.mul_le_mul_right n (by omega)
      omega
    rw [pos_eq, padded, dif_pos hk]
    exact packed_pos (q t) (v t) hi k
  rw [e i hi, e j hj]
  exact hoff t ht i hi j hj hij

end NB
