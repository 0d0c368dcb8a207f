import Verif.Lemmas.Butcher
import Verif.Lemmas.Converge
import Verif.Spec.OrderWithin
import Mathlib.Analysis.Calculus.Deriv.Pow

/-
The expansion of solutions over rooted trees, and what it means for a Runge-Kutta scheme to satisfy the order
conditions: there are stages that satisfy the stage equations, and lead to the solution, up to the order.
-/

namespace NB

open Finset Asymptotics Filter Topology
open Spec (RTree)

section
variable {E : Type} [NormedAddCommGroup E] [NormedSpace ℝ E]

omit [NormedSpace ℝ E] in
lemma isBigO_situations {α : Type} {S : Set α} {h : α → ℝ} (h0 : ∀ q ∈ S, 0 ≤ h q) {R : α → E} {k : ℕ} :
    R =O[𝓟 S ⊓ comap h (𝓝 0)] (fun q => h q ^ k) ↔
      ∃ C δ : ℝ, 0 ≤ C ∧ 0 < δ ∧ ∀ q ∈ S, h q ≤ δ → ‖R q‖ ≤ C * h q ^ k := by
  constructor
  · intro hR
    obtain ⟨C, hC, hb⟩ := hR.exists_nonneg
    have h1 := hb.bound
    rw [inf_comm, eventually_inf_principal, eventually_comap] at h1
    rw [Metric.eventually_nhds_iff] at h1
    obtain ⟨ε, hε, h2⟩ := h1
    refine ⟨C, ε / 2, hC, by positivity, fun q hq hle => ?_⟩
    have h3 : dist (h q) 0 < ε := by
      rw [Real.dist_eq, sub_zero, abs_of_nonneg (h0 q hq)]
      linarith
    have := h2 h3 q rfl hq
    rwa [Real.norm_of_nonneg (pow_nonneg (h0 q hq) _)] at this
  · rintro ⟨C, δ, -, hδ, hb⟩
    refine IsBigO.of_bound C ?_
    rw [inf_comm, eventually_inf_principal, eventually_comap]
    filter_upwards [gt_mem_nhds hδ] with b hb' q e hq
    rw [Real.norm_of_nonneg (pow_nonneg (h0 q hq) _)]
    exact hb q hq (by rw [e]; exact hb'.le)

lemma tendsto_situations {α : Type} {S : Set α} {h : α → ℝ} : Tendsto h (𝓟 S ⊓ comap h (𝓝 0)) (𝓝 0) :=
  tendsto_comap.mono_left inf_le_right

variable {f : E → E} {P : Coeffs E} {T : ℝ} {x : ℝ → E}

/-- Time and step: the step does not lead beyond the end. -/
def steps (T : ℝ) : Set (ℝ × ℝ) := {q | 0 ≤ q.1 ∧ 0 ≤ q.2 ∧ q.1 + q.2 ≤ T}

lemma order_mul_gamma (τ : RTree) : (τ.order : ℝ) * (1 / (τ.gamma : ℝ)) = childProd (fun τ => 1 / (τ.gamma : ℝ)) τ := by
  cases τ with
  | node ts =>
    rw [childProd, RTree.order, RTree.gamma, gammas_eq]
    have h1 : ((RTree.orders ts + 1 : ℕ) : ℝ) ≠ 0 := by positivity
    have h2 : (ts.map fun τ => 1 / (τ.gamma : ℝ)).prod = 1 / (((ts.map RTree.gamma).prod : ℕ) : ℝ) := by
      induction ts with
      | nil => simp
      | cons t ts ih =>
        rw [List.map_cons, List.prod_cons, ih (by positivity), List.map_cons, List.prod_cons, Nat.cast_mul,
          one_div_mul_one_div]
    rw [h2, Nat.cast_mul, ← one_div_mul_one_div, ← mul_assoc, mul_one_div_cancel h1, one_mul]

/-- **Solutions expanded over trees.** -/
lemma solution_series (hx : Solves f T x) (hJ : Jet f (x '' Set.Icc 0 T) P) (p : ℕ) :
    ∃ C δ : ℝ, 0 ≤ C ∧ 0 < δ ∧ ∀ t h, 0 ≤ t → 0 ≤ h → h ≤ δ → t + h ≤ T →
      ‖x (t + h) - x t - ∑ τ ∈ treesUpTo p, (h ^ τ.order * (1 / (τ.gamma : ℝ))) • elem P (x t) τ‖ ≤ C * h ^ (p + 1) := by
  induction p with
  | zero =>
    obtain ⟨B, hB⟩ := hJ.bound 0
    refine ⟨max B 0, 1, le_max_right _ _, one_pos, fun t h ht hh _ htd => ?_⟩
    have hsub : Set.Icc t (t + h) ⊆ Set.Icc 0 T := fun s hs => ⟨ht.trans hs.1, hs.2.trans htd⟩
    have hder : ∀ s ∈ Set.Icc t (t + h), HasDerivWithinAt x (f (x s)) (Set.Icc t (t + h)) s :=
      fun s hs => (hx s (hsub hs)).mono hsub
    have := (convex_Icc t (t + h)).norm_image_sub_le_of_norm_hasDerivWithin_le hder (C := max B 0)
      (fun s hs => by
        rw [← hJ.value (Set.mem_image_of_mem x (hsub hs))]
        refine (ContinuousMultilinearMap.le_opNorm _ _).trans ?_
        rw [univ_eq_empty, prod_empty, mul_one]
        exact (hB _ (Set.mem_image_of_mem x (hsub hs))).trans (le_max_left _ _))
      (⟨le_rfl, by linarith⟩ : t ∈ Set.Icc t (t + h)) (⟨by linarith, le_rfl⟩ : t + h ∈ Set.Icc t (t + h))
    rw [add_sub_cancel_left, Real.norm_of_nonneg hh] at this
    simpa [treesUpTo] using this
  | succ p ih =>
    have h0 : ∀ q ∈ steps T, 0 ≤ q.2 := fun q hq => hq.2.1
    have hy : ∀ᶠ q in 𝓟 (steps T) ⊓ comap Prod.snd (𝓝 0), x q.1 ∈ x '' Set.Icc 0 T := by
      refine (mem_inf_of_left (mem_principal_self _) : steps T ∈ _) |> mem_of_superset <| fun q hq => ?_
      exact Set.mem_image_of_mem x ⟨hq.1, by have := hq.2.1; have := hq.2.2; linarith⟩
    obtain ⟨C, δ, hC, hδ, hb⟩ := ih
    have hv : (fun q : ℝ × ℝ => (x (q.1 + q.2) - x q.1) -
        ∑ τ ∈ treesUpTo p, (q.2 ^ τ.order * (1 / (τ.gamma : ℝ))) • elem P (x q.1) τ)
        =O[𝓟 (steps T) ⊓ comap Prod.snd (𝓝 0)] fun q => q.2 ^ (p + 1) :=
      (isBigO_situations h0).2 ⟨C, δ, hC, hδ, fun q hq hle => hb q.1 q.2 hq.1 hq.2.1 hle hq.2.2⟩
    have := value_of_series hJ hy tendsto_situations p (fun τ => 1 / (τ.gamma : ℝ))
      (fun q => x (q.1 + q.2) - x q.1) hv
    obtain ⟨C', δ', hC', hδ', hb'⟩ := (isBigO_situations h0).1 this
    refine ⟨C', δ', hC', hδ', fun t h ht hh hle htd => ?_⟩
    have hsub : Set.Icc t (t + h) ⊆ Set.Icc 0 T := fun s hs => ⟨ht.trans hs.1, hs.2.trans htd⟩
    have hder : ∀ s ∈ Set.Icc t (t + h), HasDerivWithinAt
        (fun s => x s - ∑ τ ∈ treesUpTo (p + 1), ((s - t) ^ τ.order * (1 / (τ.gamma : ℝ))) • elem P (x t) τ)
        (f (x s) - ∑ τ ∈ treesUpTo (p + 1), ((s - t) ^ (τ.order - 1) *
          childProd (fun τ => 1 / (τ.gamma : ℝ)) τ) • elem P (x t) τ) (Set.Icc t (t + h)) s := by
      intro s hs
      refine ((hx s (hsub hs)).mono hsub).sub (HasDerivWithinAt.fun_sum fun τ _ => ?_)
      have h1 : HasDerivWithinAt (fun s : ℝ => (s - t) ^ τ.order * (1 / (τ.gamma : ℝ)))
          (τ.order * (s - t) ^ (τ.order - 1) * 1 * (1 / (τ.gamma : ℝ))) (Set.Icc t (t + h)) s :=
        (((hasDerivWithinAt_id s _).sub_const t).fun_pow τ.order).mul_const _
      have h2 := h1.smul_const (elem P (x t) τ)
      rw [← order_mul_gamma τ]
      convert h2 using 2
      ring
    have h1 := (convex_Icc t (t + h)).norm_image_sub_le_of_norm_hasDerivWithin_le hder (C := C' * h ^ (p + 1))
      (fun s hs => by
        have h2 := hb' (t, s - t) ⟨ht, by linarith [hs.1], by have := (hsub hs).2; show t + (s - t) ≤ T; linarith⟩
          (by have := hs.2; show s - t ≤ δ'; linarith)
        have e : x t + (x (t + (s - t)) - x t) = x s := by
          rw [add_sub_cancel, add_sub_cancel]
        dsimp only at h2
        rw [e] at h2
        refine h2.trans (mul_le_mul_of_nonneg_left (pow_le_pow_left₀ (by linarith [hs.1]) (by linarith [hs.2]) _) hC'))
      (⟨le_rfl, by linarith⟩ : t ∈ Set.Icc t (t + h)) (⟨by linarith, le_rfl⟩ : t + h ∈ Set.Icc t (t + h))
    rw [add_sub_cancel_left, Real.norm_of_nonneg hh, mul_assoc, ← pow_succ] at h1
    have e0 : ∑ τ ∈ treesUpTo (p + 1), ((t - t) ^ τ.order * (1 / (τ.gamma : ℝ))) • elem P (x t) τ = 0 := by
      refine sum_eq_zero fun τ _ => ?_
      rw [sub_self, zero_pow (by have := one_le_order τ; omega), zero_mul, zero_smul]
    rw [e0, sub_zero, sub_right_comm] at h1
    exact h1

/-- The scheme with the coefficients `a`, `b` goes along with the solution up to the order `p`, and up to `η`: for
every time `t` and step `h` there are stages, bounded, that satisfy the stage equations at the solution and lead to
the solution, up to errors of order `p`. -/
structure Accurate (f : E → E) (T : ℝ) (x : ℝ → E) (s : ℕ) (a : ℕ → ℕ → ℝ) (b : ℕ → ℝ) (p : ℕ) (η : ℝ)
    (K : ℕ → ℝ → ℝ → E) (C δ : ℝ) : Prop where
  nonneg : 0 ≤ C
  pos : 0 < δ
  stage : ∀ t h, 0 ≤ t → 0 ≤ h → h ≤ δ → t ≤ T → ∀ i, i < s →
    ‖K i t h - f (x t + h • ∑ j ∈ range s, a i j • K j t h)‖ ≤ C * h ^ p
  start : ∀ t h, 0 ≤ t → 0 ≤ h → h ≤ δ → t ≤ T → ∀ i, i < s → ‖K i t h - f (x t)‖ ≤ C * h
  advance : ∀ t h, 0 ≤ t → 0 ≤ h → h ≤ δ → t + h ≤ T →
    ‖x (t + h) - (x t + h • ∑ i ∈ range s, b i • K i t h)‖ ≤ C * (h ^ p + η) * h

/-- **Butcher's theorem.**  A scheme that satisfies the order conditions up to order `p` goes along with every smooth
solution up to that order. -/
theorem accurate_of_order (hx : Solves f T x) (hJ : Jet f (x '' Set.Icc 0 T) P) (s : ℕ) (a : ℕ → ℕ → ℝ) (b : ℕ → ℝ)
    {p : ℕ} (hp : 1 ≤ p) {η : ℝ} (hη : 0 ≤ η) (ho : Spec.HasOrderWithin η s a b p) :
    ∃ K C δ, Accurate f T x s a b p η K C δ := by
  obtain ⟨q, rfl⟩ : ∃ q, p = q + 1 := ⟨p - 1, by omega⟩
  -- the stages
  set K : ℕ → ℝ → ℝ → E := fun i t h =>
    ∑ τ ∈ treesUpTo (q + 1), (h ^ (τ.order - 1) * τ.phi s a i) • elem P (x t) τ with hK
  have hKsum : ∀ (w : ℕ → ℝ) t h, h • ∑ i ∈ range s, w i • K i t h =
      ∑ τ ∈ treesUpTo (q + 1), (h ^ τ.order * ∑ i ∈ range s, w i * τ.phi s a i) • elem P (x t) τ := by
    intro w t h
    simp only [hK, smul_sum, smul_smul]
    rw [sum_comm]
    refine sum_congr rfl fun τ _ => ?_
    rw [mul_sum, sum_smul]
    refine sum_congr rfl fun i _ => ?_
    congr 1
    have : h ^ τ.order = h * h ^ (τ.order - 1) := by
      rw [← pow_succ']; congr 1; have := one_le_order τ; omega
    rw [this]; ring
  have hchild : ∀ i τ, childProd (fun t => ∑ j ∈ range s, a i j * t.phi s a j) τ = τ.phi s a i := by
    intro i τ
    cases τ with
    | node ts => rw [childProd, RTree.phi, phis_eq]
  let S : Set (ℝ × ℝ) := {r | 0 ≤ r.1 ∧ r.1 ≤ T ∧ 0 ≤ r.2}
  have h0 : ∀ r ∈ S, 0 ≤ r.2 := fun r hr => hr.2.2
  have hy : ∀ᶠ r in 𝓟 S ⊓ comap Prod.snd (𝓝 0), x r.1 ∈ x '' Set.Icc 0 T := by
    refine mem_of_superset (mem_inf_of_left (mem_principal_self _) : S ∈ _) fun r hr => ?_
    exact Set.mem_image_of_mem x ⟨hr.1, hr.2.1⟩
  have hh : Tendsto Prod.snd (𝓟 S ⊓ comap Prod.snd (𝓝 (0 : ℝ))) (𝓝 0) := tendsto_situations
  -- what is left out
  have hrest : ∀ (c : RTree → ℝ), (fun r : ℝ × ℝ => ∑ τ ∈ treesUpTo (q + 1), (r.2 ^ τ.order * c τ) • elem P (x r.1) τ -
      ∑ τ ∈ treesUpTo q, (r.2 ^ τ.order * c τ) • elem P (x r.1) τ) =O[𝓟 S ⊓ comap Prod.snd (𝓝 0)]
      fun r => r.2 ^ (q + 1) := by
    intro c
    classical
    have hsub : treesUpTo q ⊆ treesUpTo (q + 1) := fun τ h => mem_treesUpTo.2 ((mem_treesUpTo.1 h).trans (Nat.le_succ _))
    simp only [← sum_sdiff hsub, add_sub_cancel_right]
    refine IsBigO.fun_sum fun τ hτ => term_isBigO hJ hy hh _ _ ?_
    have := (mem_sdiff.1 hτ).2
    rw [mem_treesUpTo] at this
    omega
  have stage : ∀ i, ∃ C δ : ℝ, 0 ≤ C ∧ 0 < δ ∧ ∀ r ∈ S, r.2 ≤ δ →
      ‖K i r.1 r.2 - f (x r.1 + r.2 • ∑ j ∈ range s, a i j • K j r.1 r.2)‖ ≤ C * r.2 ^ (q + 1) := by
    intro i
    have := value_of_series hJ hy hh q (fun t => ∑ j ∈ range s, a i j * t.phi s a j)
      (fun r => r.2 • ∑ j ∈ range s, a i j • K j r.1 r.2) (by simp only [hKsum]; exact hrest _)
    refine (isBigO_situations h0).1 (this.neg_left.congr_left fun r => ?_)
    simp only [hchild, hK, neg_sub]
  have start : ∀ i, ∃ C δ : ℝ, 0 ≤ C ∧ 0 < δ ∧ ∀ r ∈ S, r.2 ≤ δ → ‖K i r.1 r.2 - f (x r.1)‖ ≤ C * r.2 ^ 1 := by
    intro i
    refine (isBigO_situations h0).1 ?_
    have hmem : RTree.node [] ∈ treesUpTo (q + 1) := mem_treesUpTo.2 (by simp [RTree.order, RTree.orders])
    have e : ∀ᶠ r in 𝓟 S ⊓ comap Prod.snd (𝓝 0), K i r.1 r.2 - f (x r.1) =
        ∑ τ ∈ treesUpTo (q + 1) with τ.order ≠ 1, (r.2 ^ (τ.order - 1) * τ.phi s a i) • elem P (x r.1) τ := by
      filter_upwards [hy] with r hr
      have e1 : (RTree.node []).order = 1 := by simp [RTree.order, RTree.orders]
      have e2 : elem P (x r.1) (.node []) = f (x r.1) := by
        rw [← hJ.value hr]
        have := elem_ofFn P (x r.1) (Fin.elim0 : Fin 0 → RTree)
        rw [List.ofFn_zero] at this
        rw [this]
        exact congrArg _ (funext fun i => i.elim0)
      have e3 : (treesUpTo (q + 1)).filter (fun τ => ¬ τ.order ≠ 1) = {.node []} := by
        ext τ
        rw [mem_filter, mem_singleton, not_not]
        constructor
        · rintro ⟨-, h⟩
          cases τ with
          | node ts =>
            rw [RTree.order] at h
            have := length_le_orders ts
            have : ts.length = 0 := by omega
            rw [List.length_eq_zero_iff.1 this]
        · rintro rfl; exact ⟨hmem, e1⟩
      rw [hK]
      dsimp only
      rw [← sum_filter_add_sum_filter_not _ (fun τ : RTree => τ.order ≠ 1), e3, sum_singleton, e1, e2, RTree.phi,
        RTree.phis]
      simp
    refine IsBigO.congr' (f₁ := fun r : ℝ × ℝ => ∑ τ ∈ treesUpTo (q + 1) with τ.order ≠ 1,
      (r.2 ^ (τ.order - 1) * τ.phi s a i) • elem P (x r.1) τ) ?_ (e.mono fun r h => h.symm) (EventuallyEq.refl _ _)
    refine IsBigO.fun_sum fun τ hτ => term_isBigO hJ hy hh _ _ ?_
    have := (mem_filter.1 hτ).2
    have := one_le_order τ
    omega
  choose C₁ δ₁ hC₁ hδ₁ hs using stage
  choose C₂ δ₂ hC₂ hδ₂ hs' using start
  obtain ⟨C₃, δ₃, hC₃, hδ₃, hs₃⟩ := solution_series hx hJ (q + 1)
  choose B hB0 hB using elem_bound hJ
  set D := ∑ τ ∈ treesUpTo (q + 1), B τ with hD
  have hD0 : 0 ≤ D := sum_nonneg fun τ _ => hB0 τ
  obtain ⟨δ, hδ, hle⟩ : ∃ δ : ℝ, 0 < δ ∧ (∀ i, i < s → δ ≤ δ₁ i ∧ δ ≤ δ₂ i) ∧ δ ≤ δ₃ ∧ δ ≤ 1 := by
    have : ∀ n : ℕ, ∃ δ : ℝ, 0 < δ ∧ ∀ i, i < n → δ ≤ δ₁ i ∧ δ ≤ δ₂ i := by
      intro n
      induction n with
      | zero => exact ⟨1, one_pos, fun i hi => absurd hi (Nat.not_lt_zero _)⟩
      | succ n ih =>
        obtain ⟨δ, hδ, h⟩ := ih
        refine ⟨min δ (min (δ₁ n) (δ₂ n)), lt_min hδ (lt_min (hδ₁ n) (hδ₂ n)), fun i hi => ?_⟩
        rcases Nat.lt_succ_iff_lt_or_eq.1 hi with h' | rfl
        · exact ⟨(min_le_left _ _).trans (h i h').1, (min_le_left _ _).trans (h i h').2⟩
        · exact ⟨(min_le_right _ _).trans (min_le_left _ _), (min_le_right _ _).trans (min_le_right _ _)⟩
    obtain ⟨δ, hδ, h⟩ := this s
    exact ⟨min δ (min δ₃ 1), lt_min hδ (lt_min hδ₃ one_pos), fun i hi =>
      ⟨(min_le_left _ _).trans (h i hi).1, (min_le_left _ _).trans (h i hi).2⟩,
      (min_le_right _ _).trans (min_le_left _ _), (min_le_right _ _).trans (min_le_right _ _)⟩
  obtain ⟨hle1, hle3, hle4⟩ := hle
  have hS1 : 0 ≤ ∑ i ∈ range s, C₁ i := sum_nonneg fun i _ => hC₁ i
  have hS2 : 0 ≤ ∑ i ∈ range s, C₂ i := sum_nonneg fun i _ => hC₂ i
  refine ⟨K, ∑ i ∈ range s, C₁ i + ∑ i ∈ range s, C₂ i + C₃ + D, δ, ⟨by positivity, hδ, ?_, ?_, ?_⟩⟩
  · intro t h ht hh hhδ htT i hi
    refine (hs i (t, h) ⟨ht, htT, hh⟩ (hhδ.trans (hle1 i hi).1)).trans (mul_le_mul_of_nonneg_right ?_ (pow_nonneg hh _))
    have := single_le_sum (f := C₁) (fun i _ => hC₁ i) (mem_range.2 hi)
    linarith
  · intro t h ht hh hhδ htT i hi
    have h1 := hs' i (t, h) ⟨ht, htT, hh⟩ (hhδ.trans (hle1 i hi).2)
    rw [pow_one] at h1
    refine h1.trans (mul_le_mul_of_nonneg_right ?_ hh)
    have := single_le_sum (f := C₂) (fun i _ => hC₂ i) (mem_range.2 hi)
    linarith
  · intro t h ht hh hhδ htd
    have h1 := hs₃ t h ht hh (hhδ.trans hle3) htd
    have hmem : x t ∈ x '' Set.Icc 0 T := Set.mem_image_of_mem x ⟨ht, by linarith⟩
    rw [hKsum]
    have e : x (t + h) - (x t + ∑ τ ∈ treesUpTo (q + 1), (h ^ τ.order * ∑ i ∈ range s, b i * τ.phi s a i) • elem P (x t) τ) =
        (x (t + h) - x t - ∑ τ ∈ treesUpTo (q + 1), (h ^ τ.order * (1 / (τ.gamma : ℝ))) • elem P (x t) τ) -
        ∑ τ ∈ treesUpTo (q + 1), (h ^ τ.order * (∑ i ∈ range s, b i * τ.phi s a i - 1 / (τ.gamma : ℝ))) • elem P (x t) τ := by
      simp only [mul_sub, sub_smul, sum_sub_distrib]
      abel
    rw [e]
    have h2 : ‖∑ τ ∈ treesUpTo (q + 1), (h ^ τ.order * (∑ i ∈ range s, b i * τ.phi s a i - 1 / (τ.gamma : ℝ))) •
        elem P (x t) τ‖ ≤ D * η * h := by
      refine (norm_sum_le _ _).trans ?_
      rw [hD, sum_mul, sum_mul]
      refine sum_le_sum fun τ hτ => ?_
      rw [norm_smul, norm_mul, Real.norm_of_nonneg (pow_nonneg hh _), Real.norm_eq_abs]
      have g1 : h ^ τ.order ≤ h := by
        have := pow_le_pow_of_le_one hh (hhδ.trans hle4) (one_le_order τ)
        rwa [pow_one] at this
      have g2 := ho τ (mem_treesUpTo.1 hτ)
      have g3 := hB τ _ hmem
      calc _ ≤ h * η * B τ := mul_le_mul (mul_le_mul g1 g2 (abs_nonneg _) hh) g3 (norm_nonneg _) (by positivity)
        _ = _ := by ring
    refine (norm_sub_le _ _).trans ((add_le_add h1 h2).trans ?_)
    have g0 : 0 ≤ h ^ (q + 1) * h := by positivity
    have g1 : 0 ≤ η * h := by positivity
    rw [pow_succ]
    have : (∑ i ∈ range s, C₁ i + ∑ i ∈ range s, C₂ i + C₃ + D) * (h ^ (q + 1) + η) * h =
        C₃ * (h ^ (q + 1) * h) + D * η * h + ((∑ i ∈ range s, C₁ i + ∑ i ∈ range s, C₂ i) * (h ^ (q + 1) * h + η * h) +
          C₃ * (η * h) + D * (h ^ (q + 1) * h)) := by ring
    rw [this]
    have : 0 ≤ (∑ i ∈ range s, C₁ i + ∑ i ∈ range s, C₂ i) * (h ^ (q + 1) * h + η * h) +
          C₃ * (η * h) + D * (h ^ (q + 1) * h) := by positivity
    linarith

end

end NB
