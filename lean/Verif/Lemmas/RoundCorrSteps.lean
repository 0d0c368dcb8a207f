import Verif.Lemmas.RoundCorr

/-
Steps with compensated sums follow a solution, and the rounding errors do not add up.
-/

namespace NB

open Finset

section
variable {E : Type} [NormedAddCommGroup E] [NormedSpace ℝ E]

/-- A step of an explicit scheme whose derivatives are computed up to `θ`, whose stages are off by at most `r` and whose sum by at most `ρ` times
the step. -/
def OffStep (f : E → E) (θ r ρ : ℝ) (s : ℕ) (a : ℕ → ℕ → ℝ) (b : ℕ → ℝ) (h : ℝ) (y y' : E) : Prop :=
  ∃ k t : ℕ → E, (∀ i, i < s → ‖k i - f (t i)‖ ≤ θ) ∧ (∀ i, i < s → ‖t i - (y + h • ∑ j ∈ range i, a i j • k j)‖ ≤ r) ∧
    ‖y' - (y + h • ∑ i ∈ range s, b i • k i)‖ ≤ ρ * h

variable {f : E → E} {L : ℝ} {x : ℝ → E} {T : ℝ}

/-- Such steps follow a solution. -/
lemma off_follows (hL : 0 ≤ L) (hf : ∀ a b, ‖f a - f b‖ ≤ L * ‖a - b‖) {s : ℕ} {a : ℕ → ℕ → ℝ} {b : ℕ → ℝ}
    {p : ℕ} {η C δ₀ : ℝ} {K : ℕ → ℝ → ℝ → E} (hη : 0 ≤ η) (hA : Accurate f T x s a b p η K C δ₀) (hlow : Lower s a) :
    ∃ C', 0 ≤ C' ∧ ∀ θ r ρ : ℝ, 0 ≤ θ → 0 ≤ r → 0 ≤ ρ → ∀ δ, δ ≤ δ₀ →
      Follows (LinearMap.id : E →ₗ[ℝ] E) x T C' (δ ^ p + η + (θ + L * r) + ρ) δ (OffStep f θ r ρ s a b) := by
  obtain ⟨C₁, hC₁, hfol⟩ := erk_follows (V := E) (π := LinearMap.id) hL hf (fun _ => 0) hη hA hlow
  refine ⟨C₁ + 1, by positivity, ?_⟩
  rintro θ r ρ hθ hr hρ δ hδ t h y y' ht hh hhδ hT ⟨k, ts, hk, hts, hy'⟩
  simp only [LinearMap.id_coe, id_eq]
  let z : ℕ → E := fun i => y + h • ∑ j ∈ range i, a i j • k j
  have hθ' : 0 ≤ θ + L * r := by positivity
  have hdev : ∀ i, i < s → ‖k i - f (z i)‖ ≤ θ + L * r := by
    intro i hi
    have h1 : ‖f (ts i) - f (z i)‖ ≤ L * r := (hf _ _).trans (mul_le_mul_of_nonneg_left (hts i hi) hL)
    have e1 : k i - f (z i) = (k i - f (ts i)) + (f (ts i) - f (z i)) := by abel
    rw [e1]
    exact (norm_add_le _ _).trans (add_le_add (hk i hi) h1)
  have hex := hfol (fun i _ w => if i < s then f w + (k i - f (z i)) else f w) (θ + L * r) hθ' (fun i _ w => by
    simp only [LinearMap.id_coe, id_eq]
    split_ifs with hi
    · rw [add_sub_cancel_left]; exact hdev i hi
    · rw [sub_self, norm_zero]; exact hθ') δ hδ t h y (y + h • ∑ i ∈ range s, b i • k i) ht hh hhδ hT
    ⟨0, 0, k, fun i hi => by
      simp only [zero_add, if_pos hi]
      show k i = f (z i) + (k i - f (z i))
      abel, rfl⟩
  simp only [LinearMap.id_coe, id_eq] at hex
  obtain ⟨e, he⟩ : ∃ e, e = ‖y - x t‖ := ⟨_, rfl⟩
  have he0 : 0 ≤ e := by rw [he]; positivity
  rw [← he] at hex ⊢
  have e1 : (y' - x (t + h)) - (y - x t) = (y' - (y + h • ∑ i ∈ range s, b i • k i)) +
      ((y + h • ∑ i ∈ range s, b i • k i - x (t + h)) - (y - x t)) := by abel
  rw [e1]
  refine (norm_add_le _ _).trans ((add_le_add hy' hex).trans ?_)
  have hd0 : 0 ≤ δ ^ p := pow_nonneg (hh.le.trans hhδ) p
  obtain ⟨W, hW⟩ : ∃ W, W = e + (δ ^ p + η + (θ + L * r)) := ⟨_, rfl⟩
  have hW0 : 0 ≤ W := by rw [hW]; positivity
  rw [show e + (δ ^ p + η + (θ + L * r) + ρ) = W + ρ by rw [hW]; ring, ← hW, ← add_mul]
  refine mul_le_mul_of_nonneg_right ?_ hh.le
  have : 0 ≤ C₁ * ρ := by positivity
  linarith [show (C₁ + 1) * (W + ρ) = C₁ * W + C₁ * ρ + W + ρ by ring]

/-- The sizes that occur in a step with compensated sums: a constant `c` for the scheme such that the bound of the size grows at most like
`exp (c h)`, and the step is off by at most `c` times it. -/
lemma corr_off (hL : 0 ≤ L) (hf : ∀ a b, ‖f a - f b‖ ≤ L * ‖a - b‖) (s : ℕ) (a : ℕ → ℕ → ℝ) (b : ℕ → ℝ) {δ₀ : ℝ} (hδ₀ : 0 ≤ δ₀) :
    ∃ c : ℝ, 0 ≤ c ∧ ∀ κ ν θ dmin Zm : ℝ, 0 ≤ κ → κ ≤ 1 → 0 ≤ ν → θ ≤ 1 → 0 < dmin → ν ≤ dmin → ∀ h p p', dmin ≤ h → h ≤ δ₀ →
      CorrStep f κ ν θ s a b h p p' → ‖p.1‖ ≤ p.2 → 1 ≤ p.2 → p.2 ≤ Zm →
      ‖p'.1‖ ≤ p'.2 ∧ 1 ≤ p'.2 ∧ p'.2 ≤ p.2 * Real.exp (c * h) ∧ OffStep f θ (κ * (c * Zm)) ((κ + ν / dmin) * (c * Zm)) s a b h p.1 p'.1 := by
  obtain ⟨A, hAd⟩ : ∃ A, A = ∑ i ∈ range s, ∑ j ∈ range i, |a i j| := ⟨_, rfl⟩
  have hA0 : 0 ≤ A := by rw [hAd]; positivity
  have hrow : ∀ i, i < s → ∑ j ∈ range i, |a i j| ≤ A := fun i hi => by
    rw [hAd]
    exact single_le_sum (f := fun i => ∑ j ∈ range i, |a i j|) (fun i _ => sum_nonneg fun j _ => abs_nonneg _) (mem_range.2 hi)
  obtain ⟨β, hβ⟩ : ∃ β, β = ∑ i ∈ range s, |b i| := ⟨_, rfl⟩
  have hβ0 : 0 ≤ β := by rw [hβ]; positivity
  obtain ⟨Q, hQ⟩ : ∃ Q, Q = (1 + 2 * L * δ₀ * A) ^ s := ⟨_, rfl⟩
  have hq1 : 1 ≤ 1 + 2 * L * δ₀ * A := by linarith [show 0 ≤ 2 * L * δ₀ * A by positivity]
  have hQ0 : 0 ≤ Q := by rw [hQ]; positivity
  -- derivatives are at most `c₁ Z`
  obtain ⟨c₁, hc₁⟩ : ∃ c, c = Q * (1 + ‖f 0‖ + 2 * L) := ⟨_, rfl⟩
  have hc₁0 : 0 ≤ c₁ := by rw [hc₁]; positivity
  refine ⟨1 + 2 * (β * c₁) + δ₀ * (A * c₁) + 2 * (δ₀ * (β * c₁)), by positivity, ?_⟩
  obtain ⟨c, hc⟩ : ∃ c, c = 1 + 2 * (β * c₁) + δ₀ * (A * c₁) + 2 * (δ₀ * (β * c₁)) := ⟨_, rfl⟩
  rw [← hc]
  rintro κ ν θ dmin Zm hκ0 hκ hν hθ hdm hνd h ⟨y, Z⟩ ⟨y', Z'⟩ hdh hhδ ⟨k, ts, hk, hts, hy', hZ'⟩ hyZ hZ1 hZm
  simp only at hk hts hy' hZ' hyZ hZ1 hZm ⊢
  have hh : 0 ≤ h := hdm.le.trans hdh
  have hstage : ∀ i, i < s → ‖k i‖ ≤ c₁ * Z := by
    intro i hi
    refine (RoundedStep.stages_within hκ hθ hh hL hf hhδ hrow hyZ hk hts i hi).trans ?_
    have h1 : (1 + 2 * L * δ₀ * A) ^ (i + 1) ≤ Q := by rw [hQ]; exact pow_le_pow_right₀ hq1 hi
    have h2 : 1 + ‖f 0‖ + 2 * L * Z ≤ (1 + ‖f 0‖ + 2 * L) * Z := by
      have := mul_le_mul_of_nonneg_left hZ1 (show 0 ≤ 1 + ‖f 0‖ by positivity)
      linarith
    rw [hc₁, mul_assoc Q]
    exact mul_le_mul h1 h2 (by positivity) hQ0
  have hsum : ∀ (w : ℕ → ℝ) (N : ℕ) (W : ℝ), N ≤ s → ∑ j ∈ range N, |w j| ≤ W → ∑ j ∈ range N, |w j| * ‖k j‖ ≤ W * (c₁ * Z) := by
    intro w N W hN hW
    calc ∑ j ∈ range N, |w j| * ‖k j‖ ≤ ∑ j ∈ range N, |w j| * (c₁ * Z) := sum_le_sum fun j hj =>
          mul_le_mul_of_nonneg_left (hstage j (by have := mem_range.1 hj; omega)) (abs_nonneg _)
      _ = (∑ j ∈ range N, |w j|) * (c₁ * Z) := by rw [sum_mul]
      _ ≤ W * (c₁ * Z) := mul_le_mul_of_nonneg_right hW (by positivity)
  obtain ⟨σ, hσ⟩ : ∃ σ, σ = h * ∑ i ∈ range s, |b i| * ‖k i‖ := ⟨_, rfl⟩
  have hσ0 : 0 ≤ σ := by rw [hσ]; positivity
  have hσ1 : σ ≤ h * (β * (c₁ * Z)) := by rw [hσ]; exact mul_le_mul_of_nonneg_left (hsum b s β le_rfl hβ.ge) hh
  rw [← hσ] at hy' hZ'
  have hsy : ‖h • ∑ i ∈ range s, b i • k i‖ ≤ σ := by
    rw [hσ, norm_smul, Real.norm_eq_abs, abs_of_nonneg hh]
    exact mul_le_mul_of_nonneg_left ((norm_sum_le _ _).trans (le_of_eq (sum_congr rfl fun j _ => by rw [norm_smul, Real.norm_eq_abs]))) hh
  have hνh : ν ≤ h := hνd.trans hdh
  have hZ0 : 0 ≤ Z := by linarith
  refine ⟨?_, ?_, ?_, k, ts, hk, fun i hi => ?_, ?_⟩
  · have e2 : y' = (y' - (y + h • ∑ i ∈ range s, b i • k i)) + (y + h • ∑ i ∈ range s, b i • k i) := by abel
    have h1 : ‖y'‖ ≤ ‖y' - (y + h • ∑ i ∈ range s, b i • k i)‖ + ‖y + h • ∑ i ∈ range s, b i • k i‖ := by
      conv_lhs => rw [e2]
      exact norm_add_le _ _
    have h2 := norm_add_le y (h • ∑ i ∈ range s, b i • k i)
    have h3 := mul_le_mul_of_nonneg_right hκ hσ0
    rw [hZ']
    linarith
  · rw [hZ']
    have : 0 ≤ ν * (Z + 2 * σ) := by positivity
    linarith
  · have g1 : Z + 2 * σ ≤ Z * (1 + 2 * (β * c₁) * h) := by linarith
    have g2 : 1 + 2 * (β * c₁) * h ≤ Real.exp (2 * (β * c₁) * h) := by linarith [Real.add_one_le_exp (2 * (β * c₁) * h)]
    have g3 : 1 + ν ≤ Real.exp h := by linarith [Real.add_one_le_exp h]
    rw [hZ']
    calc (1 + ν) * (Z + 2 * σ) ≤ Real.exp h * (Z * Real.exp (2 * (β * c₁) * h)) :=
          mul_le_mul g3 (g1.trans (mul_le_mul_of_nonneg_left g2 hZ0)) (by positivity) (Real.exp_pos _).le
      _ = Z * Real.exp (h + 2 * (β * c₁) * h) := by rw [Real.exp_add]; ring
      _ ≤ _ := by
          refine mul_le_mul_of_nonneg_left (Real.exp_le_exp.2 ?_) hZ0
          rw [hc]
          have : 0 ≤ (δ₀ * (A * c₁) + 2 * (δ₀ * (β * c₁))) * h := by positivity
          linarith
  · refine (hts i hi).trans (mul_le_mul_of_nonneg_left ?_ hκ0)
    have g1 : h * ∑ j ∈ range i, |a i j| * ‖k j‖ ≤ δ₀ * (A * (c₁ * Z)) :=
      mul_le_mul hhδ (hsum (a i) i A hi.le (hrow i hi)) (by positivity) hδ₀
    have g2 : Z + δ₀ * (A * (c₁ * Z)) ≤ c * Z := by
      rw [hc]
      have : 0 ≤ (2 * (β * c₁) + 2 * (δ₀ * (β * c₁))) * Z := by positivity
      linarith
    have g3 : c * Z ≤ c * Zm := mul_le_mul_of_nonneg_left hZm (by rw [hc]; positivity)
    linarith
  · have g1 : κ * σ ≤ κ * (c * Zm) * h := by
      have : σ ≤ c * Zm * h := by
        have e1 : h * (β * (c₁ * Z)) = β * c₁ * Z * h := by ring
        have e2 : β * c₁ ≤ c := by
          rw [hc]
          linarith [show 0 ≤ β * c₁ by positivity, show 0 ≤ δ₀ * (A * c₁) by positivity, show 0 ≤ δ₀ * (β * c₁) by positivity]
        rw [e1] at hσ1
        refine hσ1.trans (mul_le_mul_of_nonneg_right (mul_le_mul e2 hZm hZ0 (by rw [hc]; positivity)) hh)
      rw [mul_assoc κ]
      exact mul_le_mul_of_nonneg_left this hκ0
    have g2 : Z + 2 * σ ≤ c * Zm := by
      have e1 : h * (β * (c₁ * Z)) ≤ δ₀ * (β * (c₁ * Z)) := mul_le_mul_of_nonneg_right hhδ (by positivity)
      have e2 : Z + 2 * (δ₀ * (β * (c₁ * Z))) ≤ c * Z := by
        rw [hc]
        have : 0 ≤ (2 * (β * c₁) + δ₀ * (A * c₁)) * Z := by positivity
        linarith
      have g3 : c * Z ≤ c * Zm := mul_le_mul_of_nonneg_left hZm (by rw [hc]; positivity)
      linarith
    have g3 : ν ≤ ν / dmin * h := by
      rw [div_mul_eq_mul_div, le_div_iff₀ hdm]
      exact mul_le_mul_of_nonneg_left hdh hν
    have hcZ : 0 ≤ c * Zm := by linarith
    have g4 : ν * (Z + 2 * σ) ≤ ν / dmin * h * (c * Zm) := mul_le_mul g3 g2 (by positivity) (by positivity)
    refine hy'.trans ?_
    calc κ * σ + ν * (Z + 2 * σ) ≤ κ * (c * Zm) * h + ν / dmin * h * (c * Zm) := add_le_add g1 g4
      _ = _ := by ring

/-- Walks of such steps. -/
lemma corr_walk {s : ℕ} {a : ℕ → ℕ → ℝ} {b : ℕ → ℝ} {δ c κ ν θ dmin Zm : ℝ} (hc : 0 ≤ c) (hd : 0 ≤ dmin)
    (hoff : ∀ h p p', dmin ≤ h → h ≤ δ → CorrStep f κ ν θ s a b h p p' → ‖p.1‖ ≤ p.2 → 1 ≤ p.2 → p.2 ≤ Zm →
      ‖p'.1‖ ≤ p'.2 ∧ 1 ≤ p'.2 ∧ p'.2 ≤ p.2 * Real.exp (c * h) ∧ OffStep f θ (κ * (c * Zm)) ((κ + ν / dmin) * (c * Zm)) s a b h p.1 p'.1) :
    ∀ (hs : List ℝ) (p p' : E × ℝ), (∀ h ∈ hs, dmin ≤ h ∧ h ≤ δ) → Walk (CorrStep f κ ν θ s a b) hs p p' → ‖p.1‖ ≤ p.2 → 1 ≤ p.2 →
      p.2 * Real.exp (c * hs.sum) ≤ Zm →
      Walk (OffStep f θ (κ * (c * Zm)) ((κ + ν / dmin) * (c * Zm)) s a b) hs p.1 p'.1 ∧ ‖p'.1‖ ≤ p'.2 ∧ 1 ≤ p'.2 ∧ p'.2 ≤ Zm := by
  intro hs
  induction hs with
  | nil =>
    rintro p p' _ hw h1 h2 h3
    obtain rfl : p = p' := hw
    exact ⟨rfl, h1, h2, by simpa using h3⟩
  | cons h hs ih =>
    rintro p p' hb ⟨z, hz, hw⟩ h1 h2 h3
    have hsum : 0 ≤ hs.sum := List.sum_nonneg fun x hx => hd.trans (hb x (by simp [hx])).1
    obtain ⟨l1, l2⟩ := hb h (by simp)
    have hp0 : 0 ≤ p.2 := by linarith
    rw [List.sum_cons] at h3
    have hp : p.2 ≤ Zm := by
      refine le_trans (le_mul_of_one_le_right hp0 (Real.one_le_exp ?_)) h3
      exact mul_nonneg hc (by linarith)
    obtain ⟨g1, g2, g3, g4⟩ := hoff h p z l1 l2 hz h1 h2 hp
    obtain ⟨k1, k2⟩ := ih z p' (fun x hx => hb x (by simp [hx])) hw g1 g2 (by
      refine le_trans (mul_le_mul_of_nonneg_right g3 (Real.exp_pos _).le) (le_trans (le_of_eq ?_) h3)
      rw [mul_assoc, ← Real.exp_add, mul_add])
    exact ⟨⟨_, g4, k1⟩, k2⟩

end

end NB
