import Verif.Lemmas.OrderSchemes

/-
Explicit Runge-Kutta steps in rounded arithmetic follow a solution up to their order and the roundings per time.
-/

namespace NB

open Finset

section
variable {E : Type} [NormedAddCommGroup E] [NormedSpace ℝ E]

/-- A step of an explicit scheme whose derivatives are computed up to `θ`, and whose sums up to `κ` times the sizes of
their terms. -/
def RoundedStep (f : E → E) (κ θ : ℝ) (s : ℕ) (a : ℕ → ℕ → ℝ) (b : ℕ → ℝ) (h : ℝ) (y y' : E) : Prop :=
  ∃ k t : ℕ → E, (∀ i, i < s → ‖k i - f (t i)‖ ≤ θ) ∧
    (∀ i, i < s → ‖t i - (y + h • ∑ j ∈ range i, a i j • k j)‖ ≤ κ * (‖y‖ + h * ∑ j ∈ range i, |a i j| * ‖k j‖)) ∧
    ‖y' - (y + h • ∑ i ∈ range s, b i • k i)‖ ≤ κ * (‖y‖ + h * ∑ i ∈ range s, |b i| * ‖k i‖)

variable {f : E → E} {L : ℝ} {x : ℝ → E} {T : ℝ}

lemma RoundedStep.mono {κ κ' θ θ' : ℝ} (hκ : κ ≤ κ') (hθ : θ ≤ θ') {s : ℕ} {a : ℕ → ℕ → ℝ} {b : ℕ → ℝ} {h : ℝ} (hh : 0 ≤ h)
    {y y' : E} (hs : RoundedStep f κ θ s a b h y y') : RoundedStep f κ' θ' s a b h y y' := by
  obtain ⟨k, t, h1, h2, h3⟩ := hs
  refine ⟨k, t, fun i hi => (h1 i hi).trans hθ, fun i hi => (h2 i hi).trans (mul_le_mul_of_nonneg_right hκ ?_),
    h3.trans (mul_le_mul_of_nonneg_right hκ ?_)⟩ <;> positivity

/-- The derivatives in such a step are no larger than a multiple of the size `Z` of the state. -/
lemma RoundedStep.stages_within {κ θ : ℝ} (hκ : κ ≤ 1) (hθ : θ ≤ 1) {s : ℕ} {a : ℕ → ℕ → ℝ} {δ₀ A h : ℝ} (hh : 0 ≤ h)
    (hL : 0 ≤ L) (hf : ∀ a b, ‖f a - f b‖ ≤ L * ‖a - b‖) (hhδ : h ≤ δ₀) (hA : ∀ i, i < s → ∑ j ∈ range i, |a i j| ≤ A)
    {y : E} {Z : ℝ} (hZ : ‖y‖ ≤ Z) {k t : ℕ → E} (hk : ∀ i, i < s → ‖k i - f (t i)‖ ≤ θ)
    (ht : ∀ i, i < s → ‖t i - (y + h • ∑ j ∈ range i, a i j • k j)‖ ≤ κ * (Z + h * ∑ j ∈ range i, |a i j| * ‖k j‖)) :
    ∀ i, i < s → ‖k i‖ ≤ (1 + 2 * L * δ₀ * A) ^ (i + 1) * (1 + ‖f 0‖ + 2 * L * Z) := by
  have hδ₀ : 0 ≤ δ₀ := hh.trans hhδ
  have hZ0 : 0 ≤ Z := (norm_nonneg _).trans hZ
  intro i
  induction i using Nat.strong_induction_on with
  | _ i ih =>
    intro hi
    have hA0 : 0 ≤ A := (sum_nonneg fun j _ => abs_nonneg _).trans (hA i hi)
    obtain ⟨q, hq⟩ : ∃ q, q = 1 + 2 * L * δ₀ * A := ⟨_, rfl⟩
    obtain ⟨R, hR⟩ : ∃ R, R = 1 + ‖f 0‖ + 2 * L * Z := ⟨_, rfl⟩
    rw [← hq, ← hR] at ih ⊢
    have hq1 : 1 ≤ q := by rw [hq]; linarith [show 0 ≤ 2 * L * δ₀ * A by positivity]
    have hR0 : 0 ≤ R := by rw [hR]; positivity
    have h1 : ∑ j ∈ range i, |a i j| * ‖k j‖ ≤ A * (q ^ i * R) := by
      calc ∑ j ∈ range i, |a i j| * ‖k j‖ ≤ ∑ j ∈ range i, |a i j| * (q ^ i * R) := sum_le_sum fun j hj => by
            have hj' := mem_range.1 hj
            refine mul_le_mul_of_nonneg_left ?_ (abs_nonneg _)
            exact (ih j hj' (by omega)).trans (mul_le_mul_of_nonneg_right (pow_le_pow_right₀ hq1 hj') hR0)
        _ = (∑ j ∈ range i, |a i j|) * (q ^ i * R) := by rw [sum_mul]
        _ ≤ A * (q ^ i * R) := mul_le_mul_of_nonneg_right (hA i hi) (by positivity)
    have h1' : 0 ≤ ∑ j ∈ range i, |a i j| * ‖k j‖ := by positivity
    have h2 : ‖∑ j ∈ range i, a i j • k j‖ ≤ ∑ j ∈ range i, |a i j| * ‖k j‖ :=
      (norm_sum_le _ _).trans (le_of_eq (sum_congr rfl fun j _ => by rw [norm_smul, Real.norm_eq_abs]))
    have h3 : ‖t i‖ ≤ 2 * (Z + δ₀ * (A * (q ^ i * R))) := by
      have e : t i = (t i - (y + h • ∑ j ∈ range i, a i j • k j)) + (y + h • ∑ j ∈ range i, a i j • k j) := by abel
      have g1 : ‖y + h • ∑ j ∈ range i, a i j • k j‖ ≤ ‖y‖ + h * ∑ j ∈ range i, |a i j| * ‖k j‖ := by
        refine (norm_add_le _ _).trans (add_le_add le_rfl ?_)
        rw [norm_smul, Real.norm_eq_abs, abs_of_nonneg hh]
        exact mul_le_mul_of_nonneg_left h2 hh
      have g2 : h * ∑ j ∈ range i, |a i j| * ‖k j‖ ≤ δ₀ * (A * (q ^ i * R)) := mul_le_mul hhδ h1 h1' hδ₀
      have g3 : κ * (Z + h * ∑ j ∈ range i, |a i j| * ‖k j‖) ≤ 1 * (Z + h * ∑ j ∈ range i, |a i j| * ‖k j‖) :=
        mul_le_mul_of_nonneg_right hκ (by positivity)
      rw [e]
      refine (norm_add_le _ _).trans ?_
      linarith [ht i hi]
    have h4 : ‖k i‖ ≤ ‖k i - f (t i)‖ + (‖f (t i) - f 0‖ + ‖f 0‖) := by
      have e : k i = (k i - f (t i)) + ((f (t i) - f 0) + f 0) := by abel
      calc ‖k i‖ = ‖(k i - f (t i)) + ((f (t i) - f 0) + f 0)‖ := by rw [← e]
        _ ≤ _ := (norm_add_le _ _).trans (add_le_add le_rfl (norm_add_le _ _))
    have h5 : ‖f (t i) - f 0‖ ≤ L * (2 * (Z + δ₀ * (A * (q ^ i * R)))) := by
      refine (hf _ _).trans (mul_le_mul_of_nonneg_left ?_ hL)
      rw [sub_zero]
      exact h3
    have h6 : R ≤ q ^ i * R := le_mul_of_one_le_left hR0 (one_le_pow₀ hq1)
    calc ‖k i‖ ≤ 1 + (L * (2 * (Z + δ₀ * (A * (q ^ i * R)))) + ‖f 0‖) := by linarith [hk i hi]
      _ = R + 2 * L * δ₀ * A * (q ^ i * R) := by rw [hR]; ring
      _ ≤ q ^ i * R + 2 * L * δ₀ * A * (q ^ i * R) := by linarith
      _ = q ^ (i + 1) * R := by rw [pow_succ, hq]; ring

/-- The derivatives in such a step are no larger than a multiple of the state. -/
lemma RoundedStep.stages {κ θ : ℝ} (hκ : κ ≤ 1) (hθ : θ ≤ 1) {s : ℕ} {a : ℕ → ℕ → ℝ} {δ₀ A h : ℝ} (hh : 0 ≤ h)
    (hL : 0 ≤ L) (hf : ∀ a b, ‖f a - f b‖ ≤ L * ‖a - b‖) (hhδ : h ≤ δ₀) (hA : ∀ i, i < s → ∑ j ∈ range i, |a i j| ≤ A)
    {y : E} {k t : ℕ → E} (hk : ∀ i, i < s → ‖k i - f (t i)‖ ≤ θ)
    (ht : ∀ i, i < s → ‖t i - (y + h • ∑ j ∈ range i, a i j • k j)‖ ≤ κ * (‖y‖ + h * ∑ j ∈ range i, |a i j| * ‖k j‖)) :
    ∀ i, i < s → ‖k i‖ ≤ (1 + 2 * L * δ₀ * A) ^ (i + 1) * (1 + ‖f 0‖ + 2 * L * ‖y‖) :=
  RoundedStep.stages_within hκ hθ hh hL hf hhδ hA le_rfl hk ht

/-- **Rounded steps follow a solution**, up to `δ ^ p`, the error of the derivatives, and the error of a sum divided by
the length of the shortest step. -/
lemma rounded_follows (hL : 0 ≤ L) (hf : ∀ a b, ‖f a - f b‖ ≤ L * ‖a - b‖) {s : ℕ} {a : ℕ → ℕ → ℝ} {b : ℕ → ℝ}
    {p : ℕ} {η C δ₀ X : ℝ} {K : ℕ → ℝ → ℝ → E} (hη : 0 ≤ η) (hA : Accurate f T x s a b p η K C δ₀) (hlow : Lower s a)
    (hX : ∀ t ∈ Set.Icc 0 T, ‖x t‖ ≤ X) :
    ∃ C', 0 ≤ C' ∧ ∀ κ θ dmin : ℝ, 0 ≤ κ → κ ≤ 1 → 0 ≤ θ → θ ≤ 1 → 0 < dmin → κ ≤ dmin → ∀ δ, δ ≤ δ₀ →
      Follows (LinearMap.id : E →ₗ[ℝ] E) x T C' (δ ^ p + η + θ + κ / dmin) δ
        (fun h y y' => dmin ≤ h ∧ RoundedStep f κ θ s a b h y y') := by
  obtain ⟨C₁, hC₁, hfol⟩ := erk_follows (V := E) (π := LinearMap.id) hL hf (fun _ => 0) hη hA hlow
  have hδ₀ := hA.pos
  obtain ⟨A, hAd⟩ : ∃ A, A = ∑ i ∈ range s, ∑ j ∈ range i, |a i j| := ⟨_, rfl⟩
  have hA0 : 0 ≤ A := by rw [hAd]; positivity
  have hrow : ∀ i, i < s → ∑ j ∈ range i, |a i j| ≤ A := fun i hi => by
    rw [hAd]
    exact single_le_sum (f := fun i => ∑ j ∈ range i, |a i j|) (fun i _ => sum_nonneg fun j _ => abs_nonneg _) (mem_range.2 hi)
  obtain ⟨β, hβ⟩ : ∃ β, β = ∑ i ∈ range s, |b i| := ⟨_, rfl⟩
  have hβ0 : 0 ≤ β := by rw [hβ]; positivity
  obtain ⟨Q, hQ⟩ : ∃ Q, Q = (1 + 2 * L * δ₀ * A) ^ s := ⟨_, rfl⟩
  have hq1 : 1 ≤ 1 + 2 * L * δ₀ * A := by linarith [show 0 ≤ 2 * L * δ₀ * A by positivity]
  have hQ0 : 0 ≤ Q := by rw [hQ]; positivity
  obtain ⟨X', hX'⟩ : ∃ X', X' = max X 0 := ⟨_, rfl⟩
  have hX0 : 0 ≤ X' := by rw [hX']; exact le_max_right _ _
  -- `c₁`: derivatives are at most `c₁ (1 + e)`; `c₂`: sums are at most `c₂ (1 + e)`
  obtain ⟨c₁, hc₁⟩ : ∃ c, c = Q * (1 + ‖f 0‖ + 2 * L * (X' + 1)) := ⟨_, rfl⟩
  have hc₁0 : 0 ≤ c₁ := by rw [hc₁]; positivity
  obtain ⟨c₂, hc₂⟩ : ∃ c, c = X' + 1 + δ₀ * ((A + β) * c₁) := ⟨_, rfl⟩
  have hc₂0 : 0 ≤ c₂ := by rw [hc₂]; positivity
  refine ⟨C₁ * (1 + L * c₂ * δ₀ + L * c₂ * δ₀) + c₂ + c₂, by positivity, ?_⟩
  rintro κ θ dmin hκ0 hκ hθ0 hθ hdm hκd δ hδ t h y y' ht hh hhδ hT ⟨hdh, k, ts, hk, hts, hy'⟩
  have hhδ₀ := hhδ.trans hδ
  simp only [LinearMap.id_coe, id_eq]
  obtain ⟨e, he⟩ : ∃ e, e = ‖y - x t‖ := ⟨_, rfl⟩
  have he0 : 0 ≤ e := by rw [he]; positivity
  have hy : ‖y‖ ≤ (X' + 1) * (1 + e) := by
    have h1 : ‖y‖ ≤ ‖y - x t‖ + ‖x t‖ := by simpa using norm_add_le (y - x t) (x t)
    have h2 : ‖x t‖ ≤ X' := (hX t ⟨ht, by linarith⟩).trans (by rw [hX']; exact le_max_left _ _)
    nlinarith
  have hstage : ∀ i, i < s → ‖k i‖ ≤ c₁ * (1 + e) := by
    intro i hi
    refine (RoundedStep.stages hκ hθ hh.le hL hf hhδ₀ hrow hk hts i hi).trans ?_
    have h1 : (1 + 2 * L * δ₀ * A) ^ (i + 1) ≤ Q := by rw [hQ]; exact pow_le_pow_right₀ hq1 hi
    have h2 : 1 + ‖f 0‖ + 2 * L * ‖y‖ ≤ (1 + ‖f 0‖ + 2 * L * (X' + 1)) * (1 + e) := by
      have g1 : 2 * L * ‖y‖ ≤ 2 * L * ((X' + 1) * (1 + e)) := by gcongr
      have g2 : 0 ≤ (1 + ‖f 0‖) * e := by positivity
      nlinarith
    rw [hc₁, show Q * (1 + ‖f 0‖ + 2 * L * (X' + 1)) * (1 + e) = Q * ((1 + ‖f 0‖ + 2 * L * (X' + 1)) * (1 + e)) by ring]
    exact mul_le_mul h1 h2 (by positivity) hQ0
  have hsum : ∀ (w : ℕ → ℝ) (N : ℕ) (W : ℝ), N ≤ s → ∑ j ∈ range N, |w j| ≤ W → W ≤ A + β →
      ‖y‖ + h * ∑ j ∈ range N, |w j| * ‖k j‖ ≤ c₂ * (1 + e) := by
    intro w N W hN hW hWA
    have h1 : ∑ j ∈ range N, |w j| * ‖k j‖ ≤ (A + β) * (c₁ * (1 + e)) := by
      calc ∑ j ∈ range N, |w j| * ‖k j‖ ≤ ∑ j ∈ range N, |w j| * (c₁ * (1 + e)) := sum_le_sum fun j hj =>
            mul_le_mul_of_nonneg_left (hstage j (by have := mem_range.1 hj; omega)) (abs_nonneg _)
        _ = (∑ j ∈ range N, |w j|) * (c₁ * (1 + e)) := by rw [sum_mul]
        _ ≤ (A + β) * (c₁ * (1 + e)) := mul_le_mul_of_nonneg_right (hW.trans hWA) (by positivity)
    have h2 : h * ∑ j ∈ range N, |w j| * ‖k j‖ ≤ δ₀ * ((A + β) * (c₁ * (1 + e))) :=
      mul_le_mul hhδ₀ h1 (by positivity) hδ₀.le
    rw [hc₂]
    calc _ ≤ (X' + 1) * (1 + e) + δ₀ * ((A + β) * (c₁ * (1 + e))) := add_le_add hy h2
      _ = _ := by ring
  -- the step with exact sums and derivatives computed up to `θ'`
  obtain ⟨θ', hθ'⟩ : ∃ θ', θ' = θ + L * (κ * (c₂ * (1 + e))) := ⟨_, rfl⟩
  have hθ'0 : 0 ≤ θ' := by rw [hθ']; positivity
  let z : ℕ → E := fun i => y + h • ∑ j ∈ range i, a i j • k j
  have hdev : ∀ i, i < s → ‖k i - f (z i)‖ ≤ θ' := by
    intro i hi
    have h1 : ‖f (ts i) - f (z i)‖ ≤ L * (κ * (c₂ * (1 + e))) := by
      refine (hf _ _).trans (mul_le_mul_of_nonneg_left ((hts i hi).trans ?_) hL)
      exact mul_le_mul_of_nonneg_left (hsum (a i) i A hi.le (hrow i hi) (by linarith)) hκ0
    have e1 : k i - f (z i) = (k i - f (ts i)) + (f (ts i) - f (z i)) := by abel
    rw [e1, hθ']
    exact (norm_add_le _ _).trans (add_le_add (hk i hi) h1)
  have hex := hfol (fun i _ w => if i < s then f w + (k i - f (z i)) else f w) θ' hθ'0 (fun i _ w => by
    simp only [LinearMap.id_coe, id_eq]
    split_ifs with hi
    · rw [add_sub_cancel_left]; exact hdev i hi
    · rw [sub_self, norm_zero]; exact hθ'0) δ hδ t h y (y + h • ∑ i ∈ range s, b i • k i) ht hh hhδ hT
    ⟨0, 0, k, fun i hi => by
      simp only [zero_add, if_pos hi]
      show k i = f (z i) + (k i - f (z i))
      abel, rfl⟩
  simp only [LinearMap.id_coe, id_eq, ← he] at hex
  have hlast : ‖y' - (y + h • ∑ i ∈ range s, b i • k i)‖ ≤ κ * (c₂ * (1 + e)) :=
    hy'.trans (mul_le_mul_of_nonneg_left (hsum b s β le_rfl hβ.ge (by linarith)) hκ0)
  obtain ⟨ω, hω⟩ : ∃ ω, ω = κ / dmin := ⟨_, rfl⟩
  have hω0 : 0 ≤ ω := by rw [hω]; positivity
  have hω1 : ω ≤ 1 := by rw [hω]; exact (div_le_one hdm).2 hκd
  have hκω : κ ≤ ω * h := by
    rw [hω, div_mul_eq_mul_div, le_div_iff₀ hdm]
    exact mul_le_mul_of_nonneg_left hdh hκ0
  have hκω' : κ ≤ ω * δ₀ := hκω.trans (mul_le_mul_of_nonneg_left hhδ₀ hω0)
  rw [← hω, ← he]
  have e1 : (y' - x (t + h)) - (y - x t) = (y' - (y + h • ∑ i ∈ range s, b i • k i)) +
      ((y + h • ∑ i ∈ range s, b i • k i - x (t + h)) - (y - x t)) := by abel
  rw [e1]
  refine (norm_add_le _ _).trans ((add_le_add hlast hex).trans ?_)
  have g1 : κ * (c₂ * (1 + e)) ≤ ω * h * (c₂ * (1 + e)) := mul_le_mul_of_nonneg_right hκω (by positivity)
  have g2 : θ' ≤ θ + L * (ω * δ₀ * (c₂ * (1 + e))) := by
    rw [hθ']
    gcongr
  have g3 : ω * e ≤ e := by nlinarith
  have hδ0 : 0 ≤ δ := hh.le.trans hhδ
  have hd0 : 0 ≤ δ ^ p := by positivity
  have g4 : ω * (1 + e) ≤ e + (δ ^ p + η + θ + ω) := by linarith
  obtain ⟨W, hW⟩ : ∃ W, W = e + (δ ^ p + η + θ + ω) := ⟨_, rfl⟩
  rw [← hW] at g4 ⊢
  have hW0 : 0 ≤ W := by rw [hW]; positivity
  have g5 : e + (δ ^ p + η + θ') ≤ (1 + L * c₂ * δ₀ + L * c₂ * δ₀) * W := by
    have : L * (ω * δ₀ * (c₂ * (1 + e))) ≤ L * c₂ * δ₀ * W := by
      rw [show L * (ω * δ₀ * (c₂ * (1 + e))) = L * c₂ * δ₀ * (ω * (1 + e)) by ring]
      gcongr
    have h0 : 0 ≤ L * c₂ * δ₀ * W := by positivity
    calc e + (δ ^ p + η + θ') ≤ e + (δ ^ p + η + θ) + L * c₂ * δ₀ * W := by linarith
      _ ≤ W + L * c₂ * δ₀ * W := by linarith
      _ ≤ (1 + L * c₂ * δ₀ + L * c₂ * δ₀) * W := by linarith
  have g6 : ω * h * (c₂ * (1 + e)) ≤ (c₂ + c₂) * W * h := by
    rw [show ω * h * (c₂ * (1 + e)) = c₂ * (ω * (1 + e)) * h by ring]
    have : c₂ * (ω * (1 + e)) ≤ c₂ * W := by gcongr
    have h0 : 0 ≤ c₂ * W := by positivity
    exact mul_le_mul_of_nonneg_right (by linarith) hh.le
  calc κ * (c₂ * (1 + e)) + C₁ * (e + (δ ^ p + η + θ')) * h
      ≤ (c₂ + c₂) * W * h + C₁ * ((1 + L * c₂ * δ₀ + L * c₂ * δ₀) * W) * h := by
        have : C₁ * (e + (δ ^ p + η + θ')) * h ≤ C₁ * ((1 + L * c₂ * δ₀ + L * c₂ * δ₀) * W) * h := by gcongr
        linarith
    _ = _ := by ring

end

end NB
