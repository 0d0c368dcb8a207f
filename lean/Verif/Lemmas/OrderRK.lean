import Verif.Lemmas.OrderSteps
import Verif.Lemmas.ConvergeRK

/-
The implicit schemes with a number of sweeps: the order of the table, or one more than the number of sweeps.
-/

namespace NB

open Finset

section
variable {V E : Type} [AddCommGroup V] [Module ℝ V] [NormedAddCommGroup E] [NormedSpace ℝ E]
variable {π : V →ₗ[ℝ] E} {f : E → E} {L : ℝ} {x : ℝ → E} {T : ℝ}

/-- What is known of the stages kept by the implicit solvers: they are near the derivative. -/
def StagesNear (π : V →ₗ[ℝ] E) (f : E → E) (c θ δ : ℝ) (s : ℕ) (k : ℕ → V) (y : V) : Prop :=
  StagesOk π f θ s k y ∧ ∀ i, i < s → ‖π (k i) - f (π y)‖ ≤ c * (δ * (‖f (π y)‖ + θ) + θ)

/-- One sweep makes the error of the stages smaller. -/
lemma sweep_error (hL : 0 ≤ L) (hf : ∀ a b, ‖f a - f b‖ ≤ L * ‖a - b‖) {bt : BT ℝ} (hr : C65.FullRows bt) {p : ℕ}
    {η C δ₀ A : ℝ} {K : ℕ → ℝ → ℝ → E} (hA : Accurate f T x bt.steps bt.a bt.b2 p η K C δ₀)
    (hrow : ∀ i, i < bt.steps → ∑ j ∈ range bt.steps, |bt.a i j| ≤ A) {F : ℕ → ℝ → V → V} {θ : ℝ} (hθ : 0 ≤ θ)
    (hF : Within π f θ F) (y : V) (t t' h : ℝ) (ht : 0 ≤ t') (hh : 0 < h) (hδ : h ≤ δ₀) (hT : t' ≤ T) (hA0 : 0 ≤ A)
    (hq : 2 * (L * h * A) ≤ 1) (r : RKState V) (n₀ : ℕ) {E₀ : ℝ} (hE : 0 ≤ E₀)
    (h0 : ∀ j, j < bt.steps → ‖π (r.k j) - K j t' h‖ ≤ E₀) :
    ∀ i, i < bt.steps → ‖π ((rkRefine F bt y t h (r, n₀)).1.k i) - K i t' h‖ ≤
      L * h * A * E₀ + 2 * (L * ‖π y - x t'‖ + C * h ^ p + θ) := by
  have hs := (C65.refine_sweep F bt y t h r n₀ hr hh.ne').2.2
  set q := (rkRefine F bt y t h (r, n₀)).1 with hqd
  set e := ‖π y - x t'‖ with he
  have he0 : 0 ≤ e := norm_nonneg _
  have hC := hA.nonneg
  set R := L * e + C * h ^ p + θ with hR
  have hR0 : 0 ≤ R := by positivity
  have hq0 : 0 ≤ L * h * A := by positivity
  intro i
  induction i using Nat.strong_induction_on with
  | _ i ih =>
    intro hi
    have hbd : ∀ j, j ∈ range bt.steps → ‖π (if j < i then q.k j else r.k j) - K j t' h‖ ≤ E₀ + 2 * R := by
      intro j hj
      by_cases hji : j < i
      · rw [if_pos hji]
        have h1 := ih j hji (mem_range.1 hj)
        have : L * h * A * E₀ ≤ E₀ := by
          have := mul_le_mul_of_nonneg_right hq hE
          have := mul_nonneg hq0 hE
          linarith
        linarith
      · rw [if_neg hji]
        have := h0 j (mem_range.1 hj)
        linarith
    have h1 := hA.stage t' h ht hh.le hδ hT i hi
    generalize hz : y + h • ∑ j ∈ range bt.steps, bt.a i j • (if j < i then q.k j else r.k j) = z
    have h2 : ‖π (q.k i) - f (π z)‖ ≤ θ := by rw [hs i hi, hz]; exact hF _ _ _
    have h3 : ‖f (π z) - f (x t' + h • ∑ j ∈ range bt.steps, bt.a i j • K j t' h)‖ ≤ L * (e + h * (A * (E₀ + 2 * R))) := by
      refine (hf _ _).trans (mul_le_mul_of_nonneg_left ?_ hL)
      have e1 : π z - (x t' + h • ∑ j ∈ range bt.steps, bt.a i j • K j t' h) =
          (π y - x t') + h • ∑ j ∈ range bt.steps, bt.a i j • (π (if j < i then q.k j else r.k j) - K j t' h) := by
        rw [← hz, map_add, map_smul, map_sum]
        simp only [map_smul, smul_sub, sum_sub_distrib]
        abel
      rw [e1]
      refine (norm_add_le _ _).trans (add_le_add le_rfl ?_)
      rw [norm_smul, Real.norm_eq_abs, abs_of_pos hh]
      refine mul_le_mul_of_nonneg_left ((norm_sum_le _ _).trans ?_) hh.le
      calc _ ≤ ∑ j ∈ range bt.steps, |bt.a i j| * (E₀ + 2 * R) := sum_le_sum fun j hj => by
            rw [norm_smul, Real.norm_eq_abs]
            exact mul_le_mul_of_nonneg_left (hbd j hj) (abs_nonneg _)
        _ = (∑ j ∈ range bt.steps, |bt.a i j|) * (E₀ + 2 * R) := by rw [sum_mul]
        _ ≤ _ := mul_le_mul_of_nonneg_right (hrow i hi) (by positivity)
    have e2 : π (q.k i) - K i t' h = (π (q.k i) - f (π z)) +
        ((f (π z) - f (x t' + h • ∑ j ∈ range bt.steps, bt.a i j • K j t' h)) -
          (K i t' h - f (x t' + h • ∑ j ∈ range bt.steps, bt.a i j • K j t' h))) := by abel
    rw [e2]
    have h4 : 2 * (L * h * A) * R ≤ 1 * R := mul_le_mul_of_nonneg_right hq hR0
    calc _ ≤ θ + (L * (e + h * (A * (E₀ + 2 * R))) + C * h ^ p) :=
          (norm_add_le _ _).trans (add_le_add h2 ((norm_sub_le _ _).trans (add_le_add h3 h1)))
      _ = L * h * A * E₀ + (R + 2 * (L * h * A) * R) := by rw [hR]; ring
      _ ≤ _ := by linarith

/-- (Arithmetic.) -/
lemma start_arith {c δ Φ B L e θ C h : ℝ} (hc : 0 ≤ c) (hC : 0 ≤ C) (hL : 0 ≤ L) (hB : 0 ≤ B) (hδ : 0 ≤ δ) (hδ1 : δ ≤ 1)
    (hθ : 0 ≤ θ) (he : 0 ≤ e) (hh : h ≤ δ) (hΦ : Φ ≤ B + L * e + θ) :
    c * (δ * Φ + θ) + (L * e + C * h) ≤ (c * B + C + c * L + L + 2 * c) * (δ + e + θ) := by
  have h4 : c * (δ * Φ + θ) ≤ c * (δ * B + L * e + 2 * θ) := by
    refine mul_le_mul_of_nonneg_left ?_ hc
    have g1 : δ * Φ ≤ δ * (B + L * e + θ) := mul_le_mul_of_nonneg_left hΦ hδ
    have g2 : δ * (L * e + θ) ≤ 1 * (L * e + θ) := mul_le_mul_of_nonneg_right hδ1 (by positivity)
    linarith
  have h5 : C * h ≤ C * δ := mul_le_mul_of_nonneg_left hh hC
  have h6 : 0 ≤ c * B * (e + θ) + C * (e + θ) + (c * L + L) * (δ + θ) + 2 * c * (δ + e) := by positivity
  linarith

/-- (Arithmetic.) -/
lemma end_arith {L C A G δ η θ e h β E₀ R : ℝ} {m p : ℕ} (hL : 0 ≤ L) (hC : 0 ≤ C) (hA : 0 ≤ A) (hG : 0 ≤ G) (hδ : 0 ≤ δ)
    (hδ1 : δ ≤ 1) (hη : 0 ≤ η) (hθ : 0 ≤ θ) (he : 0 ≤ e) (hh : 0 ≤ h) (hle : h ≤ δ) (hβ : 0 ≤ β) (hp : p ≤ m + 1)
    (hE : E₀ = G * (δ + e + θ)) (hR : R = L * e + C * h ^ p + θ) :
    β * ((L * h * A) ^ m * E₀ + 4 * R) + C * (h ^ p + η) ≤
      (β * ((L * A) ^ m * G + 4 * (L + C + 1)) + C) * (e + (δ ^ p + η + θ)) := by
  have h6 : h ^ p ≤ δ ^ p := pow_le_pow_left₀ hh hle p
  have hp0 : 0 ≤ h ^ p := by positivity
  have hd0 : 0 ≤ δ ^ p := hp0.trans h6
  obtain ⟨g, hg⟩ : ∃ g, g = e + (δ ^ p + η + θ) := ⟨_, rfl⟩
  rw [← hg]
  have h7 : R ≤ (L + C + 1) * g := by
    have : 0 ≤ L * (δ ^ p + η + θ) + C * (e + η + θ) + (e + δ ^ p + η) + C * (δ ^ p - h ^ p) := by
      have : 0 ≤ δ ^ p - h ^ p := by linarith
      positivity
    rw [hR, hg]
    linarith
  have h8 : (L * h * A) ^ m * E₀ ≤ (L * A) ^ m * G * g := by
    have g1 : (L * h * A) ^ m ≤ (L * A) ^ m * δ ^ m := by
      rw [← mul_pow]
      refine pow_le_pow_left₀ (by positivity) ?_ _
      have := mul_le_mul_of_nonneg_left hle (mul_nonneg hL hA)
      linarith
    have g2 : δ ^ m * (δ + e + θ) ≤ g := by
      have k1 : δ ^ m ≤ 1 := pow_le_one₀ hδ hδ1
      have k2 : δ ^ (m + 1) ≤ δ ^ p := pow_le_pow_of_le_one hδ hδ1 hp
      have k3 : δ ^ m * (e + θ) ≤ 1 * (e + θ) := mul_le_mul_of_nonneg_right k1 (by positivity)
      rw [pow_succ] at k2
      rw [hg]
      linarith
    calc (L * h * A) ^ m * E₀ ≤ (L * A) ^ m * δ ^ m * E₀ :=
          mul_le_mul_of_nonneg_right g1 (by rw [hE]; positivity)
      _ = (L * A) ^ m * G * (δ ^ m * (δ + e + θ)) := by rw [hE]; ring
      _ ≤ _ := mul_le_mul_of_nonneg_left g2 (by positivity)
  have h9 : C * (h ^ p + η) ≤ C * g := mul_le_mul_of_nonneg_left (by rw [hg]; linarith) hC
  calc β * ((L * h * A) ^ m * E₀ + 4 * R) + C * (h ^ p + η) ≤
        β * ((L * A) ^ m * G * g + 4 * ((L + C + 1) * g)) + C * g := by gcongr
    _ = _ := by ring

/-- **The implicit schemes follow the solutions** up to their order, if the sweeps are at least as many less one. -/
lemma implicit_follows (hL : 0 ≤ L) (hf : ∀ a b, ‖f a - f b‖ ≤ L * ‖a - b‖) (bt : BT ℝ) (cf : RKConf ℝ)
    (hi : bt.implicit = true) (hr : C65.FullRows bt) (hre : 1 ≤ cf.refine) {p : ℕ} (hp : p ≤ cf.refine + 1)
    {η C δ₀ B : ℝ} {K : ℕ → ℝ → ℝ → E} (hη : 0 ≤ η) (hA : Accurate f T x bt.steps bt.a bt.b2 p η K C δ₀) (hB0 : 0 ≤ B)
    (hB : ∀ t ∈ Set.Icc (0 : ℝ) T, ‖f (x t)‖ ≤ B) :
    ∃ C' c δ₁, 0 ≤ C' ∧ 0 < δ₁ ∧ ∀ (F : ℕ → ℝ → V → V) (θ : ℝ), 0 ≤ θ → Within π f θ F → ∀ δ, δ ≤ δ₁ →
      ∀ first r cc y t h, 0 < h → h ≤ δ → (first = true ∨ StagesNear π f c θ δ bt.steps r.k y) →
      StagesNear π f c θ δ bt.steps (rkStages F bt cf first y t h (r, cc)).1.k y ∧
      StagesNear π f c θ δ bt.steps (rkStages F bt cf first y t h (r, cc)).1.k
        (endOf bt h y (rkStages F bt cf first y t h (r, cc)).1.k) ∧
      ∀ t', 0 ≤ t' → t' + h ≤ T →
        ‖(π (endOf bt h y (rkStages F bt cf first y t h (r, cc)).1.k) - x (t' + h)) - (π y - x t')‖ ≤
          C' * (‖π y - x t'‖ + (δ ^ p + η + θ)) * h := by
  obtain ⟨C₁, κ, δ₂, -, hκ, hδ₂, hst⟩ := implicit_stages (π := π) hL hf bt cf hi hr hre
  obtain ⟨A, hAd⟩ : ∃ A, A = ∑ i ∈ range bt.steps, ∑ j ∈ range bt.steps, |bt.a i j| := ⟨_, rfl⟩
  have hA0 : 0 ≤ A := hAd ▸ sum_nonneg fun i _ => sum_nonneg fun j _ => abs_nonneg _
  have hrow : ∀ i, i < bt.steps → ∑ j ∈ range bt.steps, |bt.a i j| ≤ A := fun i hi => hAd ▸
    single_le_sum (f := fun i => ∑ j ∈ range bt.steps, |bt.a i j|)
      (fun i _ => sum_nonneg fun j _ => abs_nonneg _) (mem_range.2 hi)
  obtain ⟨γ, hγ⟩ : ∃ γ, γ = ∑ i ∈ range bt.steps, |bt.c i| := ⟨_, rfl⟩
  have hγ0 : 0 ≤ γ := hγ ▸ sum_nonneg fun i _ => abs_nonneg _
  have hci : ∀ i, i < bt.steps → |bt.c i| ≤ γ := fun i hi => hγ ▸
    single_le_sum (f := fun i => |bt.c i|) (fun i _ => abs_nonneg _) (mem_range.2 hi)
  set β := ∑ i ∈ range bt.steps, |bt.b2 i| with hβ
  have hβ0 : 0 ≤ β := sum_nonneg fun i _ => abs_nonneg _
  have hC := hA.nonneg
  have hδ₀ := hA.pos
  obtain ⟨c, hc⟩ : ∃ c, c = κ + L * γ + 1 := ⟨_, rfl⟩
  have hc0 : 0 ≤ c := by rw [hc]; positivity
  obtain ⟨G, hG⟩ : ∃ G, G = c * B + C + c * L + L + 2 * c := ⟨_, rfl⟩
  have hG0 : 0 ≤ G := by rw [hG]; positivity
  obtain ⟨m, hm⟩ : ∃ m, m = cf.refine := ⟨_, rfl⟩
  obtain ⟨D, hD⟩ : ∃ D, D = 2 * (L * A) + 1 := ⟨_, rfl⟩
  have hD0 : 0 < D := by rw [hD]; positivity
  obtain ⟨Q, hQ⟩ : ∃ Q, Q = (L * A) ^ m * G + 4 * (L + C + 1) := ⟨_, rfl⟩
  have hQ0 : 0 ≤ Q := by rw [hQ]; positivity
  refine ⟨β * Q + C, c, min (min δ₀ δ₂) (min 1 (1 / D)), by positivity, by positivity, ?_⟩
  intro F θ hθ hF δ hδ first r cc y t h hh hle hJ
  have hδ0 : δ ≤ δ₀ := hδ.trans ((min_le_left _ _).trans (min_le_left _ _))
  have hδ2 : δ ≤ δ₂ := hδ.trans ((min_le_left _ _).trans (min_le_right _ _))
  have hδ1 : δ ≤ 1 := hδ.trans ((min_le_right _ _).trans (min_le_left _ _))
  have hδD : δ ≤ 1 / D := hδ.trans ((min_le_right _ _).trans (min_le_right _ _))
  have hδpos : 0 < δ := hh.trans_le hle
  obtain ⟨s1, s2, s3, s4, -⟩ := hst F θ hθ hF first r cc y t h hh (hle.trans hδ2) (hJ.imp_right fun h => h.1)
  have hnear : ∀ Φ : ℝ, 0 ≤ Φ → κ * h * Φ + θ ≤ c * (δ * Φ + θ) := by
    intro Φ hΦ
    have h1 : κ * h * Φ ≤ κ * δ * Φ := by gcongr
    have h2 : 0 ≤ (L * γ + 1) * (δ * Φ) + (κ + L * γ) * θ := by positivity
    rw [hc]; nlinarith
  refine ⟨⟨s1, fun i hi => (s3 i hi).trans (hnear _ (by positivity))⟩,
    ⟨s2, fun i hi => (s4 i hi).trans (hnear _ (by positivity))⟩, fun t' ht hT => ?_⟩
  set e := ‖π y - x t'‖ with he
  have he0 : 0 ≤ e := norm_nonneg _
  set Φ := ‖f (π y)‖ + θ with hΦ
  have hΦ0 : 0 ≤ Φ := by positivity
  -- the stages to start with
  have hstart : ∀ i, i < bt.steps →
      ‖π ((if first then rkFirstApproach F bt y t h (r, cc) else (r, cc)).1.k i) - f (π y)‖ ≤ c * (δ * Φ + θ) := by
    cases first with
    | false => simpa using hJ.resolve_left (by simp) |>.2
    | true =>
      intro i hi
      simp only [if_true]
      rw [(C65.first_approach_stages F bt y t h r cc).2 i hi]
      have hd0 : ‖π (F cc t y)‖ ≤ Φ := by
        have h1 : ‖π (F cc t y)‖ ≤ ‖π (F cc t y) - f (π y)‖ + ‖f (π y)‖ := by
          simpa using norm_add_le (π (F cc t y) - f (π y)) (f (π y))
        have := hF cc t y
        linarith
      generalize hz : y + (h * bt.c i) • F cc t y = z
      have h1 : ‖f (π z) - f (π y)‖ ≤ L * (δ * γ * Φ) := by
        refine (hf _ _).trans (mul_le_mul_of_nonneg_left ?_ hL)
        rw [← hz, map_add, map_smul, add_sub_cancel_left, norm_smul, Real.norm_eq_abs, abs_mul, abs_of_pos hh]
        exact mul_le_mul (mul_le_mul hle (hci i hi) (abs_nonneg _) hδpos.le) hd0 (norm_nonneg _) (by positivity)
      refine (norm_sub_le_norm_sub_add_norm_sub _ (f (π z)) _).trans ?_
      have h2 := hF (cc + 1 + i) (t + bt.c i * h) z
      have h3 : 0 ≤ (κ + 1) * (δ * Φ) + (κ + L * γ) * θ := by positivity
      calc _ ≤ θ + L * (δ * γ * Φ) := add_le_add h2 h1
        _ ≤ _ := by rw [hc]; nlinarith
  obtain ⟨E₀, hE⟩ : ∃ E₀, E₀ = G * (δ + e + θ) := ⟨_, rfl⟩
  have hE0 : 0 ≤ E₀ := by rw [hE]; positivity
  have hΦB : Φ ≤ B + L * e + θ := by
    have h1 := hf (π y) (x t')
    have h2 := hB t' ⟨ht, by linarith⟩
    have h3 : ‖f (π y)‖ ≤ ‖f (π y) - f (x t')‖ + ‖f (x t')‖ := by
      simpa using norm_add_le (f (π y) - f (x t')) (f (x t'))
    rw [hΦ]
    linarith
  have hfirst : ∀ i, i < bt.steps →
      ‖π ((if first then rkFirstApproach F bt y t h (r, cc) else (r, cc)).1.k i) - K i t' h‖ ≤ E₀ := by
    intro i hi
    have h1 := hstart i hi
    have h2 := hf (π y) (x t')
    have h3 := hA.start t' h ht hh.le (hle.trans hδ0) (by linarith) i hi
    have e1 : π ((if first then rkFirstApproach F bt y t h (r, cc) else (r, cc)).1.k i) - K i t' h =
        (π ((if first then rkFirstApproach F bt y t h (r, cc) else (r, cc)).1.k i) - f (π y)) +
        ((f (π y) - f (x t')) - (K i t' h - f (x t'))) := by abel
    rw [e1]
    refine ((norm_add_le _ _).trans (add_le_add h1 ((norm_sub_le _ _).trans (add_le_add h2 h3)))).trans ?_
    rw [hE, hG]
    exact start_arith hc0 hC hL hB0 hδpos.le hδ1 hθ he0 hle hΦB
  have hqs : 2 * (L * h * A) ≤ 1 := by
    have h1 : δ * D ≤ 1 := by rwa [le_div_iff₀ hD0] at hδD
    have h2 : 2 * (L * h * A) ≤ 2 * (L * δ * A) := by gcongr
    rw [hD] at h1
    nlinarith
  obtain ⟨R, hR⟩ : ∃ R, R = L * e + C * h ^ p + θ := ⟨_, rfl⟩
  have hR0 : 0 ≤ R := by rw [hR]; positivity
  have hq0 : 0 ≤ L * h * A := by positivity
  have hall : ∀ i, i < bt.steps → ‖π ((rkStages F bt cf first y t h (r, cc)).1.k i) - K i t' h‖ ≤
      (L * h * A) ^ m * E₀ + 4 * R := by
    rw [hm]
    have e1 : rkStages F bt cf first y t h (r, cc) =
        foldN cf.refine (if first then rkFirstApproach F bt y t h (r, cc) else (r, cc))
          (fun _ s => rkRefine F bt y t h s) := by
      unfold rkStages rkImplicit
      rw [if_pos hi]
    rw [e1]
    exact foldN_inv (n := cf.refine) (s := if first then rkFirstApproach F bt y t h (r, cc) else (r, cc))
      (f := fun _ s => rkRefine F bt y t h s)
      (P := fun m (p : RKState V × ℕ) => ∀ i, i < bt.steps → ‖π (p.1.k i) - K i t' h‖ ≤ (L * h * A) ^ m * E₀ + 4 * R)
      (fun i hi => (hfirst i hi).trans (by rw [pow_zero, one_mul]; linarith)) (fun m p _ hp i hi => by
        refine (sweep_error hL hf hr hA hrow hθ hF y t t' h ht hh (hle.trans hδ0) (by linarith) hA0 hqs p.1 p.2
          (E₀ := (L * h * A) ^ m * E₀ + 4 * R) (by positivity) hp i hi).trans ?_
        have h1 : 2 * (L * h * A) * R ≤ 1 * R := mul_le_mul_of_nonneg_right hqs hR0
        rw [← he, ← hR]
        calc L * h * A * ((L * h * A) ^ m * E₀ + 4 * R) + 2 * R =
              (L * h * A) ^ (m + 1) * E₀ + (2 * (2 * (L * h * A) * R) + 2 * R) := by rw [pow_succ]; ring
          _ ≤ _ := by linarith)
  have h5 := end_error hA ht hh (hle.trans hδ0) hT y _ hall
  refine h5.trans (mul_le_mul_of_nonneg_right ?_ hh.le)
  rw [hQ]
  exact end_arith hL hC hA0 hG0 hδpos.le hδ1 hη hθ he0 hh.le hle hβ0 (by rw [hm]; exact hp) hE hR

end

end NB
