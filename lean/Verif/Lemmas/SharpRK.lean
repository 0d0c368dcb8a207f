import Verif.Lemmas.Sharp

/-
The Runge-Kutta solvers drift on the two bodies of Lemmas/Circle.lean.
-/

namespace NB

open Finset Complex
open C74 (runScheme plain maxAbs)

/-- How large the derivative can be. -/
noncomputable def softB : ℝ := ‖gravity 2 twinMass 0‖ + gravityLip 2 twinMass * 2e-5

lemma softB_nonneg : 0 ≤ softB := by
  have := gravityLip_nonneg 2 twinMass
  unfold softB
  positivity

lemma soft_value {z : ℕ → ℝ} (hz : ∀ j, j < 12 → |z j| ≤ 2e-5) (k : ℕ) (t : ℝ) :
    ‖firstN (6 * 2) (twinRhs k t z)‖ ≤ softB ∧ rel (twinRhs k t z) = I * rel z := by
  refine ⟨?_, rel_deriv hz⟩
  show ‖firstN (6 * 2) (C69.newtonDeriv 2 twinMass z)‖ ≤ _
  rw [gravity_firstN]
  have h1 := gravity_lip 2 twinMass (firstN (6 * 2) z) 0
  have h2 : ‖firstN (6 * 2) z - 0‖ ≤ 2e-5 := by
    rw [sub_zero]
    exact (pi_norm_le_iff_of_nonneg (by norm_num)).2 fun j => hz j j.2
  have h3 : ‖gravity 2 twinMass (firstN (6 * 2) z)‖ ≤ ‖gravity 2 twinMass (firstN (6 * 2) z) - gravity 2 twinMass 0‖ +
      ‖gravity 2 twinMass 0‖ := by
    simpa using norm_add_le (gravity 2 twinMass (firstN (6 * 2) z) - gravity 2 twinMass 0) (gravity 2 twinMass 0)
  have h4 := mul_le_mul_of_nonneg_left h2 (gravityLip_nonneg 2 twinMass)
  unfold softB
  linarith

/-- The points at which a step evaluates the derivative are not far. -/
lemma soft_point {y : ℕ → ℝ} (hy : Inside y) {s : ℕ} {α : ℕ → ℝ} {k : ℕ → ℕ → ℝ} {h A : ℝ} (hh : 0 ≤ h)
    (hα : ∑ j ∈ range s, |α j| ≤ A) (hk : ∀ j, j < s → ‖firstN (6 * 2) (k j)‖ ≤ softB) (hs : h * (A * softB) ≤ 5e-6) :
    (∀ j, j < 12 → |(y + h • ∑ i ∈ range s, α i • k i) j| ≤ 2e-5) ∧
    ‖firstN (6 * 2) (y + h • ∑ i ∈ range s, α i • k i) - firstN (6 * 2) y‖ ≤ h * (A * softB) := by
  have h1 : ‖firstN (6 * 2) (y + h • ∑ i ∈ range s, α i • k i) - firstN (6 * 2) y‖ ≤ h * (A * softB) := by
    rw [map_add, map_smul, map_sum, add_sub_cancel_left, norm_smul, Real.norm_eq_abs, abs_of_nonneg hh]
    refine mul_le_mul_of_nonneg_left ((norm_sum_le _ _).trans ?_) hh
    calc _ ≤ ∑ i ∈ range s, |α i| * softB := sum_le_sum fun i hi => by
          rw [map_smul, norm_smul, Real.norm_eq_abs]
          exact mul_le_mul_of_nonneg_left (hk i (mem_range.1 hi)) (abs_nonneg _)
      _ = (∑ i ∈ range s, |α i|) * softB := by rw [sum_mul]
      _ ≤ _ := mul_le_mul_of_nonneg_right hα softB_nonneg
  refine ⟨fun j hj => ?_, h1⟩
  have h2 := (norm_le_pi_norm _ (⟨j, hj⟩ : Fin (6 * 2))).trans (h1.trans hs)
  have h3 : |(y + h • ∑ i ∈ range s, α i • k i) j - y j| ≤ 5e-6 := h2
  have h4 := hy j hj
  have h5 : |(y + h • ∑ i ∈ range s, α i • k i) j| ≤ |(y + h • ∑ i ∈ range s, α i • k i) j - y j| + |y j| := by
    generalize (y + h • ∑ i ∈ range s, α i • k i) j = u
    simpa using abs_add_le (u - y j) (y j)
  exact h5.trans ((add_le_add h3 h4).trans (by norm_num))

lemma rel_le {k : ℕ → ℝ} {B : ℝ} (h : ‖firstN (6 * 2) k‖ ≤ B) : ‖rel k‖ ≤ 4 * B := by
  have := rel_near (y := k) (z := 0) (d := B) (by rw [map_zero, sub_zero]; exact h)
  rwa [map_zero, sub_zero] at this

lemma rel_inside {y : ℕ → ℝ} (hy : Inside y) : ‖rel y‖ ≤ 6e-5 :=
  (rel_le (B := 1.5e-5) ((pi_norm_le_iff_of_nonneg (by norm_num)).2 fun j => hy j j.2)).trans (by norm_num)

/-- What is known of the stages of a step. -/
def SoftStages (s : ℕ) (A h : ℝ) (y : ℕ → ℝ) (k : ℕ → ℕ → ℝ) : Prop :=
  ∀ i, i < s → ‖firstN (6 * 2) (k i)‖ ≤ softB ∧
    ‖firstN (6 * 2) (k i) - gravity 2 twinMass (firstN (6 * 2) y)‖ ≤ gravityLip 2 twinMass * (h * (A * softB))

/-- A stage. -/
lemma soft_stage {y : ℕ → ℝ} (hy : Inside y) {s : ℕ} {α : ℕ → ℝ} {k : ℕ → ℕ → ℝ} {h A : ℝ} (hh : 0 ≤ h)
    (hα : ∑ j ∈ range s, |α j| ≤ A) (hk : ∀ j, j < s → ‖firstN (6 * 2) (k j)‖ ≤ softB) (hs : h * (A * softB) ≤ 5e-6)
    (n : ℕ) (t : ℝ) :
    (‖firstN (6 * 2) (twinRhs n t (y + h • ∑ i ∈ range s, α i • k i))‖ ≤ softB ∧
      ‖firstN (6 * 2) (twinRhs n t (y + h • ∑ i ∈ range s, α i • k i)) - gravity 2 twinMass (firstN (6 * 2) y)‖ ≤
        gravityLip 2 twinMass * (h * (A * softB))) ∧
    rel (twinRhs n t (y + h • ∑ i ∈ range s, α i • k i)) = I * (rel y + h * ∑ i ∈ range s, α i * rel (k i)) := by
  obtain ⟨h1, h2⟩ := soft_point hy hh hα hk hs
  obtain ⟨h3, h4⟩ := soft_value h1 n t
  refine ⟨⟨h3, ?_⟩, ?_⟩
  · have e : firstN (6 * 2) (twinRhs n t (y + h • ∑ i ∈ range s, α i • k i)) =
        gravity 2 twinMass (firstN (6 * 2) (y + h • ∑ i ∈ range s, α i • k i)) := gravity_firstN 2 twinMass _
    rw [e]
    exact (gravity_lip 2 twinMass _ _).trans (mul_le_mul_of_nonneg_left h2 (gravityLip_nonneg 2 twinMass))
  · rw [h4, map_add, map_smul, map_sum]
    simp only [map_smul, real_smul]

/-- The stages of an explicit step. -/
lemma explicit_soft {s : ℕ} {a : ℕ → ℕ → ℝ} {c : ℕ → ℝ} (hlow : Lower s a) {y : ℕ → ℝ} (hy : Inside y) {k : ℕ → ℕ → ℝ}
    {cc : ℕ} {t h A : ℝ} (hh : 0 ≤ h) (hA : ∀ i, i < s → ∑ j ∈ range s, |a i j| ≤ A) (hs : h * (A * softB) ≤ 5e-6)
    (hk : ∀ i, i < s → k i = twinRhs (cc + i) (t + c i * h) (y + h • ∑ j ∈ range i, a i j • k j)) :
    SoftStages s A h y k ∧ ∀ i, i < s → rel (k i) = I * (rel y + h * ∑ j ∈ range s, a i j * rel (k j)) := by
  have key : ∀ i, i < s → (‖firstN (6 * 2) (k i)‖ ≤ softB ∧
      ‖firstN (6 * 2) (k i) - gravity 2 twinMass (firstN (6 * 2) y)‖ ≤ gravityLip 2 twinMass * (h * (A * softB))) ∧
      rel (k i) = I * (rel y + h * ∑ j ∈ range i, a i j * rel (k j)) := by
    intro i
    induction i using Nat.strong_induction_on with
    | _ i ih =>
      intro hi
      have := soft_stage hy (α := a i) (k := k) hh
        ((sum_le_sum_of_subset_of_nonneg (range_subset_range.2 hi.le) fun j _ _ => abs_nonneg _).trans (hA i hi))
        (fun j hj => (ih j hj (hj.trans hi)).1.1) hs (cc + i) (t + c i * h)
      rw [← hk i hi] at this
      exact this
  refine ⟨fun i hi => (key i hi).1, fun i hi => ?_⟩
  rw [(key i hi).2]
  congr 3
  refine sum_subset (range_subset_range.2 hi.le) fun j hj hj' => ?_
  rw [hlow i hi j (by simpa using hj') (mem_range.1 hj), ofReal_zero, zero_mul]

/-- **A step of an explicit scheme near the orbit.** -/
lemma erk_circle {s : ℕ} {a : ℕ → ℕ → ℝ} {b : ℕ → ℝ} {p : ℕ} (hlow : Lower s a) (ho : TallOrder s a b p) (c : ℕ → ℝ) :
    ∃ C δ : ℝ, 0 ≤ C ∧ 0 < δ ∧ ∀ (h : ℝ) (cc : ℕ) (t : ℝ) (y z : ℕ → ℝ), 0 < h → h ≤ δ → Inside y →
      Spec.ERKStep twinRhs cc s a b c t h y z →
      ‖rel z - (turn h + tallDefect s a b p * h ^ (p + 1)) * rel y‖ ≤ C * h ^ (p + 2) := by
  obtain ⟨A, hAd⟩ : ∃ A, A = ∑ i ∈ range s, ∑ j ∈ range s, |a i j| := ⟨_, rfl⟩
  have hA0 : 0 ≤ A := hAd ▸ sum_nonneg fun i _ => sum_nonneg fun j _ => abs_nonneg _
  have hrow : ∀ i, i < s → ∑ j ∈ range s, |a i j| ≤ A := fun i hi => hAd ▸
    single_le_sum (f := fun i => ∑ j ∈ range s, |a i j|) (fun i _ => sum_nonneg fun j _ => abs_nonneg _) (mem_range.2 hi)
  have hB := softB_nonneg
  obtain ⟨C, hC, hstep⟩ := circle_step rel ho (B := 4 * softB) (W := 6e-5) (by positivity)
  refine ⟨C, min 1 (5e-6 / (A * softB + 1)), hC, by positivity, fun h cc t y z h0 hle hy ⟨k, hk, hz⟩ => ?_⟩
  have hs : h * (A * softB) ≤ 5e-6 := by
    have h1 : h ≤ 5e-6 / (A * softB + 1) := hle.trans (min_le_right _ _)
    rw [le_div_iff₀ (by positivity)] at h1
    linarith
  obtain ⟨h1, h2⟩ := explicit_soft hlow hy h0.le hrow hs hk
  rw [hz]
  exact hstep h y k h0.le (hle.trans (min_le_left _ _)) h2 (fun i hi => rel_le (h1 i hi).1) (rel_inside hy)

/-- Drift from what one step does.  `J` is what is known after a step. -/
lemma drifts_of_step {σ : Type} {adv : Rhs → ℝ → σ × Eng (ℕ → ℝ) ℝ → Res (σ × Eng (ℕ → ℝ) ℝ)} {I : σ → Prop} {p : ℕ} {κ : ℂ}
    (hκ : κ ≠ 0) {C δ : ℝ} (hC : 0 ≤ C) (hδ : 0 < δ) (J : ℝ → σ × Eng (ℕ → ℝ) ℝ → Prop)
    (hstep : ∀ h x x', 0 < h → h ≤ δ → Inside x.2.y → Inside x'.2.y → adv twinRhs h x = .ok x' →
      (I x.1 → ‖rel x'.2.y - turn h * rel x.2.y‖ ≤ C * h ^ (p + 1) ∧ J h x') ∧
      (J h x → ‖rel x'.2.y - (turn h + κ * h ^ (p + 1)) * rel x.2.y‖ ≤ C * h ^ (p + 2) ∧ J h x')) :
    Drifts adv I p := by
  refine ⟨κ, C, δ, hκ, hC, hδ, fun h N z h0 hle hI hz hin => ?_⟩
  have hJ : ∀ k, 0 < k → k ≤ N → J h (z k) := by
    intro k hk0
    induction k with
    | zero => omega
    | succ k ih =>
      intro hk
      have := hstep h (z k) (z (k + 1)) h0 hle (hin k (by omega)) (hin (k + 1) hk) (hz k (by omega))
      rcases Nat.eq_zero_or_pos k with rfl | hk1
      · exact (this.1 hI).2
      · exact (this.2 (ih hk1 (by omega))).2
  refine ⟨fun hN => ?_, fun k hk0 hk => ?_⟩
  · exact ((hstep h (z 0) (z 1) h0 hle (hin 0 (by omega)) (hin 1 (by omega)) (hz 0 hN)).1 hI).1
  · exact ((hstep h (z k) (z (k + 1)) h0 hle (hin k hk.le) (hin (k + 1) hk) (hz k hk)).2 (hJ k hk0 hk.le)).1

/-- Drift of a scheme that needs nothing to be known. -/
lemma drifts_of_same {σ : Type} {adv : Rhs → ℝ → σ × Eng (ℕ → ℝ) ℝ → Res (σ × Eng (ℕ → ℝ) ℝ)} {I J : σ → Prop} {p : ℕ} {κ : ℂ}
    (hκ : κ ≠ 0) {C δ : ℝ} (hC : 0 ≤ C) (hδ : 0 < δ) (hIJ : ∀ s, I s → J s)
    (hstep : ∀ h x x', 0 < h → h ≤ δ → Inside x.2.y → adv twinRhs h x = .ok x' → J x.1 →
      ‖rel x'.2.y - (turn h + κ * h ^ (p + 1)) * rel x.2.y‖ ≤ C * h ^ (p + 2) ∧ J x'.1) :
    Drifts adv I p := by
  refine drifts_of_step (C := C + ‖κ‖ * 6e-5) (δ := min 1 δ) hκ (by positivity) (by positivity) (fun _ x => J x.1)
    fun h x x' h0 hle hin _ hx => ?_
  have h1 := hstep h x x' h0 (hle.trans (min_le_right _ _)) hin hx
  have hh1 : h ≤ 1 := hle.trans (min_le_left _ _)
  refine ⟨fun hI => ?_, fun hJ => ?_⟩
  · obtain ⟨h2, h3⟩ := h1 (hIJ _ hI)
    refine ⟨?_, h3⟩
    have e : rel x'.2.y - turn h * rel x.2.y = (rel x'.2.y - (turn h + κ * h ^ (p + 1)) * rel x.2.y) +
        κ * h ^ (p + 1) * rel x.2.y := by ring
    rw [e]
    refine (norm_add_le _ _).trans ?_
    have h4 : ‖κ * (h : ℂ) ^ (p + 1) * rel x.2.y‖ ≤ ‖κ‖ * h ^ (p + 1) * 6e-5 := by
      rw [norm_mul, norm_mul, norm_pow, norm_real, Real.norm_eq_abs, abs_of_pos h0]
      exact mul_le_mul_of_nonneg_left (rel_inside hin) (by positivity)
    have h5 : C * h ^ (p + 2) ≤ C * h ^ (p + 1) :=
      mul_le_mul_of_nonneg_left (pow_le_pow_of_le_one h0.le hh1 (by omega)) hC
    linarith
  · obtain ⟨h2, h3⟩ := h1 hJ
    refine ⟨h2.trans ?_, h3⟩
    have : 0 ≤ ‖κ‖ * 6e-5 * h ^ (p + 2) := by positivity
    linarith

/-- A scheme every step of which is off by `k I^{p+1} h^{p+1}` of the difference of the bodies, `k` being real and not 0. -/
def SameDrift {σ : Type} (adv : Rhs → ℝ → σ × Eng (ℕ → ℝ) ℝ → Res (σ × Eng (ℕ → ℝ) ℝ)) (Z : σ → Prop) (p : ℕ) : Prop :=
  ∃ k : ℝ, k ≠ 0 ∧ ∃ (C δ : ℝ) (J : σ → Prop), 0 ≤ C ∧ 0 < δ ∧ (∀ s, Z s → J s) ∧
    ∀ h x x', 0 < h → h ≤ δ → Inside x.2.y → adv twinRhs h x = .ok x' → J x.1 →
      ‖rel x'.2.y - (turn h + (k : ℂ) * I ^ (p + 1) * h ^ (p + 1)) * rel x.2.y‖ ≤ C * h ^ (p + 2) ∧ J x'.1

lemma SameDrift.drifts {σ : Type} {adv : Rhs → ℝ → σ × Eng (ℕ → ℝ) ℝ → Res (σ × Eng (ℕ → ℝ) ℝ)} {Z : σ → Prop} {p : ℕ}
    (hs : SameDrift adv Z p) : Drifts adv Z p := by
  obtain ⟨k, hk, C, δ, J, hC, hδ, hJ, hstep⟩ := hs
  exact drifts_of_same (mul_ne_zero (ofReal_ne_zero.2 hk) (pow_ne_zero _ I_ne_zero)) hC hδ hJ hstep

/-- The schemes with their own code. -/
lemma plain_drifts {adv : Rhs → ℝ → Eng (ℕ → ℝ) ℝ → Eng (ℕ → ℝ) ℝ} {s : ℕ} {a : ℕ → ℕ → ℝ} {b c : ℕ → ℝ} {p : ℕ}
    (hlow : Lower s a) (ho : TallOrder s a b p)
    (hadv : ∀ F dt e, Spec.ERKStep F e.cc s a b c e.time dt e.y (adv F dt e).y) :
    SameDrift (fun F => plain (adv F)) (fun _ => True) p := by
  obtain ⟨C, δ, hC, hδ, hstep⟩ := erk_circle hlow ho c
  refine ⟨_, sub_ne_zero.2 ho.2, C, δ, fun _ => True, hC, hδ, fun _ h => h, fun h x x' h0 hle hin hx _ => ⟨?_, trivial⟩⟩
  obtain rfl := Except.ok.inj hx
  exact hstep h _ _ _ _ h0 hle hin (hadv twinRhs h x.2)

/-! ### The table-driven solver -/

/-- The solver does not subdivide short steps: it may not, or the table has no estimate of the error, or the threshold is
positive (the two rows of weights having the same sum). -/
def Quiet (bt : BT ℝ) (cf : RKConf ℝ) : Prop :=
  cf.maxRecursion = 0 ∨ bt.embedded = false ∨
    (0 < cf.threshold ∧ ∑ i ∈ range bt.steps, bt.b1 i = ∑ i ∈ range bt.steps, bt.b2 i)

lemma maxAbs_le {N : ℕ} {x : ℕ → ℝ} {r : ℝ} (hr : 0 ≤ r) (h : ∀ j, j < N → |x j| ≤ r) : maxAbs N x ≤ r := by
  cases N with
  | zero => exact hr
  | succ N =>
    obtain ⟨k, hk, e⟩ := (C74.maxAbs_spec x N).1
    rw [e]
    exact h k hk

/-- The estimate of the error of a short step is small. -/
lemma error_small {bt : BT ℝ} (hb : ∑ i ∈ range bt.steps, bt.b1 i = ∑ i ∈ range bt.steps, bt.b2 i) {A h : ℝ} (hA : 0 ≤ A) (hh : 0 ≤ h)
    {y : ℕ → ℝ} {r : RKState (ℕ → ℝ)} (hr : SoftStages bt.steps A h y r.k) :
    (rkError (maxAbs (6 * 2)) bt r).2 ≤
      (∑ i ∈ range bt.steps, |bt.b2 i - bt.b1 i|) * (gravityLip 2 twinMass * (h * (A * softB))) := by
  have hL := gravityLip_nonneg 2 twinMass
  have hB := softB_nonneg
  have hR : 0 ≤ (∑ i ∈ range bt.steps, |bt.b2 i - bt.b1 i|) * (gravityLip 2 twinMass * (h * (A * softB))) :=
    mul_nonneg (sum_nonneg fun i _ => abs_nonneg _) (by positivity)
  unfold rkError
  split_ifs
  · simp only
    rw [vfmaddn_none]
    have e : firstN (6 * 2) (∑ i ∈ range bt.steps, (bt.b2 i - bt.b1 i) • r.k i) =
        ∑ i ∈ range bt.steps, (bt.b2 i - bt.b1 i) • (firstN (6 * 2) (r.k i) - gravity 2 twinMass (firstN (6 * 2) y)) := by
      rw [map_sum]
      simp only [map_smul, smul_sub, sum_sub_distrib]
      rw [← sum_smul, sum_sub_distrib, hb, sub_self, zero_smul, sub_zero]
    have h1 : ‖firstN (6 * 2) (∑ i ∈ range bt.steps, (bt.b2 i - bt.b1 i) • r.k i)‖ ≤
        (∑ i ∈ range bt.steps, |bt.b2 i - bt.b1 i|) * (gravityLip 2 twinMass * (h * (A * softB))) := by
      rw [e, sum_mul]
      refine (norm_sum_le _ _).trans (sum_le_sum fun i hi => ?_)
      rw [norm_smul, Real.norm_eq_abs]
      exact mul_le_mul_of_nonneg_left (hr i (mem_range.1 hi)).2 (abs_nonneg _)
    exact maxAbs_le hR fun j hj => (norm_le_pi_norm _ (⟨j, hj⟩ : Fin (6 * 2))).trans h1
  · exact hR

/-- A step that is not subdivided. -/
lemma rkAdvise_once (F : Rhs) (nrm : (ℕ → ℝ) → ℝ) (bt : BT ℝ) (cf : RKConf ℝ) (dt : ℝ)
    (r : RKState (ℕ → ℝ)) (e : Eng (ℕ → ℝ) ℝ) (hs : cf.maxRecursion = 0 ∨ bt.embedded = false ∨
      (rkError nrm bt (rkStages F bt cf (!r.allocated) e.y e.time dt ({ r with allocated := true }, e.cc)).1).2 ≤ cf.threshold) :
    let st := rkStages F bt cf (!r.allocated) e.y e.time dt ({ r with allocated := true }, e.cc)
    let x := { st.1 with tbuf := (rkError nrm bt st.1).1 }
    rkAdvise F nrm bt cf dt r e = ({ x with ycorr := (rkAdvance bt cf dt x e.y).2 },
      ({ e with y := (rkAdvance bt cf dt x e.y).1, cc := st.2 } : Eng (ℕ → ℝ) ℝ).adviseTime dt) := by
  intro st x
  have sub : rkSubStep F nrm bt cf cf.maxRecursion 1 dt { r := r, cc := e.cc, t := e.time, y := e.y } =
      { r := { x with ycorr := (rkAdvance bt cf dt x e.y).2 }, cc := st.2, t := e.time + dt, y := (rkAdvance bt cf dt x e.y).1 } := by
    cases hm : cf.maxRecursion with
    | zero => rw [rkSubStep]; rfl
    | succ n =>
      rw [rkSubStep]
      have hc : ¬ ((bt.embedded && decide (cf.minStep < dt)) && decide (cf.threshold < (rkError nrm bt st.1).2)) = true := by
        rw [Bool.and_eq_true, Bool.and_eq_true]
        rintro ⟨⟨h1, -⟩, h2⟩
        rcases hs with h | h | h
        · omega
        · rw [h] at h1; cases h1
        · exact absurd (of_decide_eq_true h2) (not_lt.2 h)
      exact if_neg hc
  unfold rkAdvise
  rw [sub]

/-- How short steps have to be not to be subdivided. -/
lemma quiet_short {bt : BT ℝ} {cf : RKConf ℝ} (hq : Quiet bt cf) {A : ℝ} (hA : 0 ≤ A) :
    ∃ δ : ℝ, 0 < δ ∧ ∀ (h : ℝ) (y : ℕ → ℝ) (r : RKState (ℕ → ℝ)), 0 < h → h ≤ δ → SoftStages bt.steps A h y r.k →
      cf.maxRecursion = 0 ∨ bt.embedded = false ∨ (rkError (maxAbs (6 * 2)) bt r).2 ≤ cf.threshold := by
  rcases hq with hq | hq | ⟨hq, hb⟩
  · exact ⟨1, one_pos, fun _ _ _ _ _ _ => Or.inl hq⟩
  · exact ⟨1, one_pos, fun _ _ _ _ _ _ => Or.inr (Or.inl hq)⟩
  · have hL := gravityLip_nonneg 2 twinMass
    have hB := softB_nonneg
    obtain ⟨β, hβ⟩ : ∃ β, β = ∑ i ∈ range bt.steps, |bt.b2 i - bt.b1 i| := ⟨_, rfl⟩
    have hβ0 : 0 ≤ β := hβ ▸ sum_nonneg fun i _ => abs_nonneg _
    refine ⟨cf.threshold / (β * (gravityLip 2 twinMass * (A * softB)) + 1), by positivity, fun h y r h0 hle hr => Or.inr (Or.inr ?_)⟩
    refine (error_small hb hA h0.le hr).trans ?_
    rw [← hβ]
    rw [le_div_iff₀ (by positivity)] at hle
    calc β * (gravityLip 2 twinMass * (h * (A * softB))) = h * (β * (gravityLip 2 twinMass * (A * softB))) := by ring
      _ ≤ _ := by linarith

/-- The sums of the rows of a table. -/
lemma row_bound (s : ℕ) (a : ℕ → ℕ → ℝ) : ∃ A, 0 ≤ A ∧ ∀ i, i < s → ∑ j ∈ range s, |a i j| ≤ A :=
  ⟨∑ i ∈ range s, ∑ j ∈ range s, |a i j|, sum_nonneg fun i _ => sum_nonneg fun j _ => abs_nonneg _, fun i hi =>
    single_le_sum (f := fun i => ∑ j ∈ range s, |a i j|) (fun i _ => sum_nonneg fun j _ => abs_nonneg _) (mem_range.2 hi)⟩

/-- **The explicit tables drift.** -/
lemma rk_drifts {bt : BT ℝ} {cf : RKConf ℝ} {p : ℕ} (hi : bt.implicit = false) (hlow : Lower bt.steps bt.a)
    (hr : cf.correction = true ∨ C16.RowsNonzero bt) (hq : Quiet bt cf) (ho : TallOrder bt.steps bt.a bt.b2 p) :
    SameDrift (fun F dt x => .ok (rkAdvise F (maxAbs (6 * 2)) bt cf dt x.1 x.2)) (fun r => r.allocated = false ∧ C19.Inv cf r) p := by
  obtain ⟨A, hA, hrow⟩ := row_bound bt.steps bt.a
  obtain ⟨C, δ, hC, hδ, hstep⟩ := erk_circle hlow ho bt.c
  obtain ⟨δ', hδ', hquiet⟩ := quiet_short hq hA
  have hB := softB_nonneg
  refine ⟨_, sub_ne_zero.2 ho.2, C, min (min δ δ') (5e-6 / (A * softB + 1)), C19.Inv cf, hC, by positivity,
    fun _ h => h.2, fun h x x' h0 hle hin hx hJ => ?_⟩
  have hs : h * (A * softB) ≤ 5e-6 := by
    have h1 := hle.trans (min_le_right _ _)
    rw [le_div_iff₀ (by positivity)] at h1
    linarith
  obtain rfl := Except.ok.inj hx
  obtain ⟨st, hst⟩ : ∃ st, st = rkStages twinRhs bt cf (!x.1.allocated) x.2.y x.2.time h ({ x.1 with allocated := true }, x.2.cc) :=
    ⟨_, rfl⟩
  have he : Spec.ERKStep twinRhs x.2.cc bt.steps bt.a bt.b2 bt.c x.2.time h x.2.y (endOf bt h x.2.y st.1.k) := by
    rw [hst]
    exact explicit_stages bt cf hi hr _ { x.1 with allocated := true } _ _ _ _ h0 hJ
  have hk : SoftStages bt.steps A h x.2.y st.1.k := by
    have e : st = rkExplicit twinRhs bt cf x.2.y x.2.time h ({ x.1 with allocated := true }, x.2.cc) := by
      rw [hst]; unfold rkStages; rw [hi]; simp
    rw [e]
    obtain ⟨-, -, h3⟩ := C16.rkExplicit_stages twinRhs bt cf x.2.y x.2.time h { x.1 with allocated := true } x.2.cc hJ hr (Or.inr h0.ne')
    exact (explicit_soft hlow hin h0.le hrow hs h3).1
  have once := rkAdvise_once twinRhs (maxAbs (6 * 2)) bt cf h x.1 x.2 (by
    rw [← hst]
    exact hquiet h x.2.y st.1 h0 (hle.trans ((min_le_left _ _).trans (min_le_right _ _))) hk)
  simp only [← hst] at once
  rw [once]
  have hJ' : C19.Inv cf st.1 := fun hc => by rw [hst, C19.stages_ycorr]; exact hJ hc
  refine ⟨?_, fun hc => C19.rkAdvance_inv _ _ _ _ _ hJ' hc⟩
  have hadv : (rkAdvance bt cf h { st.1 with tbuf := (rkError (maxAbs (6 * 2)) bt st.1).1 } x.2.y).1 = endOf bt h x.2.y st.1.k :=
    C16.rkAdvance_eq bt cf h { st.1 with tbuf := (rkError (maxAbs (6 * 2)) bt st.1).1 } x.2.y hJ'
  rw [← hadv] at he
  exact hstep h _ _ _ _ h0 (hle.trans ((min_le_left _ _).trans (min_le_left _ _))) hin he

/-! ### The implicit tables -/

/-- A sweep, from approximate stages. -/
lemma mix_step {s : ℕ} {α : ℕ → ℝ} {m g : ℕ → ℂ} {h A R : ℝ} (hh : 0 ≤ h) (hR : 0 ≤ R) (hα : ∑ j ∈ range s, |α j| ≤ A)
    (hm : ∀ j, j < s → ‖m j - g j‖ ≤ R) (w : ℂ) :
    ‖I * (w + h * ∑ j ∈ range s, α j * m j) - I * (w + h * ∑ j ∈ range s, α j * g j)‖ ≤ h * (A * R) := by
  have e : I * (w + h * ∑ j ∈ range s, α j * m j) - I * (w + h * ∑ j ∈ range s, α j * g j) =
      I * (h * ∑ j ∈ range s, α j * (m j - g j)) := by
    simp only [mul_sub, sum_sub_distrib]
    ring
  rw [e, norm_mul, norm_mul, norm_I, one_mul, norm_real, Real.norm_eq_abs, abs_of_nonneg hh]
  refine mul_le_mul_of_nonneg_left ((norm_sum_le _ _).trans ?_) hh
  calc _ ≤ ∑ j ∈ range s, |α j| * R := sum_le_sum fun j hj => by
        rw [norm_mul, norm_real, Real.norm_eq_abs]
        exact mul_le_mul_of_nonneg_left (hm j (mem_range.1 hj)) (abs_nonneg _)
    _ = (∑ j ∈ range s, |α j|) * R := by rw [sum_mul]
    _ ≤ _ := mul_le_mul_of_nonneg_right hα hR

/-- The second coefficient of the stages of an implicit scheme after a sweep, if the first coefficients before it were `d`. -/
def sweepCoeff (s : ℕ) (a : ℕ → ℕ → ℝ) (d : ℕ → ℝ) (i : ℕ) : ℝ :=
  ∑ j ∈ range s, a i j * (if j < i then ∑ l ∈ range s, a j l else d j)

/-- What sweeps make of the stages. -/
lemma sweep_series {s : ℕ} {a : ℕ → ℕ → ℝ} {A h : ℝ} (hA : 0 ≤ A) (hh : 0 ≤ h)
    (hrow : ∀ i, i < s → ∑ j ∈ range s, |a i j| ≤ A) {w : ℂ} {x u : ℕ → ℂ}
    (hx : ∀ i, i < s → x i = I * (w + h * ∑ j ∈ range s, a i j * (if j < i then x j else u j))) :
    (∀ R, 0 ≤ R → (∀ j, j < s → ‖x j‖ ≤ R ∧ ‖u j‖ ≤ R) → ∀ i, i < s → ‖x i - I * w‖ ≤ h * (A * R)) ∧
    (∀ R, 0 ≤ R → (∀ j, j < s → ‖x j - I * w‖ ≤ R ∧ ‖u j - I * w‖ ≤ R) → ∀ i, i < s →
      ‖x i - I * w * (1 + h * I * (∑ l ∈ range s, a i l : ℝ))‖ ≤ h * (A * R)) ∧
    (∀ R (d : ℕ → ℝ), 0 ≤ R → (∀ j, j < s → ‖x j - I * w * (1 + h * I * (∑ l ∈ range s, a j l : ℝ))‖ ≤ R ∧
        ‖u j - I * w * (1 + h * I * d j)‖ ≤ R) → ∀ i, i < s →
      ‖x i - I * w * (1 + h * I * (∑ l ∈ range s, a i l : ℝ) + (h * I) ^ 2 * (sweepCoeff s a d i : ℝ))‖ ≤ h * (A * R)) := by
  refine ⟨fun R hR hb i hi => ?_, fun R hR hb i hi => ?_, fun R d hR hb i hi => ?_⟩
  · have := mix_step (α := a i) (m := fun j => if j < i then x j else u j) (g := fun _ => 0) hh hR (hrow i hi) (fun j hj => by
      rw [sub_zero]; split_ifs
      · exact (hb j hj).1
      · exact (hb j hj).2) w
    rw [← hx i hi] at this
    simpa using this
  · have := mix_step (α := a i) (m := fun j => if j < i then x j else u j) (g := fun _ => I * w) hh hR (hrow i hi) (fun j hj => by
      split_ifs
      · exact (hb j hj).1
      · exact (hb j hj).2) w
    rw [← hx i hi] at this
    refine (le_of_eq ?_).trans this
    congr 2
    rw [← sum_mul]
    push_cast
    ring
  · have := mix_step (α := a i) (m := fun j => if j < i then x j else u j)
      (g := fun j => I * w * (1 + h * I * ((if j < i then ∑ l ∈ range s, a j l else d j : ℝ) : ℂ))) hh hR (hrow i hi) (fun j hj => by
      split_ifs
      · exact (hb j hj).1
      · exact (hb j hj).2) w
    rw [← hx i hi] at this
    refine (le_of_eq ?_).trans this
    congr 2
    unfold sweepCoeff
    simp only [mul_add, mul_one, sum_add_distrib]
    have e1 : ∑ j ∈ range s, (a i j : ℂ) * (I * w * (h * I * ((if j < i then ∑ l ∈ range s, a j l else d j : ℝ) : ℂ))) =
        I * w * (h * I) * ∑ j ∈ range s, (a i j : ℂ) * ((if j < i then ∑ l ∈ range s, a j l else d j : ℝ) : ℂ) := by
      rw [mul_sum]
      exact sum_congr rfl fun j _ => by ring
    rw [e1, ← sum_mul]
    simp only [ofReal_sum, ofReal_mul]
    ring

/-- One sweep near the orbit. -/
lemma sweep_soft {bt : BT ℝ} (hr : C65.FullRows bt) {y : ℕ → ℝ} (hy : Inside y) {t h A : ℝ} (h0 : 0 < h)
    (hA : ∀ i, i < bt.steps → ∑ j ∈ range bt.steps, |bt.a i j| ≤ A) (hs : h * (A * softB) ≤ 5e-6)
    (p : RKState (ℕ → ℝ) × ℕ) (hp : ∀ j, j < bt.steps → ‖firstN (6 * 2) (p.1.k j)‖ ≤ softB) :
    SoftStages bt.steps A h y (rkRefine twinRhs bt y t h p).1.k ∧ ∀ i, i < bt.steps →
      rel ((rkRefine twinRhs bt y t h p).1.k i) = I * (rel y + h * ∑ j ∈ range bt.steps, bt.a i j *
        (if j < i then rel ((rkRefine twinRhs bt y t h p).1.k j) else rel (p.1.k j))) := by
  have hsw := (C65.refine_sweep twinRhs bt y t h p.1 p.2 hr h0.ne').2.2
  obtain ⟨q, hq⟩ : ∃ q, q = rkRefine twinRhs bt y t h p := ⟨_, rfl⟩
  have hsw : ∀ i, i < bt.steps → q.1.k i = twinRhs (p.2 + i) (t + bt.c i * h)
      (y + h • ∑ j ∈ range bt.steps, bt.a i j • (if j < i then q.1.k j else p.1.k j)) := by rw [hq]; exact hsw
  rw [← hq]
  have key : ∀ i, i < bt.steps → (‖firstN (6 * 2) (q.1.k i)‖ ≤ softB ∧
      ‖firstN (6 * 2) (q.1.k i) - gravity 2 twinMass (firstN (6 * 2) y)‖ ≤ gravityLip 2 twinMass * (h * (A * softB))) ∧
      rel (q.1.k i) = I * (rel y + h * ∑ j ∈ range bt.steps, bt.a i j * rel (if j < i then q.1.k j else p.1.k j)) := by
    intro i
    induction i using Nat.strong_induction_on with
    | _ i ih =>
      intro hi
      have := soft_stage hy (α := bt.a i) (k := fun j => if j < i then q.1.k j else p.1.k j) h0.le (hA i hi) (fun j hj => by
        split_ifs with hji
        · exact (ih j hji hj).1.1
        · exact hp j hj) hs (p.2 + i) (t + bt.c i * h)
      rw [← hsw i hi] at this
      exact this
  refine ⟨fun i hi => (key i hi).1, fun i hi => ?_⟩
  rw [(key i hi).2]
  congr 3
  refine sum_congr rfl fun j _ => ?_
  split_ifs <;> rfl

/-- The first coefficients of the stages before the last sweep, if they were `d` before all of them. -/
def lastCoeff (s : ℕ) (a : ℕ → ℕ → ℝ) (refine : ℕ) (d : ℕ → ℝ) (j : ℕ) : ℝ := if refine = 1 then d j else ∑ l ∈ range s, a j l

/-- All sweeps. -/
lemma sweeps_series {bt : BT ℝ} (hr : C65.FullRows bt) {A C₁ : ℝ} (hA0 : 0 ≤ A) (hC₁ : A * (4 * softB) ≤ C₁)
    (hA : ∀ i, i < bt.steps → ∑ j ∈ range bt.steps, |bt.a i j| ≤ A) {refine : ℕ} (hre : 1 ≤ refine)
    {y : ℕ → ℝ} (hy : Inside y) {t h : ℝ} (h0 : 0 < h) (hs : h * (A * softB) ≤ 5e-6)
    (p : RKState (ℕ → ℝ) × ℕ) (hp : ∀ j, j < bt.steps → ‖firstN (6 * 2) (p.1.k j)‖ ≤ softB)
    (hp1 : ∀ j, j < bt.steps → ‖rel (p.1.k j) - I * rel y‖ ≤ C₁ * h) :
    let q := foldN refine p (fun _ s => rkRefine twinRhs bt y t h s)
    SoftStages bt.steps A h y q.1.k ∧
    (∀ i, i < bt.steps → ‖rel (q.1.k i) - I * rel y‖ ≤ A * (4 * softB) * h ∧
      ‖rel (q.1.k i) - I * rel y * (1 + h * I * (∑ l ∈ range bt.steps, bt.a i l : ℝ))‖ ≤ A * C₁ * h ^ 2) ∧
    ∀ (d : ℕ → ℝ) (C₂ : ℝ), A * C₁ ≤ C₂ → (∀ j, j < bt.steps → ‖rel (p.1.k j) - I * rel y * (1 + h * I * d j)‖ ≤ C₂ * h ^ 2) →
      ∀ i, i < bt.steps → ‖rel (q.1.k i) - I * rel y * (1 + h * I * (∑ l ∈ range bt.steps, bt.a i l : ℝ) +
        (h * I) ^ 2 * (sweepCoeff bt.steps bt.a (lastCoeff bt.steps bt.a refine d) i : ℝ))‖ ≤ A * C₂ * h ^ 3 := by
  have hB := softB_nonneg
  have hC0 : 0 ≤ C₁ := (by positivity : 0 ≤ A * (4 * softB)).trans hC₁
  intro q
  have := foldN_inv (n := refine) (s := p) (f := fun _ s => rkRefine twinRhs bt y t h s)
    (P := fun m (p' : RKState (ℕ → ℝ) × ℕ) => (m = 0 → p' = p) ∧
      (∀ j, j < bt.steps → ‖firstN (6 * 2) (p'.1.k j)‖ ≤ softB ∧ ‖rel (p'.1.k j) - I * rel y‖ ≤ C₁ * h) ∧
      (1 ≤ m → SoftStages bt.steps A h y p'.1.k ∧ (∀ i, i < bt.steps → ‖rel (p'.1.k i) - I * rel y‖ ≤ A * (4 * softB) * h ∧
        ‖rel (p'.1.k i) - I * rel y * (1 + h * I * (∑ l ∈ range bt.steps, bt.a i l : ℝ))‖ ≤ A * C₁ * h ^ 2) ∧
        ∀ (d : ℕ → ℝ) (C₂ : ℝ), A * C₁ ≤ C₂ → (∀ j, j < bt.steps → ‖rel (p.1.k j) - I * rel y * (1 + h * I * d j)‖ ≤ C₂ * h ^ 2) →
          ∀ i, i < bt.steps → ‖rel (p'.1.k i) - I * rel y * (1 + h * I * (∑ l ∈ range bt.steps, bt.a i l : ℝ) +
            (h * I) ^ 2 * (sweepCoeff bt.steps bt.a (lastCoeff bt.steps bt.a m d) i : ℝ))‖ ≤ A * C₂ * h ^ 3))
    ⟨fun _ => rfl, fun j hj => ⟨hp j hj, hp1 j hj⟩, fun h => absurd h (by omega)⟩ ?_
  · exact this.2.2 hre
  · rintro m p' hm ⟨hz, hb, hlater⟩
    obtain ⟨g1, g2⟩ := sweep_soft hr hy (t := t) h0 hA hs p' (fun j hj => (hb j hj).1)
    obtain ⟨s1, s2, s3⟩ := sweep_series hA0 h0.le hA g2
    have b1 : ∀ i, i < bt.steps → ‖rel ((rkRefine twinRhs bt y t h p').1.k i) - I * rel y‖ ≤ A * (4 * softB) * h := fun i hi =>
      (s1 (4 * softB) (by positivity) (fun j hj => ⟨rel_le (g1 j hj).1, rel_le (hb j hj).1⟩) i hi).trans_eq (by ring)
    have b2 : ∀ i, i < bt.steps → ‖rel ((rkRefine twinRhs bt y t h p').1.k i) - I * rel y‖ ≤ C₁ * h := fun i hi =>
      (b1 i hi).trans (mul_le_mul_of_nonneg_right hC₁ h0.le)
    have b3 : ∀ i, i < bt.steps → ‖rel ((rkRefine twinRhs bt y t h p').1.k i) -
        I * rel y * (1 + h * I * (∑ l ∈ range bt.steps, bt.a i l : ℝ))‖ ≤ A * C₁ * h ^ 2 := fun i hi =>
      (s2 (C₁ * h) (by positivity) (fun j hj => ⟨b2 j hj, (hb j hj).2⟩) i hi).trans_eq (by ring)
    refine ⟨fun e => absurd e (by omega), fun j hj => ⟨(g1 j hj).1, b2 j hj⟩, fun _ => ⟨g1, fun i hi => ⟨b1 i hi, b3 i hi⟩,
      fun d C₂ hC₂ hd i hi => ?_⟩⟩
    have hC₂0 : 0 ≤ C₂ := (mul_nonneg hA0 hC0).trans hC₂
    have hh2 : A * C₁ * h ^ 2 ≤ C₂ * h ^ 2 := mul_le_mul_of_nonneg_right hC₂ (by positivity)
    refine (s3 (C₂ * h ^ 2) (lastCoeff bt.steps bt.a (m + 1) d) (by positivity) (fun j hj => ⟨(b3 j hj).trans hh2, ?_⟩) i hi).trans_eq
      (by ring)
    rcases Nat.eq_zero_or_pos m with rfl | hm0
    · rw [hz rfl]
      simpa [lastCoeff] using hd j hj
    · have e : lastCoeff bt.steps bt.a (m + 1) d j = ∑ l ∈ range bt.steps, bt.a j l := by
        unfold lastCoeff
        rw [if_neg (by omega)]
      rw [e]
      exact (((hlater hm0).2.1 j hj).2).trans hh2

/-- The stages the very first step starts from. -/
lemma first_soft {bt : BT ℝ} {y : ℕ → ℝ} (hy : Inside y) {t h γ : ℝ} (h0 : 0 < h)
    (hγ : ∀ i, i < bt.steps → |bt.c i| ≤ γ) (hs : h * (γ * softB) ≤ 5e-6) (r : RKState (ℕ → ℝ)) (cc : ℕ) :
    ∀ i, i < bt.steps → ‖firstN (6 * 2) ((rkFirstApproach twinRhs bt y t h (r, cc)).1.k i)‖ ≤ softB ∧
      ‖rel ((rkFirstApproach twinRhs bt y t h (r, cc)).1.k i) - I * rel y‖ ≤ γ * 6e-5 * h := by
  intro i hi
  rw [(C65.first_approach_stages twinRhs bt y t h r cc).2 i hi]
  have h2 : ∀ j, j < 12 → |y j| ≤ 2e-5 := fun j hj => (hy j hj).trans (by norm_num)
  obtain ⟨v1, v2⟩ := soft_value h2 cc t
  have e : y + (h * bt.c i) • twinRhs cc t y = y + h • ∑ j ∈ range 1, (fun _ => bt.c i) j • (fun _ => twinRhs cc t y) j := by
    rw [sum_range_one, smul_smul]
  obtain ⟨⟨g1, -⟩, g2⟩ := soft_stage hy (s := 1) (α := fun _ => bt.c i) (k := fun _ => twinRhs cc t y) (A := γ) h0.le
    (by rw [sum_range_one]; exact hγ i hi) (fun _ _ => v1) hs (cc + 1 + i) (t + bt.c i * h)
  rw [← e] at g1 g2
  refine ⟨g1, ?_⟩
  rw [g2, sum_range_one, v2]
  have e2 : I * (rel y + h * (bt.c i * (I * rel y))) - I * rel y = I * (h * (bt.c i * (I * rel y))) := by ring
  rw [e2, norm_mul, norm_mul, norm_mul, norm_mul, norm_I, one_mul, one_mul, norm_real, norm_real, Real.norm_eq_abs, Real.norm_eq_abs,
    abs_of_pos h0]
  have := mul_le_mul (hγ i hi) (rel_inside hy) (norm_nonneg _) ((abs_nonneg _).trans (hγ i hi))
  nlinarith

/-- What is known of an implicit solver after a step. -/
def KeptStages (bt : BT ℝ) (cf : RKConf ℝ) (C₁ C₂ h : ℝ) (x : RKState (ℕ → ℝ) × Eng (ℕ → ℝ) ℝ) : Prop :=
  x.1.allocated = true ∧ C19.Inv cf x.1 ∧ ∀ j, j < bt.steps → ‖firstN (6 * 2) (x.1.k j)‖ ≤ softB ∧
    ‖rel (x.1.k j) - I * rel x.2.y‖ ≤ C₁ * h ∧
    ‖rel (x.1.k j) - I * rel x.2.y * (1 + h * I * ((∑ l ∈ range bt.steps, bt.a j l - 1 : ℝ) : ℂ))‖ ≤ C₂ * h ^ 2

lemma stages_allocated (F : Rhs) (bt : BT ℝ) (cf : RKConf ℝ) (first : Bool) (y : ℕ → ℝ) (t h : ℝ) (r : RKState (ℕ → ℝ)) (cc : ℕ)
    (hi : bt.implicit = true) : (rkStages F bt cf first y t h (r, cc)).1.allocated = r.allocated := by
  unfold rkStages
  rw [if_pos hi]
  unfold rkImplicit
  have hfa : (if first then rkFirstApproach F bt y t h (r, cc) else (r, cc)).1.allocated = r.allocated := by
    cases first
    · rfl
    · simp only [if_true]
      exact foldN_inv (P := fun _ (p : RKState (ℕ → ℝ) × ℕ) => p.1.allocated = r.allocated) rfl fun i p _ hp => hp
  exact foldN_inv (P := fun _ (p : RKState (ℕ → ℝ) × ℕ) => p.1.allocated = r.allocated) hfa fun i p _ hp =>
    foldN_inv (P := fun _ (p : RKState (ℕ → ℝ) × ℕ) => p.1.allocated = r.allocated) hp fun i p _ hp => hp

/-- **The implicit tables drift.** -/
lemma implicit_drifts {bt : BT ℝ} {cf : RKConf ℝ} (hi : bt.implicit = true) (hr : C65.FullRows bt) (hre : 1 ≤ cf.refine)
    (hq : Quiet bt cf) (hb1 : ∑ i ∈ range bt.steps, bt.b2 i = 1)
    (hb2 : ∑ i ∈ range bt.steps, bt.b2 i * ∑ l ∈ range bt.steps, bt.a i l = 1 / 2)
    (hne : ∑ i ∈ range bt.steps, bt.b2 i * sweepCoeff bt.steps bt.a
      (lastCoeff bt.steps bt.a cf.refine fun j => ∑ l ∈ range bt.steps, bt.a j l - 1) i ≠ 1 / 6) :
    Drifts (fun F dt x => .ok (rkAdvise F (maxAbs (6 * 2)) bt cf dt x.1 x.2)) (fun r => r.allocated = false ∧ C19.Inv cf r) 2 := by
  obtain ⟨A, hA, hrow⟩ := row_bound bt.steps bt.a
  obtain ⟨δ', hδ', hquiet⟩ := quiet_short hq hA
  have hB := softB_nonneg
  obtain ⟨β, hβ⟩ : ∃ β, β = ∑ i ∈ range bt.steps, |bt.b2 i| := ⟨_, rfl⟩
  have hβ0 : 0 ≤ β := hβ ▸ sum_nonneg fun i _ => abs_nonneg _
  obtain ⟨γ, hγ⟩ : ∃ γ, γ = ∑ i ∈ range bt.steps, |bt.c i| := ⟨_, rfl⟩
  have hγ0 : 0 ≤ γ := hγ ▸ sum_nonneg fun i _ => abs_nonneg _
  have hci : ∀ i, i < bt.steps → |bt.c i| ≤ γ := fun i hi => hγ ▸
    single_le_sum (f := fun i => |bt.c i|) (fun i _ => abs_nonneg _) (mem_range.2 hi)
  obtain ⟨K, hK⟩ : ∃ K, K = A * (4 * softB) := ⟨_, rfl⟩
  have hK0 : 0 ≤ K := by rw [hK]; positivity
  obtain ⟨C₁, hC₁⟩ : ∃ C₁, C₁ = K + β * K + 6e-5 + γ * 6e-5 := ⟨_, rfl⟩
  have hC₁0 : 0 ≤ C₁ := by rw [hC₁]; positivity
  obtain ⟨C₂, hC₂⟩ : ∃ C₂, C₂ = A * C₁ + 6e-5 * (A + 1) + β * K * (A + 2) := ⟨_, rfl⟩
  have hC₂0 : 0 ≤ C₂ := by rw [hC₂]; positivity
  have hC₁₂ : A * C₁ ≤ C₂ := by
    have : 0 ≤ 6e-5 * (A + 1) + β * K * (A + 2) := by positivity
    rw [hC₂]; linarith
  obtain ⟨D₁, hD₁, ht1⟩ := turn_series 1
  obtain ⟨D₂, hD₂, ht2⟩ := turn_series 2
  obtain ⟨c, hc⟩ : ∃ c : ℕ → ℝ, c = fun i => ∑ l ∈ range bt.steps, bt.a i l := ⟨_, rfl⟩
  have hcA : ∀ i, i < bt.steps → |c i| ≤ A := fun i hi => by
    rw [hc]; exact (abs_sum_le_sum_abs _ _).trans (hrow i hi)
  obtain ⟨ψ, hψ⟩ : ∃ ψ : ℕ → ℝ, ψ = fun i => sweepCoeff bt.steps bt.a
      (lastCoeff bt.steps bt.a cf.refine fun j => ∑ l ∈ range bt.steps, bt.a j l - 1) i := ⟨_, rfl⟩
  have hb2' : ∑ i ∈ range bt.steps, bt.b2 i * c i = 1 / 2 := by rw [hc]; exact hb2
  obtain ⟨Ψ, hΨ⟩ : ∃ Ψ, Ψ = ∑ i ∈ range bt.steps, bt.b2 i * ψ i := ⟨_, rfl⟩
  have hne' : Ψ ≠ 1 / 6 := by rw [hΨ, hψ]; exact hne
  obtain ⟨κ, hκd⟩ : ∃ κ : ℂ, κ = ((Ψ - 1 / 6 : ℝ) : ℂ) * I ^ 3 := ⟨_, rfl⟩
  have hκ : κ ≠ 0 := by
    rw [hκd]
    refine mul_ne_zero ?_ (pow_ne_zero _ I_ne_zero)
    rw [Ne, ofReal_eq_zero, sub_eq_zero]
    exact hne'
  refine drifts_of_step (C := β * A * C₁ + D₁ * 6e-5 + (β * A * C₂ + D₂ * 6e-5))
    (δ := min (min 1 δ') (min (5e-6 / (A * softB + 1)) (5e-6 / (γ * softB + 1)))) hκ (by positivity) (by positivity)
    (KeptStages bt cf C₁ C₂) fun h x x' h0 hle hin hin' hx => ?_
  have hh1 : h ≤ 1 := hle.trans ((min_le_left _ _).trans (min_le_left _ _))
  have hs : h * (A * softB) ≤ 5e-6 := by
    have h1 := hle.trans ((min_le_right _ _).trans (min_le_left _ _))
    rw [le_div_iff₀ (by positivity)] at h1
    linarith
  have hsγ : h * (γ * softB) ≤ 5e-6 := by
    have h1 := hle.trans ((min_le_right _ _).trans (min_le_right _ _))
    rw [le_div_iff₀ (by positivity)] at h1
    linarith
  obtain rfl := Except.ok.inj hx
  obtain ⟨st, hst⟩ : ∃ st, st = rkStages twinRhs bt cf (!x.1.allocated) x.2.y x.2.time h ({ x.1 with allocated := true }, x.2.cc) :=
    ⟨_, rfl⟩
  obtain ⟨w, hw⟩ : ∃ w, w = rel x.2.y := ⟨_, rfl⟩
  have hW : ‖w‖ ≤ 6e-5 := hw ▸ rel_inside hin
  obtain ⟨p, hp⟩ : ∃ p, p = (if (!x.1.allocated) then rkFirstApproach twinRhs bt x.2.y x.2.time h ({ x.1 with allocated := true }, x.2.cc)
    else ({ x.1 with allocated := true }, x.2.cc)) := ⟨_, rfl⟩
  have hstp : st = foldN cf.refine p (fun _ s => rkRefine twinRhs bt x.2.y x.2.time h s) := by
    rw [hst, hp]; unfold rkStages rkImplicit; rw [if_pos hi]
  -- what the step does, from what is known of the stages it starts from
  have main : C19.Inv cf x.1 → (∀ j, j < bt.steps → ‖firstN (6 * 2) (p.1.k j)‖ ≤ softB ∧ ‖rel (p.1.k j) - I * w‖ ≤ C₁ * h) →
      ‖rel (rkAdvise twinRhs (maxAbs (6 * 2)) bt cf h x.1 x.2).2.y - turn h * w‖ ≤ (β * A * C₁ + D₁ * 6e-5) * h ^ 3 ∧
      KeptStages bt cf C₁ C₂ h (rkAdvise twinRhs (maxAbs (6 * 2)) bt cf h x.1 x.2) ∧
      ((∀ j, j < bt.steps → ‖rel (p.1.k j) - I * w * (1 + h * I * ((c j - 1 : ℝ) : ℂ))‖ ≤ C₂ * h ^ 2) →
        ‖rel (rkAdvise twinRhs (maxAbs (6 * 2)) bt cf h x.1 x.2).2.y - (turn h + κ * h ^ 3) * w‖ ≤
          (β * A * C₂ + D₂ * 6e-5) * h ^ 4) := by
    intro hInv hp0
    obtain ⟨g1, g2, g3⟩ := sweeps_series hr (C₁ := C₁) hA (by
      rw [← hK, hC₁]
      have : 0 ≤ β * K + 6e-5 + γ * 6e-5 := by positivity
      linarith) hrow hre hin (t := x.2.time) h0 hs p (fun j hj => (hp0 j hj).1) (fun j hj => by rw [← hw]; exact (hp0 j hj).2)
    rw [← hstp] at g1 g2 g3
    simp only [← hw, ← hK] at g2 g3
    have once := rkAdvise_once twinRhs (maxAbs (6 * 2)) bt cf h x.1 x.2 (by
      rw [← hst]
      exact hquiet h x.2.y st.1 h0 (hle.trans ((min_le_left _ _).trans (min_le_right _ _))) g1)
    simp only [← hst] at once
    have hJ' : C19.Inv cf st.1 := fun hc => by rw [hst, C19.stages_ycorr]; exact hInv hc
    have hadv : (rkAdvance bt cf h { st.1 with tbuf := (rkError (maxAbs (6 * 2)) bt st.1).1 } x.2.y).1 =
        x.2.y + h • ∑ i ∈ range bt.steps, bt.b2 i • st.1.k i :=
      C16.rkAdvance_eq bt cf h { st.1 with tbuf := (rkError (maxAbs (6 * 2)) bt st.1).1 } x.2.y hJ'
    have hal : st.1.allocated = true := by rw [hst, stages_allocated _ _ _ _ _ _ _ _ _ hi]
    obtain ⟨x', hx'⟩ : ∃ x', x' = rkAdvise twinRhs (maxAbs (6 * 2)) bt cf h x.1 x.2 := ⟨_, rfl⟩
    have ey : x'.2.y = x.2.y + h • ∑ i ∈ range bt.steps, bt.b2 i • st.1.k i := by
      rw [hx', once]; exact hadv
    have ek : x'.1.k = st.1.k := by rw [hx', once]
    have ea : x'.1.allocated = true := by rw [hx', once]; exact hal
    have ei : C19.Inv cf x'.1 := by rw [hx', once]; exact fun hc => C19.rkAdvance_inv _ _ _ _ _ hJ' hc
    rw [← hx']
    obtain ⟨w', hw'⟩ : ∃ w', w' = rel x'.2.y := ⟨_, rfl⟩
    have fin : ∀ (g : ℕ → ℂ) (R : ℝ), (∀ i, i < bt.steps → ‖rel (st.1.k i) - I * w * g i‖ ≤ R) →
        ‖w' - w * (1 + h * I * ∑ i ∈ range bt.steps, bt.b2 i * g i)‖ ≤ h * (β * R) := by
      intro g R hg
      rw [hw', ey, hβ, hw]
      exact end_series rel (b := bt.b2) h0.le (y := x.2.y) (k := st.1.k) (by rw [← hw]; exact hg)
    have cb1 : ∑ i ∈ range bt.steps, (bt.b2 i : ℂ) = 1 := by exact_mod_cast hb1
    have cb2 : ∑ i ∈ range bt.steps, (bt.b2 i : ℂ) * (c i : ℂ) = 1 / 2 := by
      have : ((∑ i ∈ range bt.steps, bt.b2 i * c i : ℝ) : ℂ) = ((1 / 2 : ℝ) : ℂ) := by rw [hb2']
      push_cast at this
      exact this
    have cb3 : ∑ i ∈ range bt.steps, (bt.b2 i : ℂ) * (ψ i : ℂ) = Ψ := by
      rw [hΨ]; push_cast; rfl
    have f1 := fin (fun _ => 1) (K * h) (fun i hi => by rw [mul_one]; exact (g2 i hi).1)
    have f2 := fin (fun i => 1 + h * I * (c i : ℂ)) (A * C₁ * h ^ 2) (fun i hi => by
      rw [hc]; exact (g2 i hi).2)
    simp only [mul_one, cb1] at f1
    have e2 : ∑ i ∈ range bt.steps, (bt.b2 i : ℂ) * (1 + h * I * (c i : ℂ)) = 1 + h * I / 2 := by
      simp only [mul_add, mul_one, sum_add_distrib, cb1]
      have : ∑ i ∈ range bt.steps, (bt.b2 i : ℂ) * (h * I * (c i : ℂ)) = h * I * ∑ i ∈ range bt.steps, (bt.b2 i : ℂ) * (c i : ℂ) := by
        rw [mul_sum]; exact sum_congr rfl fun i _ => by ring
      rw [this, cb2]
      ring
    rw [e2] at f2
    have t1 := ht1 h h0.le hh1
    have t2 := ht2 h h0.le hh1
    simp only [sum_range_succ, range_zero, sum_empty, Nat.factorial, pow_zero, zero_add, pow_one] at t1 t2
    push_cast at t1 t2
    refine ⟨?_, ⟨ea, ei, fun j hj => ?_⟩, fun hd => ?_⟩
    · rw [← hw']
      have e : w' - turn h * w = (w' - w * (1 + h * I * (1 + h * I / 2))) -
          (turn h - (1 / 1 + h * I / 1 + (h * I) ^ 2 / 2)) * w := by ring
      rw [e]
      refine (norm_sub_le _ _).trans ?_
      rw [norm_mul]
      have := mul_le_mul t1 hW (norm_nonneg _) (by positivity)
      have e3 : h * (β * (A * C₁ * h ^ 2)) = β * A * C₁ * h ^ 3 := by ring
      rw [e3] at f2
      norm_num at this f2 ⊢
      linarith
    · rw [ek, ← hw']
      refine ⟨(g1 j hj).1, ?_, ?_⟩
      · have e : rel (st.1.k j) - I * w' = (rel (st.1.k j) - I * w) - I * (w' - w * (1 + h * I)) - I * (w * (h * I)) := by ring
        have a1 := (g2 j hj).1
        have a2 : ‖I * (w * (h * I))‖ ≤ 6e-5 * h := by
          rw [norm_mul, norm_mul, norm_mul, norm_I, one_mul, mul_one, norm_real, Real.norm_eq_abs, abs_of_pos h0]
          exact mul_le_mul_of_nonneg_right hW h0.le
        have a3 : ‖I * (w' - w * (1 + h * I))‖ ≤ β * K * h := by
          rw [norm_mul, norm_I, one_mul]
          refine f1.trans ?_
          have : h * (β * (K * h)) = β * K * h * h := by ring
          rw [this]
          exact mul_le_of_le_one_right (by positivity) hh1
        rw [e]
        refine (norm_sub_le _ _).trans ((add_le_add ((norm_sub_le _ _).trans (add_le_add a1 a3)) a2).trans ?_)
        rw [hC₁]
        have : 0 ≤ γ * 6e-5 * h := by positivity
        linarith
      · have hcj : ∑ l ∈ range bt.steps, bt.a j l = c j := by rw [hc]
        rw [hcj]
        have e : rel (st.1.k j) - I * w' * (1 + h * I * ((c j - 1 : ℝ) : ℂ)) = (rel (st.1.k j) - I * w * (1 + h * I * (c j : ℂ))) -
            I * (w' - w * (1 + h * I)) * (1 + h * I * ((c j - 1 : ℝ) : ℂ)) - I * w * ((h * I) ^ 2 * ((c j - 1 : ℝ) : ℂ)) := by
          push_cast; ring
        have hcj1 : |c j - 1| ≤ A + 1 := (abs_sub _ _).trans (by rw [abs_one]; linarith [hcA j hj])
        have a1 : ‖rel (st.1.k j) - I * w * (1 + h * I * (c j : ℂ))‖ ≤ A * C₁ * h ^ 2 := by
          rw [hc]; exact (g2 j hj).2
        have a2 : ‖(1 : ℂ) + h * I * ((c j - 1 : ℝ) : ℂ)‖ ≤ A + 2 := by
          refine (norm_add_le _ _).trans ?_
          rw [norm_one, norm_mul, norm_mul, norm_I, mul_one, norm_real, norm_real, Real.norm_eq_abs, Real.norm_eq_abs, abs_of_pos h0]
          have := mul_le_mul hh1 hcj1 (abs_nonneg _) zero_le_one
          linarith
        have a3 : ‖I * (w' - w * (1 + h * I)) * (1 + h * I * ((c j - 1 : ℝ) : ℂ))‖ ≤ h * (β * (K * h)) * (A + 2) := by
          rw [norm_mul, norm_mul, norm_I, one_mul]
          exact mul_le_mul f1 a2 (norm_nonneg _) (by positivity)
        have a4 : ‖I * w * ((h * I) ^ 2 * ((c j - 1 : ℝ) : ℂ))‖ ≤ 6e-5 * (h ^ 2 * (A + 1)) := by
          rw [norm_mul, norm_mul, norm_I, one_mul, norm_mul, norm_pow, norm_mul, norm_I, mul_one, norm_real, norm_real,
            Real.norm_eq_abs, Real.norm_eq_abs, abs_of_pos h0]
          exact mul_le_mul hW (mul_le_mul_of_nonneg_left hcj1 (by positivity)) (by positivity) (by norm_num)
        rw [e]
        refine (norm_sub_le _ _).trans ((add_le_add ((norm_sub_le _ _).trans (add_le_add a1 a3)) a4).trans (le_of_eq ?_))
        rw [hC₂]
        ring
    · have f3 := fin (fun i => 1 + h * I * (c i : ℂ) + (h * I) ^ 2 * (ψ i : ℂ)) (A * C₂ * h ^ 3) (fun i hi => by
        rw [hψ, hc]
        exact g3 (fun j => ∑ l ∈ range bt.steps, bt.a j l - 1) C₂ hC₁₂ (by rw [hc] at hd; exact hd) i hi)
      have e3 : ∑ i ∈ range bt.steps, (bt.b2 i : ℂ) * (1 + h * I * (c i : ℂ) + (h * I) ^ 2 * (ψ i : ℂ)) =
          1 + h * I / 2 + (h * I) ^ 2 * Ψ := by
        simp only [mul_add, mul_one, sum_add_distrib, cb1]
        have h1 : ∑ i ∈ range bt.steps, (bt.b2 i : ℂ) * (h * I * (c i : ℂ)) =
            h * I * ∑ i ∈ range bt.steps, (bt.b2 i : ℂ) * (c i : ℂ) := by
          rw [mul_sum]; exact sum_congr rfl fun i _ => by ring
        have h2 : ∑ i ∈ range bt.steps, (bt.b2 i : ℂ) * ((h * I) ^ 2 * (ψ i : ℂ)) =
            (h * I) ^ 2 * ∑ i ∈ range bt.steps, (bt.b2 i : ℂ) * (ψ i : ℂ) := by
          rw [mul_sum]; exact sum_congr rfl fun i _ => by ring
        rw [h1, h2, cb2, cb3]
        ring
      rw [e3] at f3
      rw [← hw']
      have e : w' - (turn h + κ * h ^ 3) * w = (w' - w * (1 + h * I * (1 + h * I / 2 + (h * I) ^ 2 * Ψ))) -
          (turn h - (1 / 1 + h * I / 1 + (h * I) ^ 2 / 2 + (h * I) ^ 3 / 6)) * w := by
        rw [hκd]; push_cast; ring
      rw [e]
      refine (norm_sub_le _ _).trans ?_
      rw [norm_mul]
      have := mul_le_mul t2 hW (norm_nonneg _) (by positivity)
      have e3 : h * (β * (A * C₂ * h ^ 3)) = β * A * C₂ * h ^ 4 := by ring
      rw [e3] at f3
      norm_num at this f3 ⊢
      linarith
  refine ⟨fun ⟨hna, hInv⟩ => ?_, fun ⟨ha, hInv, hkept⟩ => ?_⟩
  · have hp' : p = rkFirstApproach twinRhs bt x.2.y x.2.time h ({ x.1 with allocated := true }, x.2.cc) := by
      rw [hp, hna]; rfl
    obtain ⟨m1, m2, -⟩ := main hInv (fun j hj => by
      have := first_soft hin (t := x.2.time) h0 hci hsγ { x.1 with allocated := true } x.2.cc j hj
      rw [hp', hw]
      refine ⟨this.1, this.2.trans ?_⟩
      refine mul_le_mul_of_nonneg_right ?_ h0.le
      rw [hC₁]
      have : 0 ≤ K + β * K := by positivity
      linarith)
    refine ⟨?_, m2⟩
    rw [← hw]
    refine m1.trans (mul_le_mul_of_nonneg_right ?_ (by positivity))
    have : 0 ≤ β * A * C₂ + D₂ * 6e-5 := by positivity
    linarith
  · have hp' : p = ({ x.1 with allocated := true }, x.2.cc) := by
      rw [hp, ha]; rfl
    obtain ⟨-, m2, m3⟩ := main hInv (fun j hj => by
      rw [hp', hw]
      exact ⟨(hkept j hj).1, (hkept j hj).2.1⟩)
    refine ⟨?_, m2⟩
    rw [← hw]
    refine (m3 fun j hj => ?_).trans (mul_le_mul_of_nonneg_right ?_ (by positivity))
    · rw [hp', hw, hc]
      exact (hkept j hj).2.2
    · have : 0 ≤ β * A * C₁ + D₁ * 6e-5 := by positivity
      linarith

end NB
