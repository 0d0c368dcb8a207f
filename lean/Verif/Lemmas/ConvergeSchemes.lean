import Verif.Lemmas.ConvergeRK
import Verif.Props.C14_AdamsRing
import Verif.Props.C24_Stetter
import Verif.Props.C74_SolversOnEngines

/-
Every scheme of the library converges to the solutions of a Lipschitz autonomous equation.
-/

namespace NB

open Finset
open C74 (runScheme plain)

section
variable {E : Type} [NormedAddCommGroup E] [NormedSpace ℝ E]

/-- A right hand side: what the evaluation number `k`, at the time `t`, gives for a state. -/
abbrev Rhs : Type := ℕ → ℝ → (ℕ → ℝ) → ℕ → ℝ

/-- Steps of the scheme not longer than `δ`, from a state near the beginning of a solution, end near the solution; up
to `η` if the weights of the scheme are rounded, and up to `θ` if the derivative is computed up to `θ`. -/
def SchemeConverges (π : (ℕ → ℝ) →ₗ[ℝ] E) (f : E → E) (η : ℝ) {σ : Type}
    (adv : Rhs → ℝ → σ × Eng (ℕ → ℝ) ℝ → Res (σ × Eng (ℕ → ℝ) ℝ)) (I : σ → Prop) : Prop :=
  ∀ (T : ℝ) (x : ℝ → E), 0 ≤ T → Solves f T x → ∃ C δ₀ : ℝ, 0 ≤ C ∧ 0 < δ₀ ∧
    ∀ (F : Rhs) (θ : ℝ), 0 ≤ θ → Within π f θ F →
    ∀ (dts : List ℝ) (δ : ℝ), 0 ≤ δ → δ ≤ δ₀ →
    (∀ d ∈ dts, 0 < d ∧ d ≤ δ) → dts.sum ≤ T → ∀ s e q, I s → runScheme (adv F) dts (s, e) = .ok q →
    ‖π q.2.y - x dts.sum‖ ≤ C * (‖π e.y - x 0‖ + δ + η + θ)

/-- Steps made one after another; between them someone else may evaluate the derivative. -/
inductive Loose {σ : Type} (adv : ℝ → σ × Eng (ℕ → ℝ) ℝ → Res (σ × Eng (ℕ → ℝ) ℝ)) :
    List ℝ → σ × Eng (ℕ → ℝ) ℝ → σ × Eng (ℕ → ℝ) ℝ → Prop
  | nil (x : σ × Eng (ℕ → ℝ) ℝ) : Loose adv [] x x
  | cons {dt : ℝ} {dts : List ℝ} {s : σ} {e : Eng (ℕ → ℝ) ℝ} {q q' : σ × Eng (ℕ → ℝ) ℝ} (c : ℕ)
      (h : adv dt (s, { e with cc := c }) = .ok q) (t : Loose adv dts q q') : Loose adv (dt :: dts) (s, e) q'

lemma loose_of_run {σ : Type} {adv : ℝ → σ × Eng (ℕ → ℝ) ℝ → Res (σ × Eng (ℕ → ℝ) ℝ)} (dts : List ℝ) :
    ∀ x q, runScheme adv dts x = .ok q → Loose adv dts x q := by
  induction dts with
  | nil => intro x q h; cases h; exact .nil x
  | cons dt dts ih =>
    intro x q h
    unfold runScheme at h
    rw [List.foldlM_cons] at h
    cases hq : adv dt x with
    | error er => rw [hq] at h; cases h
    | ok q1 =>
      rw [hq] at h
      exact .cons x.2.cc hq (ih q1 q h)

lemma Loose.snoc {σ : Type} {adv : ℝ → σ × Eng (ℕ → ℝ) ℝ → Res (σ × Eng (ℕ → ℝ) ℝ)} {dts : List ℝ}
    {x : σ × Eng (ℕ → ℝ) ℝ} {s : σ} {e : Eng (ℕ → ℝ) ℝ} (h : Loose adv dts x (s, e)) {dt : ℝ} {q : σ × Eng (ℕ → ℝ) ℝ} (c : ℕ)
    (hq : adv dt (s, { e with cc := c }) = .ok q) : Loose adv (dts ++ [dt]) x q := by
  generalize hy : (s, e) = y at h
  induction h with
  | nil x => subst hy; exact .cons c hq (.nil q)
  | cons c' h' _ ih => exact .cons c' h' (ih hy)

/-- The same for such steps. -/
def LooseConverges (π : (ℕ → ℝ) →ₗ[ℝ] E) (f : E → E) (η : ℝ) {σ : Type}
    (adv : Rhs → ℝ → σ × Eng (ℕ → ℝ) ℝ → Res (σ × Eng (ℕ → ℝ) ℝ)) (I : σ → Prop) : Prop :=
  ∀ (T : ℝ) (x : ℝ → E), 0 ≤ T → Solves f T x → ∃ C δ₀ : ℝ, 0 ≤ C ∧ 0 < δ₀ ∧
    ∀ (F : Rhs) (θ : ℝ), 0 ≤ θ → Within π f θ F →
    ∀ (dts : List ℝ) (δ : ℝ), 0 ≤ δ → δ ≤ δ₀ →
    (∀ d ∈ dts, 0 < d ∧ d ≤ δ) → dts.sum ≤ T → ∀ s e q, I s → Loose (adv F) dts (s, e) q →
    ‖π q.2.y - x dts.sum‖ ≤ C * (‖π e.y - x 0‖ + δ + η + θ)

variable {π : (ℕ → ℝ) →ₗ[ℝ] E} {f : E → E} {L : ℝ}

lemma LooseConverges.scheme {η : ℝ} {σ : Type} {adv : Rhs → ℝ → σ × Eng (ℕ → ℝ) ℝ → Res (σ × Eng (ℕ → ℝ) ℝ)} {I : σ → Prop}
    (h : LooseConverges π f η adv I) : SchemeConverges π f η adv I := by
  intro T x hT hx
  obtain ⟨C, δ₀, hC, hδ₀, key⟩ := h T x hT hx
  exact ⟨C, δ₀, hC, hδ₀, fun F θ hθ hF dts δ hδ hδ' hd hS s e q hI hq =>
    key F θ hθ hF dts δ hδ hδ' hd hS s e q hI (loose_of_run _ _ _ hq)⟩

lemma solves_bounded (hL : 0 ≤ L) (hf : ∀ a b, ‖f a - f b‖ ≤ L * ‖a - b‖) {T : ℝ} {x : ℝ → E} (hx : Solves f T x) :
    ∃ B, 0 ≤ B ∧ ∀ t ∈ Set.Icc (0 : ℝ) T, ‖f (x t)‖ ≤ B := by
  have hc : Continuous f := by
    refine LipschitzWith.continuous (K := L.toNNReal) (LipschitzWith.of_dist_le_mul fun a b => ?_)
    rw [dist_eq_norm, dist_eq_norm, Real.coe_toNNReal _ hL]
    exact hf a b
  obtain ⟨B, hB⟩ := isCompact_Icc.exists_bound_of_continuousOn (s := Set.Icc (0 : ℝ) T) (f := fun t => f (x t))
    (hc.comp_continuousOn fun t ht => (hx t ht).continuousWithinAt)
  exact ⟨max B 0, le_max_right _ _, fun t ht => (hB t ht).trans (le_max_left _ _)⟩

/-- The bound of `converge` in terms of the first error and the largest step. -/
lemma bound_le {e0 c B δ η K θ δ₀ S T : ℝ} (hL : 0 ≤ L) (hc : 0 ≤ c) (hB : 0 ≤ B) (he : 0 ≤ e0) (hδ : 0 ≤ δ)
    (hη : 0 ≤ η) (hη1 : η ≤ 1) (hK : 0 ≤ K) (hθ : 0 ≤ θ) (hδ₀ : δ ≤ δ₀) (hS : 0 ≤ S) (hST : S ≤ T) :
    (e0 + (((L + c) * δ + η) * B + (c * δ + η + K) * θ) * S) * Real.exp (L * (1 + (c * δ + η)) * S) ≤
      ((1 + ((L + c + 1) * B + (c * δ₀ + 1 + K)) * T) * Real.exp (L * (1 + (c * δ₀ + 1)) * T)) * (e0 + δ + η + θ) := by
  have hT : 0 ≤ T := hS.trans hST
  have hδ₀' : 0 ≤ δ₀ := hδ.trans hδ₀
  have h1 : Real.exp (L * (1 + (c * δ + η)) * S) ≤ Real.exp (L * (1 + (c * δ₀ + 1)) * T) := by
    refine Real.exp_le_exp.2 ?_
    gcongr
  have h2 : e0 + (((L + c) * δ + η) * B + (c * δ + η + K) * θ) * S ≤
      (1 + ((L + c + 1) * B + (c * δ₀ + 1 + K)) * T) * (e0 + δ + η + θ) := by
    have q1 : (((L + c) * δ + η) * B + (c * δ + η + K) * θ) * S ≤
        (((L + c + 1) * B) * (δ + η) + (c * δ₀ + 1 + K) * θ) * T := by
      have r1 : ((L + c) * δ + η) * B ≤ ((L + c + 1) * B) * (δ + η) := by
        have t1 : 0 ≤ B * δ := by positivity
        have t2 : 0 ≤ (L + c) * (B * η) := by positivity
        nlinarith
      have r2 : (c * δ + η + K) * θ ≤ (c * δ₀ + 1 + K) * θ := by gcongr
      refine mul_le_mul (add_le_add r1 r2) hST hS (by positivity)
    have q2 : (((L + c + 1) * B) * (δ + η) + (c * δ₀ + 1 + K) * θ) * T ≤
        ((L + c + 1) * B + (c * δ₀ + 1 + K)) * T * (e0 + δ + η + θ) := by
      have t1 : 0 ≤ (L + c + 1) * B * T * (e0 + θ) := by positivity
      have t2 : 0 ≤ (c * δ₀ + 1 + K) * T * (e0 + δ + η) := by positivity
      nlinarith
    have q3 : e0 ≤ e0 + δ + η + θ := by linarith
    calc _ ≤ (e0 + δ + η + θ) + ((L + c + 1) * B + (c * δ₀ + 1 + K)) * T * (e0 + δ + η + θ) :=
          add_le_add q3 (q1.trans q2)
      _ = _ := by ring
  calc _ ≤ (1 + ((L + c + 1) * B + (c * δ₀ + 1 + K)) * T) * (e0 + δ + η + θ) *
        Real.exp (L * (1 + (c * δ₀ + 1)) * T) := mul_le_mul h2 h1 (Real.exp_nonneg _) (by positivity)
    _ = _ := by ring

/-- A scheme whose steps are walks of steps close to Euler's converges. -/
lemma scheme_converges_of_walk {σ : Type} {adv : Rhs → ℝ → σ × Eng (ℕ → ℝ) ℝ → Res (σ × Eng (ℕ → ℝ) ℝ)} {I : σ → Prop}
    (hL : 0 ≤ L) (hf : ∀ a b, ‖f a - f b‖ ≤ L * ‖a - b‖) {P : Rhs → ℝ → ℝ → (ℕ → ℝ) → (ℕ → ℝ) → Prop} {c η K τ : ℝ}
    (hc : 0 ≤ c) (hη : 0 ≤ η) (hη1 : η ≤ 1) (hK : 0 ≤ K) (hτ : 0 < τ)
    (hP : ∀ F θ, 0 ≤ θ → Within π f θ F → Close π f c η K θ τ (P F θ))
    (hw : ∀ F θ, 0 ≤ θ → Within π f θ F →
      ∀ dts : List ℝ, (∀ d ∈ dts, 0 < d ∧ d ≤ τ) → ∀ s e q, I s → Loose (adv F) dts (s, e) q →
      ∃ hs : List ℝ, hs.sum = dts.sum ∧ (∀ h ∈ hs, 0 < h ∧ ∃ d ∈ dts, h ≤ d) ∧ Walk (P F θ) hs e.y q.2.y) :
    LooseConverges π f η adv I := by
  intro T x hT hx
  obtain ⟨B, hB0, hB⟩ := solves_bounded hL hf hx
  refine ⟨(1 + ((L + c + 1) * B + (c * τ + 1 + K)) * T) * Real.exp (L * (1 + (c * τ + 1)) * T), τ, by positivity, hτ, ?_⟩
  intro F θ hθ hF dts δ hδ hδτ hd hS s e q hI hq
  obtain ⟨hs, h1, h2, h3⟩ := hw F θ hθ hF dts (fun d hd' => ⟨(hd d hd').1, (hd d hd').2.trans hδτ⟩) s e q hI hq
  have hS0 : 0 ≤ dts.sum := List.sum_nonneg fun d hd' => (hd d hd').1.le
  have := walk_converges hL hf hc hη hK hθ (hP F θ hθ hF) hx hB hδ hδτ (a := hs)
    (fun h hh => ⟨(h2 h hh).1, by obtain ⟨d, hd1, hd2⟩ := (h2 h hh).2; exact hd2.trans (hd d hd1).2⟩)
    (by rw [h1]; exact hS) h3
  rw [h1] at this
  exact this.trans (bound_le hL hc hB0 (norm_nonneg _) hδ hη hη1 hK hθ hδτ hS0 hS)

/-- One step after another. -/
lemma scheme_walk {σ : Type} {adv : ℝ → σ × Eng (ℕ → ℝ) ℝ → Res (σ × Eng (ℕ → ℝ) ℝ)} {I : σ → (ℕ → ℝ) → Prop}
    {P : ℝ → (ℕ → ℝ) → (ℕ → ℝ) → Prop} {τ : ℝ}
    (hP : ∀ dt x e q, 0 < dt → dt ≤ τ → I x e.y → adv dt (x, e) = .ok q → I q.1 q.2.y ∧ P dt e.y q.2.y) (dts : List ℝ) :
    (∀ d ∈ dts, 0 < d ∧ d ≤ τ) → ∀ x e q, I x e.y → Loose adv dts (x, e) q →
    I q.1 q.2.y ∧ Walk P dts e.y q.2.y := by
  induction dts with
  | nil => intro _ x e q hI h; cases h; exact ⟨hI, rfl⟩
  | cons dt dts ih =>
    intro hd x e q hx h
    cases h with
    | @cons _ _ _ _ q1 _ c hq h =>
      obtain ⟨h1, h2⟩ := hP dt x { e with cc := c } q1 (hd dt (by simp)).1 (hd dt (by simp)).2 hx hq
      obtain ⟨h3, h4⟩ := ih (fun d hd' => hd d (by simp [hd'])) q1.1 q1.2 q h1 h
      exact ⟨h3, q1.2.y, h2, h4⟩

/-- A one-step scheme close to Euler's converges. -/
lemma scheme_converges_of_close {σ : Type} {adv : Rhs → ℝ → σ × Eng (ℕ → ℝ) ℝ → Res (σ × Eng (ℕ → ℝ) ℝ)} {I : σ → Prop}
    (hL : 0 ≤ L) (hf : ∀ a b, ‖f a - f b‖ ≤ L * ‖a - b‖) {P : Rhs → ℝ → ℝ → (ℕ → ℝ) → (ℕ → ℝ) → Prop} {c K τ : ℝ}
    (hc : 0 ≤ c) (hK : 0 ≤ K) (hτ : 0 < τ) (hP : ∀ F θ, 0 ≤ θ → Within π f θ F → Close π f c 0 K θ τ (P F θ))
    (hw : ∀ F θ, 0 ≤ θ → Within π f θ F →
      ∀ dt x e q, 0 < dt → dt ≤ τ → I x → adv F dt (x, e) = .ok q → I q.1 ∧ P F θ dt e.y q.2.y) :
    LooseConverges π f 0 adv I :=
  scheme_converges_of_walk hL hf hc le_rfl zero_le_one hK hτ hP fun F θ hθ hF dts hd s e q hI hq =>
    ⟨dts, rfl, fun h hh => ⟨(hd h hh).1, h, hh, le_rfl⟩,
      (scheme_walk (I := fun x _ => I x) (τ := τ) (hw F θ hθ hF) dts hd s e q hI hq).2⟩

/-! ### Explicit schemes -/

lemma scheme_converges_of_erk {adv : Rhs → ℝ → Eng (ℕ → ℝ) ℝ → Eng (ℕ → ℝ) ℝ} (hL : 0 ≤ L)
    (hf : ∀ a b, ‖f a - f b‖ ≤ L * ‖a - b‖) (s : ℕ) (a : ℕ → ℕ → ℝ) (b c : ℕ → ℝ) (hb : ∑ i ∈ range s, b i = 1)
    (h : ∀ F dt e, Spec.ERKStep F e.cc s a b c e.time dt e.y (adv F dt e).y) :
    LooseConverges π f 0 (fun F => plain (adv F)) (fun _ => True) := by
  obtain ⟨C, hC, hcl⟩ := erk_close (π := π) hL hf s a b c (τ := 1) zero_le_one
  rw [hb, sub_self, abs_zero] at hcl
  refine scheme_converges_of_close (P := fun F _ d y y' => ∃ n₀ t, Spec.ERKStep F n₀ s a b c t d y y') hL hf hC
    (sum_nonneg fun _ _ => abs_nonneg _) one_pos hcl fun F θ _ _ dt x e q _ _ _ hq => ?_
  cases hq
  exact ⟨trivial, e.cc, e.time, h F dt e⟩

lemma euler_converges (hL : 0 ≤ L) (hf : ∀ a b, ‖f a - f b‖ ≤ L * ‖a - b‖) :
    LooseConverges π f 0 (fun F => plain (eulerAdvise F)) (fun _ => True) :=
  scheme_converges_of_erk hL hf _ _ _ _ (by simp) fun F dt e => C16.euler_is_erk F dt e

lemma midpoint_converges (hL : 0 ≤ L) (hf : ∀ a b, ‖f a - f b‖ ≤ L * ‖a - b‖) :
    LooseConverges π f 0 (fun F => plain (midpointAdvise F)) (fun _ => True) :=
  scheme_converges_of_erk hL hf _ _ _ _ (by simp [sum_range_succ]) fun F dt e => C16.midpoint_is_erk F dt e

lemma classicB_sum : ∑ i ∈ range 4, C16.classicB (K := ℝ) i = 1 := by
  simp only [sum_range_succ, range_zero, sum_empty, C16.classicB]
  norm_num

lemma rk4_converges (hL : 0 ≤ L) (hf : ∀ a b, ‖f a - f b‖ ≤ L * ‖a - b‖) :
    LooseConverges π f 0 (fun F => plain (rk4Advise F)) (fun _ => True) :=
  scheme_converges_of_erk hL hf _ _ _ _ classicB_sum fun F dt e => C16.rk4_is_erk F dt e

lemma trapB_sum (refine : ℕ) : ∑ i ∈ range (refine + 2), C65.trapB (K := ℝ) refine i = 1 := by
  have := C65.sum_trapB (V := ℝ) (K := ℝ) refine (fun _ => 1)
  simp only [smul_eq_mul, mul_one] at this
  rw [this]; norm_num

lemma trapeze_converges (hL : 0 ≤ L) (hf : ∀ a b, ‖f a - f b‖ ≤ L * ‖a - b‖) (refine : ℕ) :
    LooseConverges π f 0 (fun F => plain (trapezeAdvise F refine)) (fun _ => True) :=
  scheme_converges_of_erk hL hf _ _ _ _ (trapB_sum refine) fun F dt e => C65.trapeze_is_erk two_ne_zero F refine dt e

/-! ### The table-driven solver -/

/-- What the solver needs of its table to be consistent, up to `η`. -/
structure GoodTable (η : ℝ) (bt : BT ℝ) (cf : RKConf ℝ) : Prop where
  subdivisions : 0 < cf.subdivisions
  weights : |(∑ i ∈ range bt.steps, bt.b2 i) - 1| ≤ η
  small : η ≤ 1
  explicit : bt.implicit = false → cf.correction = true ∨ C16.RowsNonzero bt
  implicit : bt.implicit = true → C65.FullRows bt ∧ 1 ≤ cf.refine

lemma rk_converges (hL : 0 ≤ L) (hf : ∀ a b, ‖f a - f b‖ ≤ L * ‖a - b‖)
    (N : (ℕ → ℝ) → ℝ) {η : ℝ} {bt : BT ℝ} {cf : RKConf ℝ} (hg : GoodTable η bt cf) :
    LooseConverges π f η (fun F dt x => .ok (rkAdvise F N bt cf dt x.1 x.2))
      (fun r => r.allocated = false ∧ C19.Inv cf r) := by
  set β := ∑ i ∈ range bt.steps, |bt.b2 i| with hβ
  have hβ0 : 0 ≤ β := sum_nonneg fun i _ => abs_nonneg _
  -- from substeps to the solver
  have main : ∀ (P : Rhs → ℝ → ℝ → (ℕ → ℝ) → (ℕ → ℝ) → Prop) (J : ℝ → (ℕ → ℕ → ℝ) → (ℕ → ℝ) → Prop) (c τ : ℝ),
      0 ≤ c → 0 < τ →
      (∀ F θ, 0 ≤ θ → Within π f θ F → Close π f c η β θ τ (P F θ)) →
      (∀ F θ, 0 ≤ θ → Within π f θ F →
        ∀ first r cc y t h, 0 < h → h ≤ τ → C19.Inv cf r → (first = true ∨ J θ r.k y) →
        J θ (rkStages F bt cf first y t h (r, cc)).1.k y ∧
        J θ (rkStages F bt cf first y t h (r, cc)).1.k
          (endOf bt h y (rkStages F bt cf first y t h (r, cc)).1.k) ∧
        P F θ h y (endOf bt h y (rkStages F bt cf first y t h (r, cc)).1.k)) →
      LooseConverges π f η (fun F dt x => .ok (rkAdvise F N bt cf dt x.1 x.2))
        (fun r => r.allocated = false ∧ C19.Inv cf r) := by
    intro P J c τ hc hτ hP hst
    refine scheme_converges_of_walk hL hf hc ((abs_nonneg _).trans hg.weights) hg.small hβ0 hτ hP
      fun F θ hθ hF dts hd s e q hI hq => ?_
    obtain ⟨-, hwalk⟩ := scheme_walk (I := fun (x : RKState (ℕ → ℝ)) (y : ℕ → ℝ) =>
        C19.Inv cf x ∧ ((!x.allocated) = true ∨ J θ x.k y))
      (P := fun d y y' => ∃ hs : List ℝ, hs.sum = d ∧ (∀ h ∈ hs, 0 < h ∧ h ≤ d) ∧ Walk (P F θ) hs y y') (τ := τ)
      (fun dt x e q h0 hle hI hq => by
        cases hq
        obtain ⟨h1, h2, hs, h3, h4, h5⟩ := subStep_walk (nrm := N) hg.subdivisions (hst F θ hθ hF) cf.maxRecursion 1 dt
          { r := x, cc := e.cc, t := e.time, y := e.y } h0 hle hI.1 hI.2
        exact ⟨⟨h1, Or.inr (h2 one_pos)⟩, hs, by rw [h3]; simp, h4, h5⟩) dts hd s e q
      ⟨hI.2, Or.inl (by rw [hI.1]; rfl)⟩ hq
    exact hwalk.flatten
  have hmono : ∀ (C d θ : ℝ) (y : ℕ → ℝ), 0 < d → 0 ≤ θ →
      ((C * d + |(∑ i ∈ range bt.steps, bt.b2 i) - 1|) * (‖f (π y)‖ + θ) + β * θ) * d ≤
      ((C * d + η) * (‖f (π y)‖ + θ) + β * θ) * d := fun C d θ y h0 hθ => by
    have := hg.weights
    gcongr
  cases hi : bt.implicit with
  | false =>
    obtain ⟨C, hC, hcl⟩ := erk_close (π := π) hL hf bt.steps bt.a bt.b2 bt.c (τ := 1) zero_le_one
    refine main (fun F _ d y y' => ∃ n₀ t, Spec.ERKStep F n₀ bt.steps bt.a bt.b2 bt.c t d y y') (fun _ _ _ => True)
      C 1 hC one_pos (fun F θ hθ hF d y y' h0 h1 h2 => (hcl F θ hθ hF d y y' h0 h1 h2).trans (hmono C d θ y h0 hθ))
      fun F θ hθ hF first r cc y t h h0 hle hI _ => ⟨trivial, trivial, cc, t, ?_⟩
    exact explicit_stages bt cf hi (hg.explicit hi) first r cc y t h h0 hI
  | true =>
    obtain ⟨hr, hre⟩ := hg.implicit hi
    obtain ⟨C, κ, δ, hC, _, hδ, hst⟩ := implicit_stages (π := π) hL hf bt cf hi hr hre
    exact main (fun _ θ d y y' => ‖π y' - π y - d • f (π y)‖ ≤
        ((C * d + |(∑ i ∈ range bt.steps, bt.b2 i) - 1|) * (‖f (π y)‖ + θ) + β * θ) * d)
      (fun θ => StagesOk π f θ bt.steps) C δ hC hδ
      (fun F θ hθ hF d y y' h0 _ h => h.trans (hmono C d θ y h0 hθ))
      fun F θ hθ hF first r cc y t h h0 hle _ hJ => by
        obtain ⟨h1, h2, -, -, h3⟩ := hst F θ hθ hF first r cc y t h h0 hle hJ
        exact ⟨h1, h2, h3⟩

/-! ### Stetter's scheme -/

/-- The derivative kept for the next step is that of `m_u`, up to `θ`. -/
def Kept (π : (ℕ → ℝ) →ₗ[ℝ] E) (f : E → E) (θ : ℝ) (s : Stetter (ℕ → ℝ)) : Prop :=
  (s.allocated && s.initiated) = true → ‖π s.fu0 - f (π s.u)‖ ≤ θ

/-- The pair `(m_u, m_v)` of the next step. -/
lemma stetter_pair {F : Rhs} {θ : ℝ} (hF : Within π f θ F) (dt : ℝ) (s : Stetter (ℕ → ℝ)) (e : Eng (ℕ → ℝ) ℝ)
    (h : Kept π f θ s) :
    PairStep π f θ dt (C24.startPair s e) ((stetterAdvise F dt s e).1.u, (stetterAdvise F dt s e).1.v) ∧
    Kept π f θ (stetterAdvise F dt s e).1 ∧
    ((stetterAdvise F dt s e).1.allocated && (stetterAdvise F dt s e).1.initiated) = true ∧
    C24.startPair (stetterAdvise F dt s e).1 (stetterAdvise F dt s e).2 =
      ((stetterAdvise F dt s e).1.u, (stetterAdvise F dt s e).1.v) ∧
    (stetterAdvise F dt s e).2.y = (1 / 2 : ℝ) • ((stetterAdvise F dt s e).1.u + (stetterAdvise F dt s e).1.v) := by
  have hall : ((stetterAdvise F dt s e).1.allocated && (stetterAdvise F dt s e).1.initiated) = true := by
    rcases hb : (s.allocated && s.initiated) with _ | _
    · have hf : (!s.allocated || !s.initiated) = true := by
        revert hb; cases s.allocated <;> cases s.initiated <;> simp
      simp [stetterAdvise, hf]
    · have hf : (!s.allocated || !s.initiated) = false := by
        revert hb; cases s.allocated <;> cases s.initiated <;> simp
      have hb' : s.allocated = true ∧ s.initiated = true := by simpa using hb
      simp [stetterAdvise, hf, hb']
  have hmain : PairStep π f θ dt (C24.startPair s e) ((stetterAdvise F dt s e).1.u, (stetterAdvise F dt s e).1.v) ∧
      ‖π (stetterAdvise F dt s e).1.fu0 - f (π (stetterAdvise F dt s e).1.u)‖ ≤ θ ∧
      (stetterAdvise F dt s e).2.y =
        (1 / 2 : ℝ) • ((stetterAdvise F dt s e).1.u + (stetterAdvise F dt s e).1.v) := by
    rcases hb : (s.allocated && s.initiated) with _ | _
    · have hf : (!s.allocated || !s.initiated) = true := by
        revert hb; cases s.allocated <;> cases s.initiated <;> simp
      simp only [stetterAdvise, hf, if_true, C24.startPair, hb, Bool.false_eq_true, if_false, Eng.fc, Eng.adviseTime,
        vfmadd, vfmaddnInplace_eq, vfmaddn_none, Finset.sum_range_succ, Finset.range_zero, Finset.sum_empty, zero_add]
      refine ⟨⟨_, _, _, hF _ _ _, hF _ _ _, hF (e.cc + 1 + 1) (e.time + dt) _, rfl, ?_⟩, hF _ _ _, by simp⟩
      simp [smul_add]
    · have hf : (!s.allocated || !s.initiated) = false := by
        revert hb; cases s.allocated <;> cases s.initiated <;> simp
      simp only [stetterAdvise, hf, C24.startPair, hb, if_true, Bool.false_eq_true, if_false, Eng.fc, Eng.adviseTime,
        vfmadd, vfmaddnInplace_eq, vfmaddn_none, Finset.sum_range_succ, Finset.range_zero, Finset.sum_empty, zero_add]
      refine ⟨⟨_, _, _, h hb, hF _ _ _, hF (e.cc + 1) (e.time + dt) _, rfl, ?_⟩, hF _ _ _, by simp⟩
      simp [smul_add]
  refine ⟨hmain.1, fun _ => hmain.2.1, hall, ?_, hmain.2.2⟩
  unfold C24.startPair
  rw [hall]
  rfl

/-- The mean of the pair. -/
lemma mean_le (z : E) (a b : ℕ → ℝ) {r : ℝ} (h : ‖(π.prodMap π) (a, b) - (z, z)‖ ≤ r) :
    ‖π ((1 / 2 : ℝ) • (a + b)) - z‖ ≤ r := by
  have h1 : ‖π a - z‖ ≤ r := (norm_fst_le ((π.prodMap π) (a, b) - (z, z))).trans h
  have h2 : ‖π b - z‖ ≤ r := (norm_snd_le ((π.prodMap π) (a, b) - (z, z))).trans h
  have e : π ((1 / 2 : ℝ) • (a + b)) - z = (1 / 2 : ℝ) • (π a - z) + (1 / 2 : ℝ) • (π b - z) := by
    rw [map_smul, map_add]; module
  rw [e]
  refine (norm_add_le _ _).trans ?_
  rw [norm_smul, norm_smul, Real.norm_eq_abs, abs_of_pos (by norm_num)]
  linarith

/-- The walk of the pairs. -/
lemma stetter_run_walk {F : Rhs} {θ : ℝ} (hF : Within π f θ F) (dts : List ℝ) :
    ∀ (s : Stetter (ℕ → ℝ)) (e : Eng (ℕ → ℝ) ℝ) (q : Stetter (ℕ → ℝ) × Eng (ℕ → ℝ) ℝ),
    Kept π f θ s →
    (s.allocated && s.initiated) = true ∧ e.y = (1 / 2 : ℝ) • (s.u + s.v) ∨ (s.allocated && s.initiated) = false →
    Loose (fun dt x => .ok (stetterAdvise F dt x.1 x.2)) dts (s, e) q →
    Walk (PairStep π f θ) dts (C24.startPair s e) (C24.startPair q.1 q.2) ∧
      q.2.y = (1 / 2 : ℝ) • ((C24.startPair q.1 q.2).1 + (C24.startPair q.1 q.2).2) := by
  induction dts with
  | nil =>
    intro s e q _ hy h
    cases h
    refine ⟨rfl, ?_⟩
    unfold C24.startPair
    rcases hy with ⟨h1, h2⟩ | h1
    · simp only [h1, if_true]; exact h2
    · simp only [h1, Bool.false_eq_true, if_false]
      rw [← two_smul ℝ, smul_smul]; norm_num
  | cons dt dts ih =>
    intro s e q hs hy h
    cases h with
    | cons c hq h =>
      cases hq
      obtain ⟨g1, g2, ga, g3, g4⟩ := stetter_pair hF dt s { e with cc := c } hs
      obtain ⟨k1, k2⟩ := ih _ _ q g2 (Or.inl ⟨ga, g4⟩) h
      rw [g3] at k1
      exact ⟨⟨_, g1, k1⟩, k2⟩

lemma stetter_converges (hL : 0 ≤ L) (hf : ∀ a b, ‖f a - f b‖ ≤ L * ‖a - b‖) :
    LooseConverges π f 0 (fun F dt x => .ok (stetterAdvise F dt x.1 x.2))
      (fun s => (s.allocated && s.initiated) = false) := by
  intro T x hT hx
  obtain ⟨B, hB0, hB⟩ := solves_bounded hL hf hx
  set c := L * (2 + L * 1) with hc
  have hc0 : 0 ≤ c := by positivity
  refine ⟨(1 + ((L + c + 1) * B + (c * 1 + 1 + 1)) * T) * Real.exp (L * (1 + (c * 1 + 1)) * T), 1, by positivity, one_pos, ?_⟩
  intro F θ hθ hF dts δ hδ hδ1 hd hS s e q hI hq
  have hS0 : 0 ≤ dts.sum := List.sum_nonneg fun d hd' => (hd d hd').1.le
  obtain ⟨hw, hy⟩ := stetter_run_walk hF dts s e q (fun h => by rw [hI] at h; cases h) (Or.inr hI) hq
  have h0 : C24.startPair s e = (e.y, e.y) := by unfold C24.startPair; rw [hI]; rfl
  rw [h0] at hw
  have hswB : ∀ t ∈ Set.Icc (0 : ℝ) T, ‖swapped f (x t, x t)‖ ≤ B := fun t ht =>
    norm_prod_le_iff.2 ⟨hB t ht, hB t ht⟩
  have := walk_converges hL (swapped_lip hL hf) hc0 le_rfl zero_le_one hθ (pair_close hL hf zero_le_one hθ) hx.pair hswB
    hδ hδ1 hd hS hw
  have e0 : ‖(π.prodMap π) (e.y, e.y) - (x 0, x 0)‖ = ‖π e.y - x 0‖ := by
    show max ‖π e.y - x 0‖ ‖π e.y - x 0‖ = _
    exact max_self _
  rw [e0] at this
  rw [hy]
  exact (mean_le (π := π) (x dts.sum) _ _ this).trans
    (bound_le hL hc0 hB0 (norm_nonneg _) hδ le_rfl zero_le_one zero_le_one hθ hδ1 hS0 hS)

/-! ### Bulirsch-Stoer -/

/-- A level: equal steps of Stetter's scheme. -/
lemma level_walk {F : Rhs} {θ : ℝ} (hF : Within π f θ F) (n : ℕ → ℕ) (dt t0 : ℝ) (y : ℕ → ℝ) (c0 l : ℕ) (hn : 0 < n l) :
    ∃ p : (ℕ → ℝ) × (ℕ → ℝ), Walk (PairStep π f θ) (List.replicate (n l) (dt / (n l : ℝ))) (y, y) p ∧
      bsLevel F n dt t0 y c0 l = (1 / 2 : ℝ) • (p.1 + p.2) := by
  let Q : ℕ → Stetter (ℕ → ℝ) × Eng (ℕ → ℝ) ℝ := fun m =>
    foldN m (Stetter.new, (⟨y, t0, 0, c0 + bsEvals n l⟩ : Eng (ℕ → ℝ) ℝ))
      (fun _ q => stetterAdvise F (dt / (n l : ℝ)) q.1 q.2)
  have key : ∀ m,
      Walk (PairStep π f θ) (List.replicate m (dt / (n l : ℝ))) (y, y) (C24.startPair (Q m).1 (Q m).2) ∧
      Kept π f θ (Q m).1 ∧
      (0 < m → (Q m).2.y = (1 / 2 : ℝ) • ((C24.startPair (Q m).1 (Q m).2).1 + (C24.startPair (Q m).1 (Q m).2).2)) := by
    intro m
    induction m with
    | zero => exact ⟨rfl, fun h => (by cases h), fun h => absurd h (by omega)⟩
    | succ m ih =>
      obtain ⟨h1, h2, -⟩ := ih
      obtain ⟨g1, g2, -, g3, g4⟩ := stetter_pair hF (dt / (n l : ℝ)) _ (Q m).2 h2
      refine ⟨?_, g2, fun _ => ?_⟩
      · rw [List.replicate_succ']
        show Walk _ _ _ (C24.startPair (stetterAdvise _ _ (Q m).1 (Q m).2).1 (stetterAdvise _ _ (Q m).1 (Q m).2).2)
        rw [g3]
        exact h1.append ⟨_, g1, rfl⟩
      · show (stetterAdvise _ _ (Q m).1 (Q m).2).2.y = (1 / 2 : ℝ) •
          ((C24.startPair (stetterAdvise _ _ (Q m).1 (Q m).2).1 (stetterAdvise _ _ (Q m).1 (Q m).2).2).1 +
            (C24.startPair (stetterAdvise _ _ (Q m).1 (Q m).2).1 (stetterAdvise _ _ (Q m).1 (Q m).2).2).2)
        rw [g3]
        exact g4
  obtain ⟨h1, -, h3⟩ := key (n l)
  exact ⟨_, h1, h3 hn⟩

/-- A level is close to Euler's step. -/
lemma level_close (hL : 0 ≤ L) (hf : ∀ a b, ‖f a - f b‖ ≤ L * ‖a - b‖) :
    ∃ c, 0 ≤ c ∧ ∀ (F : Rhs) (θ : ℝ), 0 ≤ θ → Within π f θ F →
      ∀ (n : ℕ → ℕ) (dt t0 : ℝ) (y : ℕ → ℝ) (c0 l : ℕ), 0 < n l → 0 < dt → dt ≤ 1 →
      ‖π (bsLevel F n dt t0 y c0 l) - (π y + dt • f (π y))‖ ≤ (c * dt * (‖f (π y)‖ + θ) + θ) * dt := by
  set c := L * (2 + L * 1) with hc
  have hc0 : 0 ≤ c := by positivity
  refine ⟨(c + L * (1 + c * 1 + 1)) * Real.exp (L * (1 + c * 1 + 1) * 1), by positivity, ?_⟩
  intro F θ hθ hF n dt t0 y c0 l hn h0 hle
  have hcl := walk_close hL (swapped_lip hL hf) hc0 zero_le_one zero_le_one hθ (pair_close (π := π) hL hf zero_le_one hθ)
  obtain ⟨p, h1, h2⟩ := level_walk hF n dt t0 y c0 l hn
  have hn' : (0 : ℝ) < n l := by exact_mod_cast hn
  have := hcl dt (y, y) p h0 hle ⟨_, by rw [List.sum_replicate, nsmul_eq_mul]; field_simp, fun h hh => by
    rw [List.mem_replicate] at hh
    rw [hh.2]; exact div_pos h0 hn', h1⟩
  rw [h2]
  refine mean_le (π := π) _ p.1 p.2 ?_
  have e1 : ‖swapped f ((π.prodMap π) (y, y))‖ = ‖f (π y)‖ := by
    show max ‖f (π y)‖ ‖f (π y)‖ = _
    exact max_self _
  rw [e1, add_zero, one_mul] at this
  refine le_trans (le_of_eq ?_) this
  congr 1
  show (π.prodMap π) p - (π y + dt • f (π y), π y + dt • f (π y)) =
    (π.prodMap π) p - (π y, π y) - dt • (f (π y), f (π y))
  rw [sub_sub]
  rfl

/-- The weights of the extrapolation have the sum one. -/
lemma extrap_weights {x : ℕ → ℝ} {s : Finset ℕ} (hx : Set.InjOn x s) (hs : s.Nonempty) :
    ∑ i ∈ s, (Lagrange.basis s x i).eval 0 = 1 := by
  rw [← Polynomial.eval_finsetSum, Lagrange.sum_basis hx hs, Polynomial.eval_one]

lemma bs_converges (hL : 0 ≤ L) (hf : ∀ a b, ‖f a - f b‖ ≤ L * ‖a - b‖)
    (N : (ℕ → ℝ) → ℝ) {cf : BSConf ℝ} (hcf : C23.Constructed cf) (hlev : 1 ≤ cf.maxLevel) :
    LooseConverges π f 0 (fun F dt x => bsAdvise F N cf dt x.1 x.2) (C23.TablesOk cf) := by
  obtain ⟨c, hc, hlc⟩ := level_close (π := π) hL hf
  let w : ℕ → ℕ → ℝ := fun M i => (Lagrange.basis (Icc 0 (M - 1)) (fun i => 1 / (((C23.bsCount i) ^ 2 : ℕ) : ℝ)) i).eval 0
  set W := ∑ M ∈ range (cf.maxLevel + 1), ∑ i ∈ Icc 0 (M - 1), |w M i| with hW
  have hW0 : 0 ≤ W := sum_nonneg fun M _ => sum_nonneg fun i _ => abs_nonneg _
  have hWM : ∀ M, M ≤ cf.maxLevel → ∑ i ∈ Icc 0 (M - 1), |w M i| ≤ W := fun M hM =>
    single_le_sum (f := fun M => ∑ i ∈ Icc 0 (M - 1), |w M i|) (fun M _ => sum_nonneg fun i _ => abs_nonneg _)
      (mem_range.2 (by omega))
  have hinj : ∀ s : Finset ℕ, Set.InjOn (fun i => 1 / (((C23.bsCount i) ^ 2 : ℕ) : ℝ)) s := by
    intro s i _ j _ hij
    have hi := C23.bsCount_increasing.1 i
    have hj := C23.bsCount_increasing.1 j
    have h1 : (((C23.bsCount i) ^ 2 : ℕ) : ℝ) = (((C23.bsCount j) ^ 2 : ℕ) : ℝ) := by
      simp only [one_div] at hij
      exact inv_injective hij
    have h2 : (C23.bsCount i) ^ 2 = (C23.bsCount j) ^ 2 := by exact_mod_cast h1
    have h3 : C23.bsCount i = C23.bsCount j := by
      exact Nat.pow_left_injective (n := 2) (by norm_num) h2
    rcases Nat.lt_trichotomy i j with h | h | h
    · have := C23.bsCount_increasing.2 i j h; omega
    · exact h
    · have := C23.bsCount_increasing.2 j i h; omega
  refine scheme_converges_of_close (P := fun _ θ d y y' => ‖π y' - π y - d • f (π y)‖ ≤
      (((W + 1) * c) * d * (‖f (π y)‖ + θ) + (W + 1) * θ) * d)
    hL hf (c := (W + 1) * c) (K := W + 1) (by positivity) (by positivity) one_pos
    (fun F θ _ _ d y y' _ _ h => by rw [add_zero]; exact h) fun F θ hθ hF dt x e q h0 hle hx hq => ?_
  obtain ⟨r, M, hr, ht, hM, -, -, -, -, -, h12, hbig⟩ := C23.bs_step F N hcf dt hx e
  have hq : bsAdvise F N cf dt x e = .ok q := hq
  rw [hr] at hq
  cases hq
  refine ⟨ht, ?_⟩
  have hlev' : ∀ l, ‖π (bsLevel F C23.bsCount dt e.time e.y e.cc l) - (π e.y + dt • f (π e.y))‖ ≤
      (c * dt * (‖f (π e.y)‖ + θ) + θ) * dt := fun l =>
    hlc F θ hθ hF C23.bsCount dt e.time e.y e.cc l (C23.bsCount_increasing.1 l) h0 hle
  have hΦ := norm_nonneg (f (π e.y))
  have hR : 0 ≤ (c * dt * (‖f (π e.y)‖ + θ) + θ) * dt := by positivity
  by_cases h3 : 3 ≤ cf.maxLevel
  · obtain ⟨hM3, hy, -⟩ := hbig h3
    rw [hy]
    have e1 : π (bsExtrap (K := ℝ) C23.bsCount (Icc 0 (M - 1)) (bsLevel F C23.bsCount dt e.time e.y e.cc)) -
        π e.y - dt • f (π e.y) = ∑ i ∈ Icc 0 (M - 1), w M i •
          (π (bsLevel F C23.bsCount dt e.time e.y e.cc i) - (π e.y + dt • f (π e.y))) := by
      have hs1 : ∑ i ∈ Icc 0 (M - 1), w M i = 1 := extrap_weights (hinj _) ⟨0, by simp⟩
      simp only [smul_sub, sum_sub_distrib]
      rw [← sum_smul, hs1, one_smul, sub_sub]
      congr 1
      unfold bsExtrap extrap
      rw [map_sum]
      exact sum_congr rfl fun i _ => map_smul _ _ _
    rw [e1]
    refine (norm_sum_le _ _).trans ?_
    calc _ ≤ ∑ i ∈ Icc 0 (M - 1), |w M i| * ((c * dt * (‖f (π e.y)‖ + θ) + θ) * dt) := sum_le_sum fun i _ => by
          rw [norm_smul, Real.norm_eq_abs]
          exact mul_le_mul_of_nonneg_left (hlev' i) (abs_nonneg _)
      _ = (∑ i ∈ Icc 0 (M - 1), |w M i|) * ((c * dt * (‖f (π e.y)‖ + θ) + θ) * dt) := by rw [sum_mul]
      _ ≤ (W + 1) * ((c * dt * (‖f (π e.y)‖ + θ) + θ) * dt) := mul_le_mul_of_nonneg_right (by linarith [hWM M hM]) hR
      _ = _ := by ring
  · have hy := h12 (by omega)
    rw [hy, sub_sub]
    refine (hlev' _).trans ?_
    have : (c * dt * (‖f (π e.y)‖ + θ) + θ) * dt ≤ (W + 1) * ((c * dt * (‖f (π e.y)‖ + θ) + θ) * dt) :=
      le_mul_of_one_le_left hR (by linarith)
    linarith

/-! ### Adams-Bashforth -/

lemma scheme_states {σ : Type} {adv : ℝ → σ × Eng (ℕ → ℝ) ℝ → Res (σ × Eng (ℕ → ℝ) ℝ)} (dts : List ℝ) :
    ∀ x q, runScheme adv dts x = .ok q → ∃ st : ℕ → σ × Eng (ℕ → ℝ) ℝ, st 0 = x ∧ st dts.length = q ∧
      ∀ k, k < dts.length → adv (dts.getD k 0) (st k) = .ok (st (k + 1)) := by
  induction dts with
  | nil => intro x q h; cases h; exact ⟨fun _ => x, rfl, rfl, fun k hk => absurd hk (by simp)⟩
  | cons dt dts ih =>
    intro x q h
    unfold runScheme at h
    rw [List.foldlM_cons] at h
    cases hq : adv dt x with
    | error er => rw [hq] at h; cases h
    | ok q1 =>
      rw [hq] at h
      obtain ⟨st, g1, g2, g3⟩ := ih q1 q h
      refine ⟨fun k => if k = 0 then x else st (k - 1), rfl, ?_, fun k hk => ?_⟩
      · show (if (dt :: dts).length = 0 then x else st ((dt :: dts).length - 1)) = q
        rw [if_neg (by simp)]
        simpa using g2
      · match k, hk with
        | 0, _ => simpa [g1] using hq
        | k + 1, hk => simpa using g3 k (by simpa using hk)

lemma adams_weights {rank : ℕ} {al : List ℝ} (h : adamsTable (K := ℝ) rank = some al) :
    al.length = rank ∧ ∑ n ∈ range rank, al.getD n 0 = 1 := by
  unfold adamsTable at h
  split_ifs at h with h1 h2 h3 h4 h5 <;> (cases h; subst_vars; refine ⟨rfl, ?_⟩; simp [sum_range_succ]; try norm_num)

lemma sum_map_range (d : ℕ → ℝ) (k : ℕ) : ((List.range k).map d).sum = ∑ j ∈ range k, d j := by
  induction k with
  | zero => simp
  | succ k ih => rw [List.range_succ, List.map_append, List.sum_append, ih, sum_range_succ]; simp

/-- The steps of the starter, as they are made by the Adams solver. -/
lemma adams_starts {σ : Type} {F : Rhs} {adv : ℝ → σ × Eng (ℕ → ℝ) ℝ → Res (σ × Eng (ℕ → ℝ) ℝ)} {rank : ℕ} {correction : Bool}
    {d : ℕ → ℝ} {N : ℕ} {st : ℕ → Adams (ℕ → ℝ) σ × Eng (ℕ → ℝ) ℝ} (hrun : C14.Run F adv rank correction d N st) (k : ℕ) :
    k ≤ N → k ≤ rank + 1 →
    Loose adv ((List.range k).map d) ((st 0).1.starter, (st 0).2) ((st k).1.starter, (st k).2) := by
  induction k with
  | zero => intro _ _; exact .nil _
  | succ k ih =>
    intro hk hkr
    rw [List.range_succ, List.map_append]
    exact (ih (by omega) (by omega)).snoc _ (C14.adams_starter_steps (k := k) ⟨hrun.fresh, fun j hj => hrun.next j (by omega)⟩
      (by omega))

/-- A factor for the first `m + 1` steps together and `1 + c d` for each later one. -/
lemma growth {e d : ℕ → ℝ} {M c : ℝ} {m N : ℕ} (h0 : ∀ k, 0 ≤ e k) (hM : 1 ≤ M) (hc : 0 ≤ c) (hd : ∀ k, k < N → 0 ≤ d k)
    (h1 : ∀ k, k ≤ N → k ≤ m + 1 → e k ≤ M * e 0)
    (h2 : ∀ k, k < N → m < k → ∀ B, (∀ j, j ≤ k → e j ≤ B) → e (k + 1) ≤ (1 + c * d k) * B) :
    e N ≤ M * Real.exp (c * ∑ k ∈ range N, d k) * e 0 := by
  have key : ∀ k, k ≤ N → ∀ j, j ≤ k → e j ≤ M * Real.exp (c * ∑ i ∈ range k, d i) * e 0 := by
    intro k
    induction k with
    | zero =>
      intro hk j hj
      obtain rfl : j = 0 := by omega
      simpa using h1 0 (by omega) (by omega)
    | succ k ih =>
      intro hk j hj
      have hdk := hd k (by omega)
      have ih' := ih (by omega)
      have e1 : Real.exp (c * ∑ i ∈ range (k + 1), d i) = Real.exp (c * ∑ i ∈ range k, d i) * Real.exp (c * d k) := by
        rw [sum_range_succ, mul_add, Real.exp_add]
      have e2 : 1 + c * d k ≤ Real.exp (c * d k) := by linarith [Real.add_one_le_exp (c * d k)]
      have e3 : 0 ≤ c * d k := by positivity
      have p0 : 0 ≤ M * Real.exp (c * ∑ i ∈ range k, d i) * e 0 :=
        mul_nonneg (mul_nonneg (by linarith) (Real.exp_pos _).le) (h0 0)
      have mono : M * Real.exp (c * ∑ i ∈ range k, d i) * e 0 * (1 + c * d k) ≤ M * Real.exp (c * ∑ i ∈ range (k + 1), d i) * e 0 := by
        rw [e1]
        calc _ ≤ M * Real.exp (c * ∑ i ∈ range k, d i) * e 0 * Real.exp (c * d k) := mul_le_mul_of_nonneg_left e2 p0
          _ = _ := by ring
      rcases Nat.lt_or_ge j (k + 1) with hj' | hj'
      · exact (ih' j (by omega)).trans ((le_mul_of_one_le_right p0 (by linarith)).trans mono)
      · obtain rfl : j = k + 1 := by omega
        by_cases hkm : k ≤ m
        · have s0 : 0 ≤ ∑ i ∈ range (k + 1), d i := sum_nonneg fun i hi => hd i (by have := mem_range.1 hi; omega)
          have : M * e 0 ≤ M * Real.exp (c * ∑ i ∈ range (k + 1), d i) * e 0 := by
            rw [mul_assoc]
            refine mul_le_mul_of_nonneg_left (le_mul_of_one_le_left (h0 0) ?_) (by linarith)
            exact Real.one_le_exp (by positivity)
          exact (h1 (k + 1) hk (by omega)).trans this
        · have := h2 k (by omega) (by omega) _ ih'
          rw [mul_comm] at this
          exact this.trans mono
  exact key N le_rfl N le_rfl

/-- A solution does not move faster than its derivative. -/
lemma Solves.move {T B : ℝ} {x : ℝ → E} (hx : Solves f T x) (hB : ∀ t ∈ Set.Icc (0 : ℝ) T, ‖f (x t)‖ ≤ B) {a b : ℝ}
    (ha : 0 ≤ a) (hab : a ≤ b) (hb : b ≤ T) : ‖x a - x b‖ ≤ B * (b - a) := by
  have := Convex.norm_image_sub_le_of_norm_hasDerivWithin_le (f := x) (f' := fun t => f (x t)) (s := Set.Icc 0 T) (C := B)
    (x := b) (y := a) (fun t ht => hx t ht) hB (convex_Icc 0 T) ⟨ha.trans hab, hb⟩ ⟨ha, hab.trans hb⟩
  rwa [Real.norm_eq_abs, abs_sub_comm, abs_of_nonneg (by linarith)] at this

/-- A step of the formula, for any solution of the equation. -/
lemma adams_error {F : Rhs} {σ : Type} {al : List ℝ} {rank k : ℕ} {h t : ℝ} {st : ℕ → Adams (ℕ → ℝ) σ × Eng (ℕ → ℝ) ℝ} {x : ℝ → E}
    (z : ℕ → E) (e : (st (k + 1)).2.y = (st k).2.y + h • ∑ n ∈ range rank, al.getD n 0 • C14.derivAt F st (k - n)) (hh : 0 ≤ h)
    {A R B : ℝ} (hA : ‖π (st k).2.y - x t‖ ≤ A) (hR : ∀ n, n < rank → ‖π (C14.derivAt F st (k - n)) - z n‖ ≤ R)
    (hB : ‖x (t + h) - x t - h • ∑ n ∈ range rank, al.getD n 0 • z n‖ ≤ B) :
    ‖π (st (k + 1)).2.y - x (t + h)‖ ≤ A + h * ((∑ n ∈ range rank, |al.getD n 0|) * R) + B := by
  have e4 : π (st (k + 1)).2.y - x (t + h) = (π (st k).2.y - x t) +
      h • ∑ n ∈ range rank, al.getD n 0 • (π (C14.derivAt F st (k - n)) - z n) -
      (x (t + h) - x t - h • ∑ n ∈ range rank, al.getD n 0 • z n) := by
    rw [e, map_add, map_smul, map_sum]
    simp only [map_smul, smul_sub, sum_sub_distrib]
    abel
  have g2 : ‖h • ∑ n ∈ range rank, al.getD n 0 • (π (C14.derivAt F st (k - n)) - z n)‖ ≤
      h * ((∑ n ∈ range rank, |al.getD n 0|) * R) := by
    rw [norm_smul, Real.norm_of_nonneg hh]
    refine mul_le_mul_of_nonneg_left ((norm_sum_le _ _).trans ?_) hh
    rw [sum_mul]
    refine sum_le_sum fun n hn => ?_
    rw [norm_smul, Real.norm_eq_abs]
    exact mul_le_mul_of_nonneg_left (hR n (mem_range.1 hn)) (abs_nonneg _)
  rw [e4]
  exact (norm_sub_le _ _).trans (add_le_add ((norm_add_le _ _).trans (add_le_add hA g2)) hB)

lemma adams_converges (hL : 0 ≤ L) (hf : ∀ a b, ‖f a - f b‖ ≤ L * ‖a - b‖) {rank : ℕ}
    {al : List ℝ} (hal : adamsTable (K := ℝ) rank = some al) (correction : Bool) {σ : Type}
    {adv : Rhs → ℝ → σ × Eng (ℕ → ℝ) ℝ → Res (σ × Eng (ℕ → ℝ) ℝ)} {η : ℝ} (hη : 0 ≤ η) {I : σ → Prop}
    (hst : LooseConverges π f η adv I) :
    SchemeConverges π f η (fun F dt x => adamsAdvise F (adv F) rank correction dt x.1 x.2)
      (fun s => s.mstep = 0 ∧ s.corr = 0 ∧ I s.starter) := by
  obtain ⟨hlen, hsum⟩ := adams_weights hal
  intro T x hT hx
  obtain ⟨B, hB0, hB⟩ := solves_bounded hL hf hx
  obtain ⟨C₀, δ₀, hC₀, hδ₀, hstart⟩ := hst T x hT hx
  obtain ⟨α, hα⟩ : ∃ α, α = ∑ n ∈ range rank, |al.getD n 0| := ⟨_, rfl⟩
  have hα0 : 0 ≤ α := hα ▸ sum_nonneg fun n _ => abs_nonneg _
  obtain ⟨c, hc⟩ : ∃ c, c = α * (1 + L + L * (B * rank)) + L * B := ⟨_, rfl⟩
  have hc0 : 0 ≤ c := by rw [hc]; positivity
  refine ⟨(C₀ + 1) * Real.exp (c * T), δ₀, by positivity, hδ₀, ?_⟩
  intro F θ hθ hF dts δ hδ hδ' hd hS s e q hI hq
  obtain ⟨st, h0, h1, h2⟩ := scheme_states dts _ _ hq
  have hrun : C14.Run F (adv F) rank correction (fun k => dts.getD k 0) dts.length st :=
    ⟨by rw [h0]; exact ⟨hI.1, hI.2.1⟩, h2⟩
  have hd' : ∀ k, k < dts.length → 0 < dts.getD k 0 ∧ dts.getD k 0 ≤ δ := by
    intro k hk
    have e : dts.getD k 0 = dts[k] := by simp [List.getD_eq_getElem?_getD, hk]
    rw [e]
    exact hd _ (List.getElem_mem hk)
  obtain ⟨t, ht⟩ : ∃ t : ℕ → ℝ, t = fun k => ∑ j ∈ range k, dts.getD j 0 := ⟨_, rfl⟩
  have ht0 : t 0 = 0 := by rw [ht]; simp
  have hts : ∀ k, t (k + 1) = t k + dts.getD k 0 := fun k => by rw [ht]; exact sum_range_succ _ _
  have htN : t dts.length = dts.sum := by rw [ht]; exact sum_getD dts
  have htm : ∀ k, k ≤ dts.length → ∀ j, j ≤ k → t j ≤ t k ∧ t k ≤ t j + (k - j : ℕ) * δ := by
    intro k hk j hj
    obtain ⟨i, rfl⟩ : ∃ i, k = j + i := ⟨k - j, by omega⟩
    clear hj
    induction i with
    | zero => simp
    | succ i ih =>
      obtain ⟨i1, i2⟩ := ih (by omega)
      have := hd' (j + i) (by omega)
      rw [← Nat.add_assoc, hts]
      rw [show j + i - j = i by omega] at i2
      rw [show j + i + 1 - j = i + 1 by omega]
      push_cast
      constructor <;> linarith
  have htT : ∀ k, k ≤ dts.length → t k ≤ T := fun k hk => ((htm _ le_rfl k hk).1.trans_eq htN).trans hS
  have ht00 : ∀ k, k ≤ dts.length → 0 ≤ t k := fun k hk => ht0 ▸ (htm k hk 0 (by omega)).1
  have htk : ∀ k, ((List.range k).map fun k => dts.getD k 0).sum = t k := fun k => by rw [ht]; exact sum_map_range _ k
  obtain ⟨g, hg⟩ : ∃ g, g = δ + η + θ := ⟨_, rfl⟩
  have hg0 : 0 ≤ g := by rw [hg]; positivity
  have fin := growth (e := fun k => ‖π (st k).2.y - x (t k)‖ + g) (d := fun k => dts.getD k 0) (M := C₀ + 1) (c := c) (m := rank)
    (N := dts.length) (fun k => by positivity) (by linarith) hc0 (fun k hk => (hd' k hk).1.le)
    (fun k hk hkr => by
      have := hstart F θ hθ hF ((List.range k).map fun k => dts.getD k 0) δ hδ hδ' (fun d hd'' => by
        obtain ⟨j, hj, rfl⟩ := List.mem_map.1 hd''
        exact hd' j (by have := List.mem_range.1 hj; omega)) (by
        rw [htk]
        exact htT k hk) _ _ _ (by rw [h0]; exact hI.2.2) (adams_starts hrun k hk hkr)
      rw [htk] at this
      show ‖π (st k).2.y - x (t k)‖ + g ≤ (C₀ + 1) * (‖π (st 0).2.y - x (t 0)‖ + g)
      rw [ht0]
      have n0 := norm_nonneg (π (st 0).2.y - x 0)
      have e1 : C₀ * (‖π (st 0).2.y - x 0‖ + δ + η + θ) = C₀ * (‖π (st 0).2.y - x 0‖ + g) := by rw [hg]; ring
      rw [e1] at this
      linarith)
    (fun k hk hkr M hM => by
      obtain ⟨al', e1, -, e2⟩ := C14.adams_step_formula (k := k) ⟨hrun.fresh, fun j hj => hrun.next j (by omega)⟩ hkr
      rw [hal] at e1
      cases e1
      obtain ⟨d0, d1⟩ := hd' k hk
      have hMk := hM k le_rfl
      have hMg : g ≤ M := by have := norm_nonneg (π (st k).2.y - x (t k)); linarith
      have hM0 : 0 ≤ M := hg0.trans hMg
      have hθg : θ ≤ g := by rw [hg]; linarith
      have hδg : δ ≤ g := by rw [hg]; linarith
      have key := adams_error (π := π) (x := x) (t := t k) (fun _ => f (x (t k))) e2 d0.le (A := M - g)
        (R := (1 + L + L * (B * rank)) * M) (B := L * B * M * dts.getD k 0) (by linarith) (fun n hn => by
          have b1 : ‖π (C14.derivAt F st (k - n)) - f (π (st (k - n)).2.y)‖ ≤ θ := hF _ _ _
          have b2 := hf (π (st (k - n)).2.y) (x (t (k - n)))
          have b3 := hM (k - n) (by omega)
          have b4 := hf (x (t (k - n))) (x (t k))
          obtain ⟨m1, m2⟩ := htm k hk.le (k - n) (by omega)
          have b5 := hx.move hB (ht00 (k - n) (by omega)) m1 (htT k hk.le)
          have b6 : B * (t k - t (k - n)) ≤ B * (rank * M) := by
            refine mul_le_mul_of_nonneg_left ?_ hB0
            have r1 : ((k - (k - n) : ℕ) : ℝ) * δ ≤ rank * M := by
              have : ((k - (k - n) : ℕ) : ℝ) ≤ rank := by exact_mod_cast (by omega : k - (k - n) ≤ rank)
              gcongr
              linarith
            linarith
          have b7 : L * ‖x (t (k - n)) - x (t k)‖ ≤ L * (B * (rank * M)) := mul_le_mul_of_nonneg_left (b5.trans b6) hL
          have b8 : L * ‖π (st (k - n)).2.y - x (t (k - n))‖ ≤ L * M := mul_le_mul_of_nonneg_left (by linarith) hL
          have b9 := norm_sub_le_norm_sub_add_norm_sub (π (C14.derivAt F st (k - n))) (f (π (st (k - n)).2.y)) (f (x (t k)))
          have b10 := norm_sub_le_norm_sub_add_norm_sub (f (π (st (k - n)).2.y)) (f (x (t (k - n)))) (f (x (t k)))
          have b11 : (1 + L + L * (B * rank)) * M = M + L * M + L * (B * (rank * M)) := by ring
          linarith) (by
          rw [← sum_smul, hsum, one_smul]
          refine (hx.euler_error hL hf hB (ht00 k hk.le) d0.le (by rw [← hts]; exact htT (k + 1) hk)).trans ?_
          refine mul_le_mul_of_nonneg_right ?_ d0.le
          exact mul_le_mul_of_nonneg_left (d1.trans (hδg.trans hMg)) (by positivity))
      rw [← hα] at key
      show ‖π (st (k + 1)).2.y - x (t (k + 1))‖ + g ≤ (1 + c * dts.getD k 0) * M
      rw [hts]
      have : (1 + c * dts.getD k 0) * M = M + dts.getD k 0 * (α * ((1 + L + L * (B * rank)) * M)) +
          L * B * M * dts.getD k 0 := by rw [hc]; ring
      linarith)
  rw [sum_getD] at fin
  simp only [htN, ht0, h0, h1] at fin
  have e1 : (C₀ + 1) * Real.exp (c * dts.sum) ≤ (C₀ + 1) * Real.exp (c * T) := by gcongr
  have n0 := norm_nonneg (π e.y - x 0)
  have e2 := mul_le_mul_of_nonneg_right e1 (by positivity : 0 ≤ ‖π e.y - x 0‖ + g)
  have e3 : ‖π e.y - x 0‖ + g = ‖π e.y - x 0‖ + δ + η + θ := by rw [hg]; ring
  rw [e3] at e2 fin
  linarith

end

end NB
