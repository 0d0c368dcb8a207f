import Verif.Lemmas.OrderRK
import Verif.Lemmas.ConvergeSchemes
import Verif.Props.C57_Feagin

/-
The order of convergence of the Runge-Kutta solvers of the library, on smooth solutions.
-/

namespace NB

open Finset
open C74 (runScheme plain)

section
variable {E : Type} [NormedAddCommGroup E] [NormedSpace ℝ E]

/-- Steps of the scheme not longer than `δ`, from a state near the beginning of a smooth solution, end near the
solution, up to a multiple of `δ ^ p`.  `S` is what is asked of the steps. -/
def SchemeOrder (π : (ℕ → ℝ) →ₗ[ℝ] E) (f : E → E) (p : ℕ) (η : ℝ) (S : List ℝ → Prop) {σ : Type}
    (adv : Rhs → ℝ → σ × Eng (ℕ → ℝ) ℝ → Res (σ × Eng (ℕ → ℝ) ℝ)) (I : σ → Prop) : Prop :=
  ∀ (T : ℝ) (x : ℝ → E) (P : Coeffs E), 0 ≤ T → Solves f T x → Jet f (x '' Set.Icc 0 T) P → ∃ C δ₀ : ℝ, 0 ≤ C ∧ 0 < δ₀ ∧
    ∀ (F : Rhs) (θ : ℝ), 0 ≤ θ → Within π f θ F →
    ∀ (dts : List ℝ) (δ : ℝ), 0 ≤ δ → δ ≤ δ₀ →
    (∀ d ∈ dts, 0 < d ∧ d ≤ δ) → S dts → dts.sum ≤ T → ∀ s e q, I s → runScheme (adv F) dts (s, e) = .ok q →
    ‖π q.2.y - x dts.sum‖ ≤ C * (‖π e.y - x 0‖ + δ ^ p + η + θ)

/-- The same for steps with any numbers of evaluations before them, in proportion to the time taken. -/
def LooseOrder (π : (ℕ → ℝ) →ₗ[ℝ] E) (f : E → E) (p : ℕ) (η : ℝ) {σ : Type}
    (adv : Rhs → ℝ → σ × Eng (ℕ → ℝ) ℝ → Res (σ × Eng (ℕ → ℝ) ℝ)) (I : σ → Prop) : Prop :=
  ∀ (T : ℝ) (x : ℝ → E) (P : Coeffs E), 0 ≤ T → Solves f T x → Jet f (x '' Set.Icc 0 T) P → ∃ C δ₀ : ℝ, 0 ≤ C ∧ 0 < δ₀ ∧
    ∀ (F : Rhs) (θ : ℝ), 0 ≤ θ → Within π f θ F →
    ∀ (dts : List ℝ) (δ : ℝ), 0 ≤ δ → δ ≤ δ₀ →
    (∀ d ∈ dts, 0 < d ∧ d ≤ δ) → dts.sum ≤ T → ∀ s e q, I s → Loose (adv F) dts (s, e) q →
    ‖(π q.2.y - x dts.sum) - (π e.y - x 0)‖ ≤ C * (‖π e.y - x 0‖ + (δ ^ p + η + θ)) * dts.sum

variable {π : (ℕ → ℝ) →ₗ[ℝ] E} {f : E → E} {L : ℝ}

lemma LooseOrder.scheme {σ : Type} {adv : Rhs → ℝ → σ × Eng (ℕ → ℝ) ℝ → Res (σ × Eng (ℕ → ℝ) ℝ)} {I : σ → Prop} {p : ℕ}
    {η : ℝ} (hη : 0 ≤ η) {S : List ℝ → Prop} (h : LooseOrder π f p η adv I) : SchemeOrder π f p η S adv I := by
  intro T x P hT hx hJ
  obtain ⟨C, δ₀, hC, hδ₀, h⟩ := h T x P hT hx hJ
  refine ⟨1 + C * T, δ₀, by positivity, hδ₀, fun F θ hθ hF dts δ hδ hδ' hd _ hS s e q hI hq => ?_⟩
  have h1 := h F θ hθ hF dts δ hδ hδ' hd hS s e q hI (loose_of_run dts _ _ hq)
  have h2 : ‖π q.2.y - x dts.sum‖ ≤ ‖(π q.2.y - x dts.sum) - (π e.y - x 0)‖ + ‖π e.y - x 0‖ := by
    simpa using norm_add_le ((π q.2.y - x dts.sum) - (π e.y - x 0)) (π e.y - x 0)
  have h3 : 0 ≤ δ ^ p + η + θ := by positivity
  have h4 : C * (‖π e.y - x 0‖ + (δ ^ p + η + θ)) * dts.sum ≤ C * (‖π e.y - x 0‖ + (δ ^ p + η + θ)) * T := by gcongr
  have h5 : (1 + C * T) * (‖π e.y - x 0‖ + δ ^ p + η + θ) =
      ‖π e.y - x 0‖ + (δ ^ p + η + θ) + C * (‖π e.y - x 0‖ + (δ ^ p + η + θ)) * T := by ring
  linarith

/-- A scheme whose steps are walks of steps that follow the solution. -/
lemma order_of_walk {σ : Type} {adv : Rhs → ℝ → σ × Eng (ℕ → ℝ) ℝ → Res (σ × Eng (ℕ → ℝ) ℝ)} {I : σ → Prop} {p : ℕ}
    {η : ℝ} (hη : 0 ≤ η)
    (hw : ∀ (T : ℝ) (x : ℝ → E) (P : Coeffs E), 0 ≤ T → Solves f T x → Jet f (x '' Set.Icc 0 T) P →
      ∃ C τ : ℝ, 0 ≤ C ∧ 0 < τ ∧ ∀ (F : Rhs) (θ : ℝ), 0 ≤ θ → Within π f θ F → ∀ δ, 0 ≤ δ → δ ≤ τ →
      ∃ Q : ℝ → (ℕ → ℝ) → (ℕ → ℝ) → Prop, Follows π x T C (δ ^ p + η + θ) δ Q ∧
        ∀ dts : List ℝ, (∀ d ∈ dts, 0 < d ∧ d ≤ δ) → ∀ s e q, I s → Loose (adv F) dts (s, e) q →
        ∃ hs : List ℝ, hs.sum = dts.sum ∧ (∀ h ∈ hs, 0 < h ∧ ∃ d ∈ dts, h ≤ d) ∧ Walk Q hs e.y q.2.y) :
    LooseOrder π f p η adv I := by
  intro T x P hT hx hJ
  obtain ⟨C, τ, hC, hτ, h⟩ := hw T x P hT hx hJ
  refine ⟨C * Real.exp (C * T), τ, by positivity, hτ, ?_⟩
  intro F θ hθ hF dts δ hδ hδτ hd hsum s e q hI hq
  obtain ⟨Q, hQ, hrun⟩ := h F θ hθ hF δ hδ hδτ
  obtain ⟨hs, h1, h2, h3⟩ := hrun dts hd s e q hI hq
  have hg : 0 ≤ δ ^ p + η + θ := by positivity
  have hS0 : 0 ≤ dts.sum := List.sum_nonneg fun d hd' => (hd d hd').1.le
  have := (walk_follows hC hg hQ hs (fun h hh => ⟨(h2 h hh).1, by
    obtain ⟨d, hd1, hd2⟩ := (h2 h hh).2
    exact hd2.trans (hd d hd1).2⟩) 0 e.y q.2.y le_rfl (by rw [h1, zero_add]; exact hsum) h3).2
  rw [h1, zero_add] at this
  have e1 : Real.exp (C * dts.sum) ≤ Real.exp (C * T) := Real.exp_le_exp.2 (mul_le_mul_of_nonneg_left hsum hC)
  refine this.trans ?_
  rw [show C * Real.exp (C * T) * (‖π e.y - x 0‖ + (δ ^ p + η + θ)) * dts.sum =
    C * ((‖π e.y - x 0‖ + (δ ^ p + η + θ)) * Real.exp (C * T)) * dts.sum by ring]
  gcongr

lemma order_of_order {s : ℕ} {a : ℕ → ℕ → ℝ} {b : ℕ → ℝ} {p : ℕ} (h : Spec.HasOrder s a b p) :
    Spec.HasOrderWithin 0 s a b p := by
  intro t ht
  have h1 : ∑ i ∈ range s, b i * t.phi s a i = 1 / (t.gamma : ℝ) := h t ht
  rw [h1, sub_self, abs_zero]

/-! ### The schemes with their own code -/

lemma order_of_erk {adv : Rhs → ℝ → Eng (ℕ → ℝ) ℝ → Eng (ℕ → ℝ) ℝ} (hL : 0 ≤ L)
    (hf : ∀ a b, ‖f a - f b‖ ≤ L * ‖a - b‖) (s : ℕ) (a : ℕ → ℕ → ℝ) (b c : ℕ → ℝ) {p : ℕ} (hp : 1 ≤ p)
    (ho : Spec.HasOrder s a b p) (hlow : Lower s a)
    (h : ∀ F dt e, Spec.ERKStep F e.cc s a b c e.time dt e.y (adv F dt e).y) :
    LooseOrder π f p 0 (fun F => plain (adv F)) (fun _ => True) := by
  refine order_of_walk le_rfl fun T x P hT hx hJ => ?_
  obtain ⟨K, C, δ₀, hA⟩ := accurate_of_order hx hJ s a b hp le_rfl (order_of_order ho)
  obtain ⟨C', hC', hfol⟩ := erk_follows (π := π) hL hf c le_rfl hA hlow
  refine ⟨C', δ₀, hC', hA.pos, fun F θ hθ hF δ hδ hδτ => ⟨_, hfol F θ hθ hF δ hδτ, fun dts hd st e q _ hq => ?_⟩⟩
  exact ⟨dts, rfl, fun h hh => ⟨(hd h hh).1, h, hh, le_rfl⟩,
    (scheme_walk (I := fun _ _ => True) (τ := δ) (fun dt y e q _ _ _ hq => by
      cases hq
      exact ⟨trivial, e.cc, e.time, h F dt e⟩) dts hd st e q trivial hq).2⟩

/-- The conditions of the orders one and two. -/
lemma has_order_one {s : ℕ} {a : ℕ → ℕ → ℝ} {b : ℕ → ℝ} (h : ∑ i ∈ range s, b i = 1) : Spec.HasOrder s a b 1 := by
  intro t ht
  match t with
  | .node [] =>
    simp only [Spec.OrderCond, Spec.RTree.phi, Spec.RTree.phis, Spec.RTree.gamma, Spec.RTree.gammas,
      Spec.RTree.orders, mul_one, h]
    norm_num
  | .node (u :: us) =>
    exfalso
    rw [Spec.RTree.order, Spec.RTree.orders] at ht
    have := one_le_order u
    omega

lemma has_order_two {s : ℕ} {a : ℕ → ℕ → ℝ} {b : ℕ → ℝ} (h : ∑ i ∈ range s, b i = 1)
    (h' : ∑ i ∈ range s, b i * ∑ j ∈ range s, a i j = 1 / 2) : Spec.HasOrder s a b 2 := by
  intro t ht
  match t with
  | .node [] => exact has_order_one (a := a) h _ (by simp [Spec.RTree.order, Spec.RTree.orders])
  | .node [.node []] =>
    simp only [Spec.OrderCond, Spec.RTree.phi, Spec.RTree.phis, Spec.RTree.gamma, Spec.RTree.gammas,
      Spec.RTree.order, Spec.RTree.orders, mul_one, h']
    norm_num
  | .node [.node (u :: us)] =>
    exfalso
    simp only [Spec.RTree.order, Spec.RTree.orders] at ht
    have := one_le_order u
    omega
  | .node (u :: v :: us) =>
    exfalso
    rw [Spec.RTree.order, Spec.RTree.orders, Spec.RTree.orders] at ht
    have := one_le_order u
    have := one_le_order v
    omega

/-- A step of `adv` is a step of an explicit Runge-Kutta scheme of order `p`. -/
def StepOrder (adv : Rhs → ℝ → Eng (ℕ → ℝ) ℝ → Eng (ℕ → ℝ) ℝ) (p : ℕ) : Prop :=
  ∃ (s : ℕ) (a : ℕ → ℕ → ℝ) (b c : ℕ → ℝ), 1 ≤ p ∧ Spec.HasOrder s a b p ∧ Lower s a ∧
    ∀ F dt e, Spec.ERKStep F e.cc s a b c e.time dt e.y (adv F dt e).y

lemma StepOrder.loose {adv : Rhs → ℝ → Eng (ℕ → ℝ) ℝ → Eng (ℕ → ℝ) ℝ} {p : ℕ} (h : StepOrder adv p) (hL : 0 ≤ L)
    (hf : ∀ a b, ‖f a - f b‖ ≤ L * ‖a - b‖) :
    LooseOrder π f p 0 (fun F => plain (adv F)) (fun _ => True) := by
  obtain ⟨s, a, b, c, h1, h2, h3, h4⟩ := h
  exact order_of_erk hL hf s a b c h1 h2 h3 h4

lemma euler_order : StepOrder eulerAdvise 1 :=
  ⟨_, _, _, _, le_rfl, has_order_one (by simp), fun _ _ _ _ _ => rfl, fun F dt e => C16.euler_is_erk F dt e⟩

lemma midpoint_order : StepOrder midpointAdvise 2 := by
  refine ⟨2, fun i j => if i = 1 ∧ j = 0 then 1 / 2 else 0, fun i => if i = 0 then 0 else 1,
    fun i => if i = 0 then 0 else 1 / 2, by norm_num, has_order_two (by simp [sum_range_succ])
      (by simp [sum_range_succ]), fun i hi j hij hj => if_neg (by omega), fun F dt e => ?_⟩
  obtain ⟨k, h1, h2⟩ := C16.midpoint_is_erk F dt e
  refine ⟨k, fun i hi => ?_, h2⟩
  rw [h1 i hi]
  interval_cases i <;> simp

lemma rk4_order : StepOrder rk4Advise 4 := by
  refine ⟨4, (C18.bt ℝ rk4Tab).a, (C18.bt ℝ rk4Tab).b2, C16.classicC, by norm_num, C18.rk4_order ℝ,
    fun i hi j hij hj => ?_, fun F dt e => ?_⟩
  · interval_cases i <;> interval_cases j <;> simp [Tab.toBT, Tab.map, rk4Tab]
  · obtain ⟨k, h1, h2⟩ := C16.rk4_is_erk F dt e
    refine ⟨k, fun i hi => ?_, ?_⟩
    · rw [h1 i hi]
      interval_cases i <;> simp [Tab.toBT, Tab.map, rk4Tab, C16.classicA, sum_range_succ]
    · rw [h2]
      simp [Tab.toBT, Tab.map, rk4Tab, C16.classicB, sum_range_succ]

lemma trapeze_order (refine : ℕ) : StepOrder (fun F => trapezeAdvise F refine) 2 :=
  ⟨_, _, _, _, by norm_num, C65.trapeze_order refine, fun i hi j hij hj => by
    unfold C65.trapA
    by_cases h0 : i = 0
    · rw [if_pos h0]
    · rw [if_neg h0]
      by_cases h1 : i = 1
      · rw [if_pos h1, if_neg (by omega)]
      · rw [if_neg h1, if_neg (by omega)], fun F dt e => C65.trapeze_is_erk two_ne_zero F refine dt e⟩

/-! ### The table-driven solver -/

/-- What the solver needs of its table to have the order `p`, up to `η`. -/
structure OrderTable (p : ℕ) (η : ℝ) (bt : BT ℝ) (cf : RKConf ℝ) : Prop where
  subdivisions : 0 < cf.subdivisions
  positive : 1 ≤ p
  nonneg : 0 ≤ η
  order : Spec.HasOrderWithin η bt.steps bt.a bt.b2 p
  explicit : bt.implicit = false → Lower bt.steps bt.a ∧ (cf.correction = true ∨ C16.RowsNonzero bt)
  implicit : bt.implicit = true → C65.FullRows bt ∧ 1 ≤ cf.refine ∧ p ≤ cf.refine + 1

lemma rk_order (hL : 0 ≤ L) (hf : ∀ a b, ‖f a - f b‖ ≤ L * ‖a - b‖)
    (N : (ℕ → ℝ) → ℝ) {p : ℕ} {η : ℝ} {bt : BT ℝ} {cf : RKConf ℝ} (hg : OrderTable p η bt cf) :
    LooseOrder π f p η (fun F dt x => .ok (rkAdvise F N bt cf dt x.1 x.2))
      (fun r => r.allocated = false ∧ C19.Inv cf r) := by
  refine order_of_walk hg.nonneg fun T x P hT hx hJ => ?_
  obtain ⟨K, C, δ₀, hA⟩ := accurate_of_order hx hJ bt.steps bt.a bt.b2 hg.positive hg.nonneg hg.order
  -- from substeps to the solver
  have main : ∀ (F : Rhs) (Q : ℝ → (ℕ → ℝ) → (ℕ → ℝ) → Prop) (J : (ℕ → ℕ → ℝ) → (ℕ → ℝ) → Prop) (δ : ℝ),
      (∀ first r cc y t h, 0 < h → h ≤ δ → C19.Inv cf r → (first = true ∨ J r.k y) →
        J (rkStages F bt cf first y t h (r, cc)).1.k y ∧
        J (rkStages F bt cf first y t h (r, cc)).1.k (endOf bt h y (rkStages F bt cf first y t h (r, cc)).1.k) ∧
        Q h y (endOf bt h y (rkStages F bt cf first y t h (r, cc)).1.k)) →
      ∀ dts : List ℝ, (∀ d ∈ dts, 0 < d ∧ d ≤ δ) → ∀ (s : RKState (ℕ → ℝ)) e q, s.allocated = false ∧ C19.Inv cf s →
      Loose (fun dt x => .ok (rkAdvise F N bt cf dt x.1 x.2)) dts (s, e) q →
        ∃ hs : List ℝ, hs.sum = dts.sum ∧ (∀ h ∈ hs, 0 < h ∧ ∃ d ∈ dts, h ≤ d) ∧ Walk Q hs e.y q.2.y := by
    intro F Q J δ hst dts hd s e q hI hq
    obtain ⟨-, hwalk⟩ := scheme_walk (I := fun (x : RKState (ℕ → ℝ)) (y : ℕ → ℝ) =>
        C19.Inv cf x ∧ ((!x.allocated) = true ∨ J x.k y))
      (P := fun d y y' => ∃ hs : List ℝ, hs.sum = d ∧ (∀ h ∈ hs, 0 < h ∧ h ≤ d) ∧ Walk Q hs y y') (τ := δ)
      (fun dt x e q h0 hle hI hq => by
        cases hq
        obtain ⟨h1, h2, hs, h3, h4, h5⟩ := subStep_walk (nrm := N) hg.subdivisions hst cf.maxRecursion 1 dt
          { r := x, cc := e.cc, t := e.time, y := e.y } h0 hle hI.1 hI.2
        exact ⟨⟨h1, Or.inr (h2 one_pos)⟩, hs, by rw [h3]; simp, h4, h5⟩) dts hd s e q
      ⟨hI.2, Or.inl (by rw [hI.1]; rfl)⟩ hq
    exact hwalk.flatten
  cases hi : bt.implicit with
  | false =>
    obtain ⟨hlow, hrows⟩ := hg.explicit hi
    obtain ⟨C', hC', hfol⟩ := erk_follows (π := π) hL hf bt.c hg.nonneg hA hlow
    refine ⟨C', δ₀, hC', hA.pos, fun F θ hθ hF δ hδ hδτ => ⟨_, hfol F θ hθ hF δ hδτ, fun dts hd s e q hI hq => ?_⟩⟩
    exact main F _ (fun _ _ => True) δ (fun first r cc y t h h0 hle hI _ => ⟨trivial, trivial, cc, t,
      explicit_stages bt cf hi hrows first r cc y t h h0 hI⟩) dts hd s e q hI hq
  | true =>
    obtain ⟨hr, hre, hp⟩ := hg.implicit hi
    obtain ⟨B, hB0, hB⟩ := solves_bounded hL hf hx
    obtain ⟨C', c, δ₁, hC', hδ₁, hst⟩ := implicit_follows (π := π) hL hf bt cf hi hr hre hp hg.nonneg hA hB0 hB
    refine ⟨C', δ₁, hC', hδ₁, fun F θ hθ hF δ hδ hδτ =>
      ⟨fun h y y' => ∀ t', 0 ≤ t' → t' + h ≤ T →
        ‖(π y' - x (t' + h)) - (π y - x t')‖ ≤ C' * (‖π y - x t'‖ + (δ ^ p + η + θ)) * h,
      fun t h y y' ht hh hle hT' hQ => hQ t ht hT', fun dts hd s e q hI hq => ?_⟩⟩
    exact main F _ (StagesNear π f c θ δ bt.steps) δ (fun first r cc y t h h0 hle _ hJ =>
      hst F θ hθ hF δ hδτ first r cc y t h h0 hle hJ) dts hd s e q hI hq

end

end NB
