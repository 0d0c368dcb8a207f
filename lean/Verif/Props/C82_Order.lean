import Verif.Lemmas.OrderAdams
import Verif.Lemmas.SmoothGravity
import Verif.Props.C78_Converge
import Verif.Props.C81_TreeSolvers

/-
C82: the order of convergence.  The error of a solver of order `p` on an engine is at most a constant times the `p`-th power
of the largest step.
-/

namespace NB.C82

open Finset
open _root_.Spec (Buffers Motion Near dist2)
open C69 (newtonDeriv)
open C74 (Direct Apart runSteps maxAbs every_solver_on_every_engine)
open C81 (TreeEngine)

/-- The solvers other than Adams-Bashforth when they have just been made, as in C78, and the order `p` of their errors.  `η` is
a bound of the errors in the order conditions. -/
inductive BasicOrder (n : ℕ) (h : Slot → Handle) (H : ℕ → Prop) :
    (φ : Type) → (φ → ℝ → Act ℝ φ) → φ → (p : ℕ) → (η : ℝ) → Prop
  | euler (hH : ∀ s, Spec.basicSlots 1 false s → H (h s)) :
      BasicOrder n h H Unit (fun _ dt => eulerCalls h dt) () 1 0
  | midpoint (hH : ∀ s, Spec.basicSlots 2 true s → H (h s)) :
      BasicOrder n h H Unit (fun _ dt => midpointCalls h dt) () 2 0
  | rk4 (hH : ∀ s, Spec.basicSlots 4 true s → H (h s)) :
      BasicOrder n h H Unit (fun _ dt => rk4Calls h dt) () 4 0
  | trapeze (refine : ℕ) (hH : ∀ s, Spec.basicSlots 2 true s → H (h s)) :
      BasicOrder n h H Unit (fun _ dt => trapezeCalls h refine dt) () 2 0
  | stetter (hH : ∀ s, Spec.stetterSlots s → H (h s)) :
      BasicOrder n h H StetterFlags (fun fl dt => stetterCalls h dt fl) ⟨false, false, false⟩ 2 0
  | rk (bt : BT ℝ) (cf : RKConf ℝ) {p : ℕ} {η : ℝ} (hg : OrderTable p η bt cf) (hH : ∀ s, Spec.rkSlots bt cf s → H (h s)) :
      BasicOrder n h H Bool (fun allocated dt => do rkCalls h bt cf dt allocated; pure true) false p η
  | bs (cf : BSConf ℝ) {p : ℕ} (hb : BSOrder (maxAbs (6 * n)) cf p) (hH : ∀ s, Spec.bsSlots cf.maxLevel s → H (h s)) :
      BasicOrder n h H BSFlags (fun fl dt => do let r ← bsCalls h cf.maxLevel cf.threshold cf.steps dt fl; pure r.1)
        ⟨⟨false, false, false⟩, false⟩ p 0

/-- The solvers when they have just been made: those, and Adams-Bashforth started by any of those, its order being at most
the rank and one more than the order of the starter.  `S` is what is asked of the steps (nothing, but for Adams: equal steps). -/
inductive Order (n : ℕ) (h : Slot → Handle) (H : ℕ → Prop) :
    (φ : Type) → (φ → ℝ → Act ℝ φ) → φ → (Buffers ℝ → Prop) → (p : ℕ) → (η : ℝ) → (List ℝ → Prop) → Prop
  | basic {φ : Type} {step : φ → ℝ → Act ℝ φ} {fl₀ : φ} {p : ℕ} {η : ℝ} (hb : BasicOrder n h H φ step fl₀ p η) :
      Order n h H φ step fl₀ (fun _ => True) p η (fun _ => True)
  | adams (rank : ℕ) (al : List ℝ) (hal : adamsTable (K := ℝ) rank = some al) (correction : Bool)
      (hH : ∀ s, Spec.adamsSlots rank correction s → H (h s)) (hst : Slot → Handle) (ha : Apart h hst)
      {φ : Type} {st : φ → ℝ → Act ℝ φ} {fl₀ : φ} {p₀ p : ℕ} {η : ℝ} (hS : BasicOrder n hst H φ st fl₀ p₀ η) (hr : p ≤ rank)
      (hp : p ≤ p₀ + 1) :
      Order n h H (ℕ × φ) (fun x dt => adamsCalls h al correction (st x.2 dt) x.2 dt x.1) (0, fl₀)
        (fun V => correction = true → V (h .ycorr) = 0) p η Equal

lemma basic_order {n : ℕ} {M : ℕ → ℝ} {h : Slot → Handle} {H : ℕ → Prop} {φ : Type} {step : φ → ℝ → Act ℝ φ}
    {fl₀ : φ} {p : ℕ} {η : ℝ} (hs : BasicOrder n h H φ step fl₀ p η) :
    ∃ (σ : Type) (adv : Rhs → ℝ → σ × Eng (ℕ → ℝ) ℝ → Res (σ × Eng (ℕ → ℝ) ℝ)) (R : φ → σ → Buffers ℝ → Prop)
      (I : σ → Prop), (∀ F, C74.Basic F (maxAbs (6 * n)) h H φ σ step (adv (Spec.still F)) R) ∧
      (∀ V, ∃ x, R fl₀ x V ∧ I x) ∧ LooseOrder (firstN (6 * n)) (gravity n M) p η adv I ∧ 0 ≤ η := by
  have hL := gravityLip_nonneg n M
  have hf := gravity_lip n M
  cases hs with
  | euler hH => exact ⟨_, fun F => C74.plain (eulerAdvise F), _, _, fun _ => .euler hH, fun V => ⟨(), trivial, trivial⟩,
      euler_order.loose hL hf, le_rfl⟩
  | midpoint hH => exact ⟨_, fun F => C74.plain (midpointAdvise F), _, _, fun _ => .midpoint hH,
      fun V => ⟨(), trivial, trivial⟩, midpoint_order.loose hL hf, le_rfl⟩
  | rk4 hH => exact ⟨_, fun F => C74.plain (rk4Advise F), _, _, fun _ => .rk4 hH, fun V => ⟨(), trivial, trivial⟩,
      rk4_order.loose hL hf, le_rfl⟩
  | trapeze refine hH =>
    exact ⟨_, fun F => C74.plain (trapezeAdvise F refine), _, _, fun _ => .trapeze refine hH,
      fun V => ⟨(), trivial, trivial⟩, (trapeze_order refine).loose hL hf, le_rfl⟩
  | stetter hH =>
    exact ⟨_, fun F dt x => .ok (stetterAdvise F dt x.1 x.2), _, _, fun _ => .stetter hH, fun V =>
      ⟨⟨false, false, V (h (.stack 0)), V (h (.stack 1)), V (h (.k 0)), V (h (.k 1))⟩, ⟨rfl, rfl, rfl, rfl, rfl, rfl⟩, rfl⟩,
      stetter_order hL hf, le_rfl⟩
  | rk bt cf hg hH =>
    refine ⟨_, fun F dt x => .ok (rkAdvise F (maxAbs (6 * n)) bt cf dt x.1 x.2), _, _, fun _ => .rk bt cf hH, fun V => ?_,
      rk_order hL hf (maxAbs (6 * n)) hg, hg.nonneg⟩
    cases hc : cf.correction with
    | true =>
      exact ⟨⟨false, fun i => V (h (.k i)), V (h .t), 0, 0⟩, ⟨rfl, fun _ => rfl, rfl, fun e => (by
        rcases e with e | e
        · cases e
        · rw [hc] at e; cases e), fun _ _ => ⟨rfl, rfl⟩⟩, rfl, fun _ => rfl⟩
    | false =>
      exact ⟨⟨false, fun i => V (h (.k i)), V (h .t), V (h .ycorr), V (h .tcorr)⟩,
        ⟨rfl, fun _ => rfl, rfl, fun _ => ⟨rfl, rfl⟩, fun _ e => by rw [hc] at e; cases e⟩, rfl,
        fun e => by rw [hc] at e; cases e⟩
  | bs cf hb hH =>
    have hlen : cf.steps.length = cf.maxLevel := by
      have := hb.constructed
      rw [C23.Constructed, C23.init_steps_bs] at this
      rw [← Except.ok.inj this]
      simp [buf]
    exact ⟨_, fun F dt x => bsAdvise F (maxAbs (6 * n)) cf dt x.1 x.2, _, _, fun _ => .bs cf hlen hH, fun V =>
      ⟨⟨⟨false, false, V (h (.stack 0)), V (h (.stack 1)), V (h (.k 0)), V (h (.k 1))⟩,
        ⟨buf cf.maxLevel fun j => V (h (.table j)), buf cf.maxLevel fun j => V (h (.prev j))⟩⟩,
        ⟨⟨rfl, rfl, rfl, rfl, rfl, rfl⟩, rfl, rfl⟩, by simp [buf], by simp [buf]⟩,
      bs_order hL hf hb, le_rfl⟩

/-- A fresh solver as in C74, and its order. -/
lemma fresh_order {n : ℕ} {M : ℕ → ℝ} {h : Slot → Handle} {H : ℕ → Prop} {φ : Type} {step : φ → ℝ → Act ℝ φ}
    {fl₀ : φ} {Z : Buffers ℝ → Prop} {p : ℕ} {η : ℝ} {S : List ℝ → Prop} (hs : Order n h H φ step fl₀ Z p η S) :
    ∃ (σ : Type) (adv : Rhs → ℝ → σ × Eng (ℕ → ℝ) ℝ → Res (σ × Eng (ℕ → ℝ) ℝ)) (R : φ → σ → Buffers ℝ → Prop)
      (I : σ → Prop), (∀ F, C74.Solver F (maxAbs (6 * n)) h H φ σ step (adv (Spec.still F)) R) ∧
      (∀ V, Z V → ∃ x, R fl₀ x V ∧ I x) ∧ SchemeOrder (firstN (6 * n)) (gravity n M) p η S adv I ∧ 0 ≤ η := by
  cases hs with
  | basic hb =>
    obtain ⟨σ, adv, R, I, h1, h2, h3, h4⟩ := basic_order (M := M) hb
    exact ⟨σ, adv, R, I, fun F => .basic (h1 F), fun V _ => h2 V, h3.scheme h4, h4⟩
  | @adams rank al hal correction hH hst ha φ' st fl' p₀ _ _ hS hr hp =>
    obtain ⟨σ, adv, R, I, h1, h2, h3, h4⟩ := basic_order (M := M) hS
    refine ⟨_, fun F dt x => adamsAdvise F (adv F) rank correction dt x.1 x.2, _, _,
      fun F => .adams rank al hal correction hH hst ha (h1 F), fun V hz => ?_,
      adams_order (gravityLip_nonneg n M) (gravity_lip n M) hal correction h4 h3 hr hp, h4⟩
    obtain ⟨x, hx, hi⟩ := h2 V
    exact ⟨⟨fun i => V (h (.k i)), 0, 0, x⟩, ⟨rfl, fun _ => rfl, fun e => hz e, hx⟩, rfl, rfl, hi⟩

lemma basic_handles {n : ℕ} {h : Slot → Handle} {H : ℕ → Prop} {φ : Type} {step : φ → ℝ → Act ℝ φ}
    {fl₀ : φ} {p : ℕ} {η : ℝ} (hs : BasicOrder n h H φ step fl₀ p η) :
    ∃ s, s ≠ .y ∧ H (h .y) ∧ H (h s) := by
  cases hs with
  | euler hH => exact ⟨.k 0, by simp, hH .y trivial, hH (.k 0) (show 0 < 1 by decide)⟩
  | midpoint hH => exact ⟨.t, by simp, hH .y trivial, hH .t rfl⟩
  | rk4 hH => exact ⟨.t, by simp, hH .y trivial, hH .t rfl⟩
  | trapeze refine hH => exact ⟨.t, by simp, hH .y trivial, hH .t rfl⟩
  | stetter hH => exact ⟨.t, by simp, hH .y trivial, hH .t trivial⟩
  | rk bt cf hg hH => exact ⟨.t, by simp, hH .y trivial, hH .t trivial⟩
  | bs cf hb hH => exact ⟨.diff, by simp, hH .y trivial, hH .diff trivial⟩

lemma order_handles {n : ℕ} {h : Slot → Handle} {H : ℕ → Prop} {φ : Type} {step : φ → ℝ → Act ℝ φ}
    {fl₀ : φ} {Z : Buffers ℝ → Prop} {p : ℕ} {η : ℝ} {S : List ℝ → Prop} (hs : Order n h H φ step fl₀ Z p η S) :
    ∃ s, s ≠ .y ∧ H (h .y) ∧ H (h s) := by
  cases hs with
  | basic hb => exact basic_handles hb
  | adams rank al hal correction hH hst ha hS hr hp =>
    obtain ⟨e, hne⟩ := C74.adams_length hal
    exact ⟨.k 0, by simp, hH .y trivial, hH (.k 0) (show 0 < rank by rw [← e]; exact List.length_pos_of_ne_nil hne)⟩

/-- No two bodies are exactly at the distance at which the softening sets in (where the force has a kink). -/
def OffCutoff (n : ℕ) (T : ℝ) (q : ℝ → ℕ → Fin 3 → ℝ) : Prop :=
  ∀ t ∈ Set.Icc 0 T, ∀ i, i < n → ∀ j, j < n → i ≠ j → dist2 (q t i) (q t j) ≠ 1e-8

/-- **The order of convergence.**  For a motion of the bodies there are `C` and `δ₀`, the same for all engines, such that
steps none of which exceeds `δ ≤ δ₀`, made by the solver of order `p` on the engine from a state within `ε` of the
beginning of the motion, run to the end and leave the bodies within `C (ε + δ ^ p + η)` of where the motion has them at that
time. -/
theorem order_of_convergence {n : ℕ} {M : ℕ → ℝ} {H : ℕ → Prop} (hn : 0 < n) (hM : ∀ i, i < n → M i ≠ 0)
    {h : Slot → Handle} (hh : Function.Injective h) {φ : Type} {step : φ → ℝ → Act ℝ φ} {fl₀ : φ}
    {Z : Buffers ℝ → Prop} {p : ℕ} {η : ℝ} {S : List ℝ → Prop} (hs : Order n h H φ step fl₀ Z p η S) {T : ℝ} (hT : 0 ≤ T)
    {q v : ℝ → ℕ → Fin 3 → ℝ} (hq : Motion 1e-8 n M T q v) (hoff : OffCutoff n T q) :
    ∃ C δ₀ : ℝ, 0 ≤ C ∧ 0 < δ₀ ∧
      ∀ (E : EngineOps ℝ (Mem ℝ)) (Rep : Buffers ℝ → Mem ℝ → Prop), Direct n M H E Rep →
      ∀ (dts : List ℝ) (δ ε : ℝ), 0 ≤ δ → δ ≤ δ₀ → (∀ d ∈ dts, 0 < d ∧ d ≤ δ) → S dts → dts.sum ≤ T →
      ∀ (V : Buffers ℝ) (m : Mem ℝ), Z V → Rep V m → Near n (V (h .y)) (q 0) (v 0) ε →
      ∃ fl V' m', runSteps E step dts (fl₀, m) = .ok (fl, m') ∧ Rep V' m' ∧
        Near n (V' (h .y)) (q dts.sum) (v dts.sum) (C * (ε + δ ^ p + η)) := by
  obtain ⟨σ, adv, R, I, hsol, hI, hconv, -⟩ := fresh_order (n := n) (M := M) hs
  obtain ⟨C, δ₀, hC, hδ₀, key⟩ := hconv T _ _ hT (motion_solves hq) (motion_smooth hq hoff)
  refine ⟨C, δ₀, hC, hδ₀, fun E Rep hE dts δ ε hδ hδ' hd hSd hS V m hZ hm hnear => ?_⟩
  obtain ⟨x, hx, hIx⟩ := hI V hZ
  obtain ⟨fl, x', e', V', m', h1, h2, h3, -, h5⟩ := every_solver_on_every_engine hn hM hE hh (hsol fun _ => newtonDeriv n M) dts fl₀ x
    ⟨V (h .y), 0, 0, 0⟩ V m hx rfl hm
  refine ⟨fl, V', m', h1, h3, ?_⟩
  rw [C78.near_iff hn] at hnear ⊢
  have := key _ 0 le_rfl (fun _ _ y => by rw [gravity_firstN n M, sub_self, norm_zero]) dts δ hδ hδ' hd hSd hS x _ _ hIx h2
  rw [h5]
  refine this.trans (mul_le_mul_of_nonneg_left ?_ hC)
  show ‖firstN (6 * n) (V (h .y)) - stateOf n q v 0‖ + δ ^ p + η + 0 ≤ _
  linarith

/-- **The same on the Barnes–Hut engines**, up to `1 / ratio`. -/
theorem order_on_trees {n : ℕ} {M : ℕ → ℝ} {H : ℕ → Prop} (hn0 : 0 < n) (hn : n ≤ 2 ^ 63)
    (hpos : ∀ i < n, 0 < M i) {h : Slot → Handle} (hh : Function.Injective h) {φ : Type} {step : φ → ℝ → Act ℝ φ} {fl₀ : φ}
    {Z : Buffers ℝ → Prop} {p : ℕ} {η : ℝ} {S : List ℝ → Prop} (hs : Order n h H φ step fl₀ Z p η S) {T : ℝ} (hT : 0 ≤ T)
    {q v : ℝ → ℕ → Fin 3 → ℝ} (hq : Motion 1e-8 n M T q v) (hoff : OffCutoff n T q) :
    ∃ C δ₀ : ℝ, 0 ≤ C ∧ 0 < δ₀ ∧
      ∀ (ratio : ℝ), 1 ≤ ratio → ∀ (σ : Type) (E : EngineOps ℝ σ) (Start Holds : Buffers ℝ → σ → Prop),
      TreeEngine n M H ratio σ E Start Holds →
      ∀ (dts : List ℝ) (δ ε : ℝ), 0 ≤ δ → δ ≤ δ₀ → (∀ d ∈ dts, 0 < d ∧ d ≤ δ) → S dts → dts.sum ≤ T →
      ∀ (V : Buffers ℝ) (m : σ), Z V → Start V m → Near n (V (h .y)) (q 0) (v 0) ε →
      ∃ fl V' m', runSteps E step dts (fl₀, m) = .ok (fl, m') ∧ Holds V' m' ∧
        Near n (V' (h .y)) (q dts.sum) (v dts.sum) (C * (ε + δ ^ p + η + 1 / ratio)) := by
  obtain ⟨s₁, hs₁, hy, hf⟩ := order_handles hs
  obtain ⟨σS, adv, R, I, hsol, hI, hconv, hη⟩ := fresh_order (n := n) (M := M) hs
  obtain ⟨C, δ₀, hC, hδ₀, key⟩ := hconv T _ _ hT (motion_solves hq) (motion_smooth hq hoff)
  set Q := 16 * ((∑ j ∈ range n, M j) * 1e8) with hQ
  have hQ0 : 0 ≤ Q := by
    have : 0 ≤ ∑ j ∈ range n, M j := Finset.sum_nonneg fun j hj => (hpos j (Finset.mem_range.1 hj)).le
    positivity
  refine ⟨C * (1 + Q), δ₀, by positivity, hδ₀, fun ratio hr σ E Start Holds hE dts δ ε hδ hδ' hd hSd hS V m hZ hm hnear => ?_⟩
  obtain ⟨x, hx, hIx⟩ := hI V hZ
  have hr0 : 0 < ratio := by linarith
  obtain ⟨F, fl, x', e', V', m', h1, h2, h3, h4, -, h6⟩ := C81.every_solver_on_every_tree hn0 hn hpos hr hE hh hy hs₁ hf
    (adv := fun F => adv (Spec.still F)) hsol dts fl₀ x V m hx hm
  refine ⟨fl, V', m', h2, h4, ?_⟩
  rw [C78.near_iff hn0] at hnear ⊢
  have e1 : 16 / ratio * ((∑ j ∈ range n, M j) * 1e8) = Q * (1 / ratio) := by rw [hQ]; ring
  have := key (Spec.still F) (16 / ratio * ((∑ j ∈ range n, M j) * 1e8)) (by rw [e1]; positivity)
    (fun k t Y => C81.computes_within hpos hr (h1 k Y)) dts δ hδ hδ' hd hSd hS x _ _ hIx h3
  rw [h6]
  refine this.trans ?_
  show C * (‖firstN (6 * n) (V (h .y)) - stateOf n q v 0‖ + δ ^ p + η + 16 / ratio * ((∑ j ∈ range n, M j) * 1e8)) ≤ _
  have h0 := norm_nonneg (firstN (6 * n) (V (h .y)) - stateOf n q v 0)
  have h7 : 0 < 1 / ratio := by positivity
  rw [e1, mul_assoc C (1 + Q)]
  refine mul_le_mul_of_nonneg_left ?_ hC
  have h8 : 0 ≤ Q * (ε + δ ^ p + η) := by
    have : 0 ≤ ε := h0.trans hnear
    positivity
  nlinarith

/-- **Twice as many steps divide the bound of the error by `2 ^ p`**: with `N` equal steps over the time `T` the error is at
most `C / N ^ p`. -/
theorem equal_steps {n : ℕ} {M : ℕ → ℝ} {H : ℕ → Prop} (hn : 0 < n) (hM : ∀ i, i < n → M i ≠ 0)
    {h : Slot → Handle} (hh : Function.Injective h) {φ : Type} {step : φ → ℝ → Act ℝ φ} {fl₀ : φ}
    {Z : Buffers ℝ → Prop} {p : ℕ} {S : List ℝ → Prop} (hs : Order n h H φ step fl₀ Z p 0 S)
    (hS : ∀ (N : ℕ) (d : ℝ), S (List.replicate N d)) {T : ℝ} (hT : 0 < T)
    {q v : ℝ → ℕ → Fin 3 → ℝ} (hq : Motion 1e-8 n M T q v) (hoff : OffCutoff n T q) :
    ∃ (C : ℝ) (N₀ : ℕ), ∀ N, N₀ ≤ N → ∀ (E : EngineOps ℝ (Mem ℝ)) (Rep : Buffers ℝ → Mem ℝ → Prop), Direct n M H E Rep →
      ∀ (V : Buffers ℝ) (m : Mem ℝ), Z V → Rep V m → Near n (V (h .y)) (q 0) (v 0) 0 →
      ∃ fl V' m', runSteps E step (List.replicate N (T / N)) (fl₀, m) = .ok (fl, m') ∧ Rep V' m' ∧
        Near n (V' (h .y)) (q T) (v T) (C / N ^ p) := by
  obtain ⟨C, δ₀, hC, hδ₀, key⟩ := order_of_convergence hn hM hh hs hT.le hq hoff
  obtain ⟨N₁, hN₁⟩ := exists_nat_gt (T / δ₀)
  refine ⟨C * T ^ p, max 1 N₁, fun N hN E Rep hE V m hZ hm hnear => ?_⟩
  have hN1 : 1 ≤ N := (le_max_left _ _).trans hN
  have hN0 : (0 : ℝ) < N := by exact_mod_cast hN1
  have hb1 : T / N ≤ δ₀ := by
    rw [div_le_iff₀ hN0, mul_comm, ← div_le_iff₀ hδ₀]
    exact hN₁.le.trans (by exact_mod_cast (le_max_right _ _).trans hN)
  have hsum : (List.replicate N (T / N)).sum = T := by
    rw [List.sum_replicate, nsmul_eq_mul]
    field_simp
  obtain ⟨fl, V', m', h1, h2, h3⟩ := key E Rep hE (List.replicate N (T / N)) (T / N) 0 (by positivity) hb1
    (fun d hd => by rw [List.eq_of_mem_replicate hd]; exact ⟨by positivity, le_rfl⟩) (hS _ _) hsum.le V m hZ hm hnear
  rw [hsum, zero_add, add_zero, div_pow, ← mul_div_assoc] at h3
  exact ⟨fl, V', m', h1, h2, h3⟩

/-! ### The tables of the library -/

lemma explicit_order {t : Tab ℚ} {p : ℕ} {η : ℝ} (hl : C17.StrictlyLower t) (hi : t.implicit = false) (h1 : 1 ≤ p)
    (hη : 0 ≤ η) (ho : Spec.HasOrderWithin η t.steps (C18.bt ℝ t).a (C18.bt ℝ t).b2 p) {cf : RKConf ℝ}
    (hsub : 0 < cf.subdivisions) : OrderTable p η (C18.bt ℝ t) cf := by
  refine ⟨hsub, h1, hη, ho, fun _ => ⟨fun i hi' j hij hj => ?_, Or.inr fun i h0 hi' => ?_⟩, fun e => ?_⟩
  · rw [C18.map_toBT_a (Rat.cast : ℚ → ℝ) (by simp)]
    have : t.toBT.a i j = 0 := by
      by_cases hlen : j < (t.rows.getD i []).length
      · exact (hl hi i hi').1 j hlen hij
      · simp only [Tab.toBT]
        exact List.getD_eq_default _ _ (by omega)
    rw [this]; simp
  · obtain ⟨j, hj, hne⟩ := (hl hi i hi').2 h0
    refine ⟨j, hj, ?_⟩
    rw [C18.map_toBT_a (Rat.cast : ℚ → ℝ) (by simp)]
    exact_mod_cast hne
  · rw [show (C18.bt ℝ t).implicit = t.implicit from rfl, hi] at e
    cases e

lemma exactly {s : ℕ} {a : ℕ → ℕ → ℝ} {b : ℕ → ℝ} {p : ℕ} (h : Spec.HasOrder s a b p) : Spec.HasOrderWithin 0 s a b p :=
  fun τ hτ => by rw [h τ hτ]; simp

/-- **The explicit tables**: rk4, rkck, rkdp of order 4, rkdverk of order 5, rkf of order 8, whatever the threshold, the
depth of subdivision, the number of parts and with or without correction. -/
theorem explicit_tables (cf : RKConf ℝ) (hsub : 0 < cf.subdivisions) :
    OrderTable 4 0 (C18.bt ℝ rk4Tab) cf ∧ OrderTable 4 0 (C18.bt ℝ rkckTab) cf ∧ OrderTable 4 0 (C18.bt ℝ rkdpTab) cf ∧
    OrderTable 5 0 (C18.bt ℝ rkdverkTab) cf ∧ OrderTable 8 0 (C18.bt ℝ rkfTab) cf :=
  ⟨explicit_order (by decide +kernel) rfl (by norm_num) le_rfl (exactly (C18.rk4_order ℝ)) hsub,
   explicit_order (by decide +kernel) rfl (by norm_num) le_rfl (exactly (C18.rkck_order_partial ℝ)) hsub,
   explicit_order (by decide +kernel) rfl (by norm_num) le_rfl (exactly (C18.rkdp_order_partial ℝ)) hsub,
   explicit_order (by decide +kernel) rfl (by norm_num) le_rfl (exactly (C18.rkdverk_order ℝ)) hsub,
   explicit_order (by decide +kernel) rfl (by norm_num) le_rfl (exactly (C18.rkf_order ℝ)) hsub⟩

/-- **The tables of Feagin**: 10, 12 and 14, up to `10⁻⁵⁶` (their coefficients are printed with some sixty digits). -/
theorem feagin_tables (cf : RKConf ℝ) (hsub : 0 < cf.subdivisions) :
    OrderTable 10 (1 / 10 ^ 56) (C18.bt ℝ feagin10Tab) cf ∧ OrderTable 12 (1 / 10 ^ 56) (C18.bt ℝ feagin12Tab) cf ∧
    OrderTable 14 (1 / 10 ^ 56) (C18.bt ℝ feagin14Tab) cf :=
  ⟨explicit_order C57.strictly_lower.1 rfl (by norm_num) (by positivity) (C57.feagin10_order ℝ) hsub,
   explicit_order C57.strictly_lower.2.1 rfl (by norm_num) (by positivity) (C57.feagin12_order ℝ) hsub,
   explicit_order C57.strictly_lower.2.2 rfl (by norm_num) (by positivity) (C57.feagin14_order ℝ) hsub⟩

/-- **The implicit tables**: 2, with at least one sweep. -/
theorem implicit_tables (cf : RKConf ℝ) (hsub : 0 < cf.subdivisions) (hre : 1 ≤ cf.refine) :
    OrderTable 2 0 (C18.bt ℝ rklcTab) cf ∧ OrderTable 2 0 (rkglTab ℝ (Real.sqrt 15)).toBT cf :=
  ⟨⟨hsub, by norm_num, le_rfl, exactly (C18.rklc_order_partial ℝ), fun e => (by cases e), fun _ => ⟨C65.rklc_rows, hre, by omega⟩⟩,
   ⟨hsub, by norm_num, le_rfl, exactly (C18.rkgl_order_partial ℝ _ (by norm_num)), fun e => (by cases e),
     fun _ => ⟨C65.rkgl_rows, hre, by omega⟩⟩⟩

lemma maxAbs_nonneg (N : ℕ) (x : ℕ → ℝ) : 0 ≤ maxAbs N x := by
  cases N with
  | zero => exact le_rfl
  | succ N =>
    obtain ⟨k, -, hk⟩ := (C74.maxAbs_spec x N).1
    rw [hk]
    exact abs_nonneg _

/-- Bulirsch-Stoer has the documented order `2 max_level` with a threshold that is never met ... -/
theorem bs_documented (n L : ℕ) (hL : 3 ≤ L) (th : ℝ) (hth : th ≤ 0) (big : ℝ) (steps : List ℕ)
    (hc : C23.Constructed (⟨L, th, steps, big⟩ : BSConf ℝ)) : BSOrder (maxAbs (6 * n)) ⟨L, th, steps, big⟩ (2 * L) :=
  ⟨hc, by show 1 ≤ L; omega, by omega, fun h => by have h : L ≤ 2 := h; omega,
    fun _ => Or.inr ⟨hth, maxAbs_nonneg _, le_rfl⟩⟩

/-- ... and the order 6 with any threshold. -/
theorem bs_threshold (n L : ℕ) (hL : 3 ≤ L) (th : ℝ) (big : ℝ) (steps : List ℕ)
    (hc : C23.Constructed (⟨L, th, steps, big⟩ : BSConf ℝ)) : BSOrder (maxAbs (6 * n)) ⟨L, th, steps, big⟩ 6 :=
  ⟨hc, by show 1 ≤ L; omega, by norm_num, fun h => by have h : L ≤ 2 := h; omega, fun _ => Or.inl le_rfl⟩

/-! ### Cases -/

/-- The two bodies of C78 are always at the distance 2. -/
lemma orbit_off (T : ℝ) : OffCutoff 2 T C78.orbitPos := by
  intro t _ i hi j hj hij
  have h1 := Real.sin_sq_add_cos_sq t
  have : dist2 (C78.orbitPos t i) (C78.orbitPos t j) = 4 := by
    unfold dist2 C78.orbitPos
    interval_cases i <;> interval_cases j <;> simp at hij ⊢ <;> nlinarith
  rw [this]; norm_num

/-- Two layouts apart from each other but for the state: even and odd handles. -/
def even (s : Slot) : ℕ := 2 * C74.layout s
def odd (s : Slot) : ℕ := if s = .y then 2 else 2 * C74.layout s + 1

lemma even_injective : Function.Injective even := fun s u e => C74.layout_injective (by
  have e : 2 * C74.layout s = 2 * C74.layout u := e
  omega)

lemma even_odd : Apart even odd := ⟨fun s u e => by
    have e : (if s = .y then 2 else 2 * C74.layout s + 1) = (if u = .y then 2 else 2 * C74.layout u + 1) := e
    split_ifs at e with h1 h2 h2
    · rw [h1, h2]
    · omega
    · omega
    · exact C74.layout_injective (by omega), rfl, fun s u hs e => by
    have e : (if u = .y then 2 else 2 * C74.layout u + 1) = 2 * C74.layout s := e
    split_ifs at e with h1
    · exact hs (C74.layout_injective (by show C74.layout s = 1; omega))
    · omega⟩

/-- Their year in `N` equal steps of Adams of rank 5, started by rkdp (with whatever subdivision), on the sequential engine: the error is at most
`C / N ^ 5`. -/
example (correction : Bool) (cf : RKConf ℝ) (hsub : 0 < cf.subdivisions) :
    ∃ (C : ℝ) (N₀ : ℕ), ∀ N, N₀ ≤ N → ∀ V : Buffers ℝ, V 0 = (fun _ => 4) → (correction = true → V 40 = 0) →
      Near 2 (V 2) (C78.orbitPos 0) (C78.orbitVel 0) 0 →
      ∃ fl V' m', runSteps (simpleOps (fcompute seqFor 2 0) seqFor 2)
          (fun (x : ℕ × Bool) dt => adamsCalls even [1901 / 720, -1387 / 360, 109 / 30, -637 / 360, 251 / 720] correction
            (do rkCalls odd (C18.bt ℝ rkdpTab) cf dt x.2; pure true) x.2 dt x.1)
          (List.replicate N (2 * Real.pi / N)) ((0, false), fun h => some (buf (if h = 0 then 2 else 12) (V h))) = .ok (fl, m') ∧
        HostHolds 2 0 (fun h => h ≠ 0) (fun _ => 4) V' m' ∧
        Near 2 (V' 2) (C78.orbitPos (2 * Real.pi)) (C78.orbitVel (2 * Real.pi)) (C / N ^ 5) := by
  have h1 : ∀ s, 1 ≤ C74.layout s := fun s => by
    cases s <;> simp only [C74.layout] <;> (try split_ifs) <;> omega
  obtain ⟨C, N₀, hN⟩ := equal_steps (n := 2) (M := fun _ => 4) (H := fun h => h ≠ 0) (by decide) (fun _ _ => by norm_num)
    even_injective (Order.adams (p := 5) 5 _ rfl correction (fun s _ => by
      have := h1 s
      show 2 * C74.layout s ≠ 0
      omega) odd even_odd (.rk _ cf (explicit_tables cf hsub).2.2.1 fun s _ => by
      show odd s ≠ 0
      unfold odd
      split_ifs <;> omega) le_rfl le_rfl) (fun N d => ⟨d, fun x hx => List.eq_of_mem_replicate hx⟩)
    (T := 2 * Real.pi) (by positivity) (C78.orbit (2 * Real.pi)) (orbit_off _)
  exact ⟨C, N₀, fun N h V h0 hc hnear => hN N h _ _ (Direct.simple 0) V _ hc
    ⟨fun h hh => congrArg (fun k => some (buf k (V h))) (if_neg hh), by simp [h0], fun h hh => hh⟩ hnear⟩

/-- The same year with the table of order 14 of Feagin on the Barnes–Hut engines. -/
example (cf : RKConf ℝ) (hsub : 0 < cf.subdivisions) (H : ℕ → Prop) (hH : ∀ h, h ≠ 0 → H h) :
    ∃ C δ₀ : ℝ, 0 ≤ C ∧ 0 < δ₀ ∧
      ∀ (ratio : ℝ), 1 ≤ ratio → ∀ (σ : Type) (E : EngineOps ℝ σ) (Start Holds : Buffers ℝ → σ → Prop),
      TreeEngine 2 (fun _ => 4) H ratio σ E Start Holds →
      ∀ (dts : List ℝ) (δ ε : ℝ), 0 ≤ δ → δ ≤ δ₀ → (∀ d ∈ dts, 0 < d ∧ d ≤ δ) → dts.sum ≤ 2 * Real.pi →
      ∀ (V : Buffers ℝ) (m : σ), Start V m → Near 2 (V 1) (C78.orbitPos 0) (C78.orbitVel 0) ε →
      ∃ fl V' m', runSteps E (fun a dt => do rkCalls C74.layout (C18.bt ℝ feagin14Tab) cf dt a; pure true) dts (false, m) =
          .ok (fl, m') ∧ Holds V' m' ∧
        Near 2 (V' 1) (C78.orbitPos dts.sum) (C78.orbitVel dts.sum) (C * (ε + δ ^ 14 + 1 / 10 ^ 56 + 1 / ratio)) := by
  obtain ⟨C, δ₀, hC, hδ₀, key⟩ := order_on_trees (n := 2) (M := fun _ => 4) (H := H) (by decide) (by norm_num)
    (fun _ _ => by norm_num) C74.layout_injective (.basic (.rk _ cf (feagin_tables cf hsub).2.2 fun s hs => hH _ (by
      cases s <;> simp only [C74.layout] <;> (try split_ifs) <;> omega))) (T := 2 * Real.pi) (by positivity)
    (C78.orbit (2 * Real.pi)) (orbit_off _)
  exact ⟨C, δ₀, hC, hδ₀, fun ratio hr σ E Start Holds hE dts δ ε hδ hδ' hd hS V m hm hnear =>
    key ratio hr σ E Start Holds hE dts δ ε hδ hδ' hd trivial hS V m trivial hm hnear⟩

/-- The eight levels of the default. -/
example (n : ℕ) (th : ℝ) : BSOrder (maxAbs (6 * n)) ⟨8, th, [2, 4, 6, 8, 12, 16, 24, 32], 0⟩ 6 ∧
    BSOrder (maxAbs (6 * n)) ⟨8, 0, [2, 4, 6, 8, 12, 16, 24, 32], 0⟩ 16 :=
  ⟨bs_threshold n 8 (by norm_num) th 0 _ (by rw [C23.Constructed, C23.init_steps_bs]; rfl),
    bs_documented n 8 (by norm_num) 0 le_rfl 0 _ (by rw [C23.Constructed, C23.init_steps_bs]; rfl)⟩

end NB.C82
