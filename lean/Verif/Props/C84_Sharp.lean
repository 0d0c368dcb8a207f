import Verif.Lemmas.SharpTables
import Verif.Props.C82_Order

/-
C84: the orders of C82 are the best possible ones.  On a motion of two bodies the error is also at least a constant over `N ^ p`.
-/

namespace NB.C84

open Finset
open _root_.Spec (Buffers Motion Near dist2)
open C69 (newtonDeriv)
open C74 (Direct Apart runSteps maxAbs every_solver_on_every_engine)

/-- The solvers other than Adams-Bashforth when they have just been made, and the exact order `p` of their errors.  `same` holds
for those which do the same in every step. -/
inductive BasicSharp (h : Slot → Handle) (H : ℕ → Prop) :
    (φ : Type) → (φ → ℝ → Act ℝ φ) → φ → (p : ℕ) → (same : Prop) → Prop
  | euler (hH : ∀ s, Spec.basicSlots 1 false s → H (h s)) :
      BasicSharp h H Unit (fun _ dt => eulerCalls h dt) () 1 True
  | midpoint (hH : ∀ s, Spec.basicSlots 2 true s → H (h s)) :
      BasicSharp h H Unit (fun _ dt => midpointCalls h dt) () 2 True
  | rk4 (hH : ∀ s, Spec.basicSlots 4 true s → H (h s)) :
      BasicSharp h H Unit (fun _ dt => rk4Calls h dt) () 4 True
  | trapeze (refine : ℕ) (hH : ∀ s, Spec.basicSlots 2 true s → H (h s)) :
      BasicSharp h H Unit (fun _ dt => trapezeCalls h refine dt) () 2 True
  | explicit (bt : BT ℝ) (cf : RKConf ℝ) {p : ℕ} (hg : OrderTable p 0 bt cf) (hi : bt.implicit = false) (hq : Quiet bt cf)
      (ho : TallOrder bt.steps bt.a bt.b2 p) (hH : ∀ s, Spec.rkSlots bt cf s → H (h s)) :
      BasicSharp h H Bool (fun allocated dt => do rkCalls h bt cf dt allocated; pure true) false p True
  | implicit (bt : BT ℝ) (cf : RKConf ℝ) (hg : OrderTable 2 0 bt cf) (hi : bt.implicit = true) (hq : Quiet bt cf)
      (hb1 : ∑ i ∈ range bt.steps, bt.b2 i = 1) (hb2 : ∑ i ∈ range bt.steps, bt.b2 i * ∑ l ∈ range bt.steps, bt.a i l = 1 / 2)
      (hne : ∑ i ∈ range bt.steps, bt.b2 i * sweepCoeff bt.steps bt.a
        (lastCoeff bt.steps bt.a cf.refine fun j => ∑ l ∈ range bt.steps, bt.a j l - 1) i ≠ 1 / 6)
      (hH : ∀ s, Spec.rkSlots bt cf s → H (h s)) :
      BasicSharp h H Bool (fun allocated dt => do rkCalls h bt cf dt allocated; pure true) false 2 False

/-- The solvers: those, and Adams-Bashforth started by any of those that do the same in every step; its order is the rank, or one
more than the order of the starter if that is less. -/
inductive Sharp (h : Slot → Handle) (H : ℕ → Prop) :
    (φ : Type) → (φ → ℝ → Act ℝ φ) → φ → (Buffers ℝ → Prop) → (p : ℕ) → Prop
  | basic {φ : Type} {step : φ → ℝ → Act ℝ φ} {fl₀ : φ} {p : ℕ} {same : Prop} (hb : BasicSharp h H φ step fl₀ p same) :
      Sharp h H φ step fl₀ (fun _ => True) p
  | adams (rank : ℕ) (al : List ℝ) (hal : adamsTable (K := ℝ) rank = some al) (correction : Bool)
      (hH : ∀ s, Spec.adamsSlots rank correction s → H (h s)) (hst : Slot → Handle) (ha : Apart h hst)
      {φ : Type} {st : φ → ℝ → Act ℝ φ} {fl₀ : φ} {p₀ : ℕ} {same : Prop} (hS : BasicSharp hst H φ st fl₀ p₀ same) (hs : same) :
      Sharp h H (ℕ × φ) (fun x dt => adamsCalls h al correction (st x.2 dt) x.2 dt x.1) (0, fl₀)
        (fun V => correction = true → V (h .ycorr) = 0) (min rank (p₀ + 1))

lemma basic_order {h : Slot → Handle} {H : ℕ → Prop} {φ : Type} {step : φ → ℝ → Act ℝ φ} {fl₀ : φ} {p : ℕ} {same : Prop}
    (hs : BasicSharp h H φ step fl₀ p same) : C82.BasicOrder 2 h H φ step fl₀ p 0 ∧ 1 ≤ p := by
  cases hs with
  | euler hH => exact ⟨.euler hH, le_rfl⟩
  | midpoint hH => exact ⟨.midpoint hH, by norm_num⟩
  | rk4 hH => exact ⟨.rk4 hH, by norm_num⟩
  | trapeze refine hH => exact ⟨.trapeze refine hH, by norm_num⟩
  | explicit bt cf hg hi hq ho hH => exact ⟨.rk bt cf hg hH, hg.positive⟩
  | implicit bt cf hg hi hq hb1 hb2 hne hH => exact ⟨.rk bt cf hg hH, hg.positive⟩

lemma basic_sharp {h : Slot → Handle} {H : ℕ → Prop} {φ : Type} {step : φ → ℝ → Act ℝ φ} {fl₀ : φ} {p : ℕ} {same : Prop}
    (hs : BasicSharp h H φ step fl₀ p same) :
    ∃ (σ : Type) (adv : Rhs → ℝ → σ × Eng (ℕ → ℝ) ℝ → Res (σ × Eng (ℕ → ℝ) ℝ)) (R : φ → σ → Buffers ℝ → Prop)
      (I : σ → Prop), (∀ F, C74.Basic F (maxAbs (6 * 2)) h H φ σ step (adv (Spec.still F)) R) ∧
      (∀ V, ∃ x, R fl₀ x V ∧ I x) ∧ LooseOrder (firstN (6 * 2)) (gravity 2 twinMass) p 0 adv I ∧
      Drifts adv I p ∧ (same → SameDrift adv I p) := by
  have hL := gravityLip_nonneg 2 twinMass
  have hf := gravity_lip 2 twinMass
  cases hs with
  | euler hH => exact ⟨_, fun F => C74.plain (eulerAdvise F), _, _, fun _ => .euler hH, fun V => ⟨(), trivial, trivial⟩,
      euler_order.loose hL hf, euler_same.drifts, fun _ => euler_same⟩
  | midpoint hH => exact ⟨_, fun F => C74.plain (midpointAdvise F), _, _, fun _ => .midpoint hH,
      fun V => ⟨(), trivial, trivial⟩, midpoint_order.loose hL hf, midpoint_same.drifts, fun _ => midpoint_same⟩
  | rk4 hH => exact ⟨_, fun F => C74.plain (rk4Advise F), _, _, fun _ => .rk4 hH, fun V => ⟨(), trivial, trivial⟩,
      rk4_order.loose hL hf, rk4_same.drifts, fun _ => rk4_same⟩
  | trapeze refine hH =>
    exact ⟨_, fun F => C74.plain (trapezeAdvise F refine), _, _, fun _ => .trapeze refine hH,
      fun V => ⟨(), trivial, trivial⟩, (trapeze_order refine).loose hL hf, (trapeze_same refine).drifts, fun _ => trapeze_same refine⟩
  | explicit bt cf hg hi hq ho hH =>
    have hd := rk_drifts hi (hg.explicit hi).1 (hg.explicit hi).2 hq ho
    refine ⟨_, fun F dt x => .ok (rkAdvise F (maxAbs (6 * 2)) bt cf dt x.1 x.2), _, _, fun _ => .rk bt cf hH, fun V => ?_,
      rk_order hL hf (maxAbs (6 * 2)) hg, hd.drifts, fun _ => hd⟩
    cases hc : cf.correction with
    | true =>
      exact ⟨⟨false, fun i => V (h (.k i)), V (h .t), 0, 0⟩, ⟨rfl, fun _ => rfl, rfl, fun e => (by
        rcases e with e | e
        · cases e
        · rw [hc] at e; cases e), fun _ _ => ⟨rfl, rfl⟩⟩, rfl, fun _ => rfl⟩
    | false =>
      exact ⟨⟨false, fun i => V (h (.k i)), V (h .t), V (h .ycorr), V (h .tcorr)⟩,
        ⟨rfl, fun _ => rfl, rfl, fun _ => ⟨rfl, rfl⟩, fun _ e => by rw [hc] at e; cases e⟩, rfl,
        fun e => by rw [hc] at e; cases e⟩
  | implicit bt cf hg hi hq hb1 hb2 hne hH =>
    refine ⟨_, fun F dt x => .ok (rkAdvise F (maxAbs (6 * 2)) bt cf dt x.1 x.2), _, _, fun _ => .rk bt cf hH, fun V => ?_,
      rk_order hL hf (maxAbs (6 * 2)) hg,
      implicit_drifts hi (hg.implicit hi).1 (hg.implicit hi).2.1 hq hb1 hb2 hne, fun e => e.elim⟩
    cases hc : cf.correction with
    | true =>
      exact ⟨⟨false, fun i => V (h (.k i)), V (h .t), 0, 0⟩, ⟨rfl, fun _ => rfl, rfl, fun e => (by
        rcases e with e | e
        · cases e
        · rw [hc] at e; cases e), fun _ _ => ⟨rfl, rfl⟩⟩, rfl, fun _ => rfl⟩
    | false =>
      exact ⟨⟨false, fun i => V (h (.k i)), V (h .t), V (h .ycorr), V (h .tcorr)⟩,
        ⟨rfl, fun _ => rfl, rfl, fun _ => ⟨rfl, rfl⟩, fun _ e => by rw [hc] at e; cases e⟩, rfl,
        fun e => by rw [hc] at e; cases e⟩

lemma fresh_sharp {h : Slot → Handle} {H : ℕ → Prop} {φ : Type} {step : φ → ℝ → Act ℝ φ} {fl₀ : φ} {Z : Buffers ℝ → Prop} {p : ℕ}
    (hs : Sharp h H φ step fl₀ Z p) {T : ℝ} (hT : 0 < T) :
    ∃ (σ : Type) (adv : Rhs → ℝ → σ × Eng (ℕ → ℝ) ℝ → Res (σ × Eng (ℕ → ℝ) ℝ)) (R : φ → σ → Buffers ℝ → Prop)
      (I : σ → Prop) (S : List ℝ → Prop), (∀ F, C74.Solver F (maxAbs (6 * 2)) h H φ σ step (adv (Spec.still F)) R) ∧
      (∀ V, Z V → ∃ x, R fl₀ x V ∧ I x) ∧ (∀ N d, S (List.replicate N d)) ∧
      SchemeOrder (firstN (6 * 2)) (gravity 2 twinMass) p 0 S adv I ∧ 1 ≤ p ∧ RelFar adv I p p T := by
  cases hs with
  | basic hb =>
    obtain ⟨σ, adv, R, I, h1, h2, h3, h4, -⟩ := basic_sharp hb
    have hp := (basic_order hb).2
    exact ⟨σ, adv, R, I, fun _ => True, fun F => .basic (h1 F), fun V _ => h2 V, fun _ _ => trivial, h3.scheme le_rfl, hp,
      h4.relFar hp hT⟩
  | @adams rank al hal correction hH hst ha φ' st fl' p₀ same hS hs =>
    obtain ⟨σ, adv, R, I, h1, h2, h3, -, h4⟩ := basic_sharp hS
    have hr1 : 1 ≤ rank := by
      unfold adamsTable at hal
      split_ifs at hal <;> omega
    refine ⟨_, fun F dt x => adamsAdvise F (adv F) rank correction dt x.1 x.2, _, _, Equal,
      fun F => .adams rank al hal correction hH hst ha (h1 F), fun V hz => ?_,
      fun N d => ⟨d, fun x hx => List.eq_of_mem_replicate hx⟩,
      adams_order (gravityLip_nonneg 2 twinMass) (gravity_lip 2 twinMass) hal correction le_rfl h3 (min_le_left _ _) (min_le_right _ _),
      by omega, adams_relFar hal correction (h4 hs) rfl hT⟩
    obtain ⟨x, hx, hi⟩ := h2 V
    exact ⟨⟨fun i => V (h (.k i)), 0, 0, x⟩, ⟨rfl, fun _ => rfl, fun e => hz e, hx⟩, rfl, rfl, hi⟩

/-- **The error is at least `c / N ^ p`.**  Two bodies of equal masses swing to and fro through each other, nearer than the
softening distance, with the period `2 π`.  For every time `T` there is `c > 0` such that `N` equal steps over that time, from
exactly the beginning of the motion, leave the bodies more than `c / N ^ p` away from where the motion has them, on every engine. -/
theorem error_at_least {H : ℕ → Prop} {h : Slot → Handle} (hh : Function.Injective h) {φ : Type} {step : φ → ℝ → Act ℝ φ} {fl₀ : φ}
    {Z : Buffers ℝ → Prop} {p : ℕ} (hs : Sharp h H φ step fl₀ Z p) {T : ℝ} (hT : 0 < T) :
    ∃ (c : ℝ) (N₀ : ℕ), 0 < c ∧ ∀ N, N₀ ≤ N → ∀ (E : EngineOps ℝ (Mem ℝ)) (Rep : Buffers ℝ → Mem ℝ → Prop),
      Direct 2 twinMass H E Rep → ∀ (V : Buffers ℝ) (m : Mem ℝ), Z V → Rep V m → Near 2 (V (h .y)) (twinPos 0) (twinVel 0) 0 →
      ∃ fl V' m', runSteps E step (List.replicate N (T / N)) (fl₀, m) = .ok (fl, m') ∧ Rep V' m' ∧
        ¬ Near 2 (V' (h .y)) (twinPos T) (twinVel T) (c / N ^ p) := by
  obtain ⟨σ, adv, R, I, S, hsol, hI, hS, hconv, hp, hfar⟩ := fresh_sharp hs hT
  obtain ⟨c, N₀, hc, key⟩ := relFar_far hS hp hconv hT hfar
  refine ⟨c, N₀, hc, fun N hN E Rep hE V m hZ hm hnear => ?_⟩
  obtain ⟨x, hx, hIx⟩ := hI V hZ
  obtain ⟨fl, x', e', V', m', h1, h2, h3, -, h5⟩ := every_solver_on_every_engine (by norm_num) (fun _ _ => by norm_num [twinMass]) hE hh
    (hsol fun _ => newtonDeriv 2 twinMass) (List.replicate N (T / N)) fl₀ x ⟨V (h .y), 0, 0, 0⟩ V m hx rfl hm
  refine ⟨fl, V', m', h1, h3, ?_⟩
  rw [C78.near_iff (by norm_num)] at hnear ⊢
  have h0 : firstN (6 * 2) (V (h .y)) = stateOf 2 twinPos twinVel 0 := sub_eq_zero.1 (norm_le_zero_iff.1 hnear)
  have := key N hN x _ _ hIx h0 h2
  rw [h5]
  exact not_le.2 this

/-- **The order is exactly `p`**: the error is between `c / N ^ p` and `C / N ^ p`. -/
theorem exact_order {H : ℕ → Prop} {h : Slot → Handle} (hh : Function.Injective h) {φ : Type} {step : φ → ℝ → Act ℝ φ} {fl₀ : φ}
    {Z : Buffers ℝ → Prop} {p : ℕ} (hs : Sharp h H φ step fl₀ Z p) {T : ℝ} (hT : 0 < T) :
    ∃ (c C : ℝ) (N₀ : ℕ), 0 < c ∧ ∀ N, N₀ ≤ N → ∀ (E : EngineOps ℝ (Mem ℝ)) (Rep : Buffers ℝ → Mem ℝ → Prop),
      Direct 2 twinMass H E Rep → ∀ (V : Buffers ℝ) (m : Mem ℝ), Z V → Rep V m → Near 2 (V (h .y)) (twinPos 0) (twinVel 0) 0 →
      ∃ fl V' m', runSteps E step (List.replicate N (T / N)) (fl₀, m) = .ok (fl, m') ∧ Rep V' m' ∧
        ¬ Near 2 (V' (h .y)) (twinPos T) (twinVel T) (c / N ^ p) ∧ Near 2 (V' (h .y)) (twinPos T) (twinVel T) (C / N ^ p) := by
  obtain ⟨σ, adv, R, I, S, hsol, hI, hS, hconv, hp, hfar⟩ := fresh_sharp hs hT
  obtain ⟨c, N₀, hc, key⟩ := relFar_far hS hp hconv hT hfar
  obtain ⟨C, δ₀, hC, hδ₀, up⟩ := hconv T _ _ hT.le (motion_solves (twin_motion T)) (motion_smooth (twin_motion T) fun t _ => twin_off t)
  obtain ⟨N₁, hN₁⟩ := exists_nat_gt (T / δ₀)
  refine ⟨c, C * T ^ p, max N₀ (max 1 N₁), hc, fun N hN E Rep hE V m hZ hm hnear => ?_⟩
  have hN0 : (0 : ℝ) < N := by exact_mod_cast (show 0 < N by omega)
  have hb1 : T / N ≤ δ₀ := by
    rw [div_le_iff₀ hN0, mul_comm, ← div_le_iff₀ hδ₀]
    exact hN₁.le.trans (by exact_mod_cast (by omega : N₁ ≤ N))
  have hsum : (List.replicate N (T / N)).sum = T := by
    rw [List.sum_replicate, nsmul_eq_mul]
    field_simp
  obtain ⟨x, hx, hIx⟩ := hI V hZ
  obtain ⟨fl, x', e', V', m', h1, h2, h3, -, h5⟩ := every_solver_on_every_engine (by norm_num) (fun _ _ => by norm_num [twinMass]) hE hh
    (hsol fun _ => newtonDeriv 2 twinMass) (List.replicate N (T / N)) fl₀ x ⟨V (h .y), 0, 0, 0⟩ V m hx rfl hm
  refine ⟨fl, V', m', h1, h3, ?_⟩
  rw [C78.near_iff (by norm_num)] at hnear ⊢
  rw [C78.near_iff (by norm_num)]
  have h0 : firstN (6 * 2) (V (h .y)) = stateOf 2 twinPos twinVel 0 := sub_eq_zero.1 (norm_le_zero_iff.1 hnear)
  have a1 := key N (by omega) x _ _ hIx h0 h2
  have a2 := up twinRhs 0 le_rfl twin_within _ (T / N) (by positivity) hb1
    (fun d hd => by rw [List.eq_of_mem_replicate hd]; exact ⟨by positivity, le_rfl⟩) (hS N _) hsum.le x ⟨V (h .y), 0, 0, 0⟩ _ hIx h2
  rw [h5]
  refine ⟨not_le.2 a1, ?_⟩
  rw [hsum] at a2
  refine a2.trans (le_of_eq ?_)
  show C * (‖firstN (6 * 2) (V (h .y)) - stateOf 2 twinPos twinVel 0‖ + (T / N) ^ p + 0 + 0) = _
  rw [h0, sub_self, norm_zero, div_pow]
  ring

/-- **No higher order**: for no `C` are the bodies within `C / N ^ p'` of the motion for all large `N`, if `p' > p`. -/
theorem no_higher_order {H : ℕ → Prop} {h : Slot → Handle} (hh : Function.Injective h) {φ : Type} {step : φ → ℝ → Act ℝ φ} {fl₀ : φ}
    {Z : Buffers ℝ → Prop} {p p' : ℕ} (hs : Sharp h H φ step fl₀ Z p) (hp : p < p') {T : ℝ} (hT : 0 < T)
    {E : EngineOps ℝ (Mem ℝ)} {Rep : Buffers ℝ → Mem ℝ → Prop} (hE : Direct 2 twinMass H E Rep) {V : Buffers ℝ} {m : Mem ℝ} (hZ : Z V)
    (hm : Rep V m) (hnear : Near 2 (V (h .y)) (twinPos 0) (twinVel 0) 0) :
    ¬ ∃ (C : ℝ) (N₀ : ℕ), ∀ N, N₀ ≤ N → ∀ fl V' m', runSteps E step (List.replicate N (T / N)) (fl₀, m) = .ok (fl, m') → Rep V' m' →
        Near 2 (V' (h .y)) (twinPos T) (twinVel T) (C / N ^ p') := by
  rintro ⟨C, N₁, hno⟩
  obtain ⟨c, N₀, hc, key⟩ := error_at_least hh hs hT
  obtain ⟨N₂, hN₂⟩ := exists_nat_gt (C / c)
  obtain ⟨N, hN⟩ : ∃ N, N = max (max N₀ N₁) (max 1 N₂) := ⟨_, rfl⟩
  obtain ⟨fl, V', m', h1, h2, h3⟩ := key N (by omega) E Rep hE V m hZ hm hnear
  have h4 := hno N (by omega) fl V' m' h1 h2
  apply h3
  rw [C78.near_iff (by norm_num)] at h4 ⊢
  refine h4.trans ?_
  have hN1 : (1 : ℝ) ≤ N := by exact_mod_cast (by omega : 1 ≤ N)
  have hN0 : (0 : ℝ) < N := by linarith
  rw [div_le_div_iff₀ (by positivity) (by positivity)]
  have h5 : C ≤ c * N := by
    rw [div_lt_iff₀ hc] at hN₂
    have : (N₂ : ℝ) ≤ N := by exact_mod_cast (by omega : N₂ ≤ N)
    nlinarith
  have h6 : (N : ℝ) * N ^ p ≤ N ^ p' := by
    rw [← pow_succ']
    exact pow_le_pow_right₀ hN1 hp
  have h7 : (0 : ℝ) ≤ N ^ p := by positivity
  calc C * N ^ p ≤ c * N * N ^ p := mul_le_mul_of_nonneg_right h5 h7
    _ = c * (N * N ^ p) := by ring
    _ ≤ c * N ^ p' := mul_le_mul_of_nonneg_left h6 hc.le

/-! ### The solvers of the library -/

lemma quiet_of_wf {t : Tab ℝ} {cf : RKConf ℝ} (ht : C17.WellFormed t) (hq : cf.maxRecursion = 0 ∨ 0 < cf.threshold) : Quiet t.toBT cf := by
  rcases hq with hq | hq
  · exact Or.inl hq
  · exact Or.inr (Or.inr ⟨hq, ht.2.1.1.trans ht.2.1.2.1.symm⟩)

/-- **The tables**: rk4 4, rkck 4, rkdp 4, rkdverk 5, rkf 8, rklc 2, rkgl 2, if no step is subdivided or the threshold is positive
(then short steps are not subdivided), and for the last two with at least one sweep. -/
theorem tables {h : Slot → Handle} {H : ℕ → Prop} (cf : RKConf ℝ) (hsub : 0 < cf.subdivisions) (hre : 1 ≤ cf.refine)
    (hq : cf.maxRecursion = 0 ∨ 0 < cf.threshold) (hH : ∀ s, H (h s)) :
    ∀ t ∈ [(rk4Tab.map (Rat.cast : ℚ → ℝ), 4), (rkckTab.map Rat.cast, 4), (rkdpTab.map Rat.cast, 4), (rkdverkTab.map Rat.cast, 5),
      (rkfTab.map Rat.cast, 8), (rklcTab.map Rat.cast, 2), (rkglTab ℝ (Real.sqrt 15), 2)],
    Sharp h H Bool (fun allocated dt => do rkCalls h t.1.toBT cf dt allocated; pure true) false (fun _ => True) t.2 := by
  obtain ⟨t1, t2, t3, t4, t5⟩ := C82.explicit_tables cf hsub
  obtain ⟨t6, t7⟩ := C82.implicit_tables cf hsub hre
  obtain ⟨e1, e2, e3, e4, e5⟩ := explicit_tall
  have hq' := fun (t : Tab ℝ) (ht : C17.WellFormed t) => quiet_of_wf (cf := cf) ht hq
  intro t ht
  simp only [List.mem_cons, List.not_mem_nil, or_false] at ht
  rcases ht with rfl | rfl | rfl | rfl | rfl | rfl | rfl
  · exact .basic (.explicit _ cf t1 rfl (hq' _ (C17.rk4_wf ℝ)) e1 fun s _ => hH s)
  · exact .basic (.explicit _ cf t2 rfl (hq' _ (C17.rkck_wf ℝ)) e2 fun s _ => hH s)
  · exact .basic (.explicit _ cf t3 rfl (hq' _ (C17.rkdp_wf ℝ)) e3 fun s _ => hH s)
  · exact .basic (.explicit _ cf t4 rfl (hq' _ (C17.rkdverk_wf ℝ)) e4 fun s _ => hH s)
  · exact .basic (.explicit _ cf t5 rfl (hq' _ (C17.rkf_wf ℝ)) e5 fun s _ => hH s)
  · exact .basic (.implicit _ cf t6 rfl (hq' _ (C17.rklc_wf ℝ)) rklc_low.1 rklc_low.2 (rklc_third _) fun s _ => hH s)
  · exact .basic (.implicit _ cf t7 rfl (hq' _ (C17.rkgl_wf ℝ _)) rkgl_low.1 rkgl_low.2 (rkgl_third _) fun s _ => hH s)

/-- The motion is one of the softened law of the library, and never at the softening distance, so C82 applies to it as well. -/
theorem twins_move (T : ℝ) : Motion 1e-8 2 twinMass T twinPos twinVel ∧
    ∀ t, dist2 (twinPos t 0) (twinPos t 1) = 4e-10 * Real.cos t ^ 2 := by
  refine ⟨twin_motion T, fun t => ?_⟩
  have e1 : ∀ i, twinPos t i 1 = 0 := fun i => if_neg (by decide)
  have e2 : ∀ i, twinPos t i 2 = 0 := fun i => if_neg (by decide)
  unfold dist2
  rw [e1, e2, e1, e2]
  unfold twinPos
  norm_num
  ring

/-- **The Adams-Bashforth solver with the Euler starter**, as the factory makes it by default, is of order 2 for every rank from 2 to 5
(the README says "up to 5"); with the starter rk4 it is of the order of its rank. -/
theorem adams_orders {h hst : Slot → Handle} {H : ℕ → Prop} (rank : ℕ) (al : List ℝ) (hal : adamsTable (K := ℝ) rank = some al)
    (correction : Bool) (ha : Apart h hst) (hH : ∀ s, H (h s)) (hH' : ∀ s, H (hst s)) :
    (2 ≤ rank → Sharp h H (ℕ × Unit) (fun x dt => adamsCalls h al correction (eulerCalls hst dt) x.2 dt x.1) (0, ())
      (fun V => correction = true → V (h .ycorr) = 0) 2) ∧
    Sharp h H (ℕ × Unit) (fun x dt => adamsCalls h al correction (rk4Calls hst dt) x.2 dt x.1) (0, ())
      (fun V => correction = true → V (h .ycorr) = 0) rank := by
  have hr : rank ≤ 5 := by
    unfold adamsTable at hal
    split_ifs at hal <;> omega
  constructor
  · intro h2
    have := Sharp.adams rank al hal correction (fun s _ => hH s) hst ha (BasicSharp.euler fun s _ => hH' s) trivial
    rwa [min_eq_right (by omega)] at this
  · have := Sharp.adams rank al hal correction (fun s _ => hH s) hst ha (BasicSharp.rk4 fun s _ => hH' s) trivial
    rwa [min_eq_left (by omega)] at this

/-! ### Cases meeting the hypotheses -/

lemma layout_pos (s : Slot) : 1 ≤ C74.layout s := by
  cases s <;> simp only [C74.layout] <;> (try split_ifs) <;> omega

/-- The buffers of a program which has just put the twins at the beginning of their motion. -/
noncomputable def twinBuffers (y : Handle) : Buffers ℝ := fun h =>
  if h = 0 then twinMass else if h = y then packed 2 (twinPos 0) (twinVel 0) else 0

lemma twin_start (y : Handle) (hy : y ≠ 0) : Near 2 (twinBuffers y y) (twinPos 0) (twinVel 0) 0 := by
  rw [C78.near_iff (by norm_num)]
  have : twinBuffers y y = packed 2 (twinPos 0) (twinVel 0) := by
    unfold twinBuffers
    rw [if_neg hy, if_pos rfl]
  rw [this]
  exact (norm_le_zero_iff.2 (sub_self _))

lemma twin_holds (y : Handle) : HostHolds 2 0 (fun h => h ≠ 0) twinMass (twinBuffers y)
    (fun h => some (buf (if h = 0 then 2 else 12) (twinBuffers y h))) :=
  ⟨fun h hh => congrArg (fun k => some (buf k (twinBuffers y h))) (if_neg hh), by simp [twinBuffers], fun h hh => hh⟩

/-- rkdp, which the README calls of order 5, on the sequential engine: after the time 1 the error is not `O(1 / N ^ 5)`, whatever
the recursion settings. -/
example (cf : RKConf ℝ) (hsub : 0 < cf.subdivisions) (hre : 1 ≤ cf.refine) (hq : cf.maxRecursion = 0 ∨ 0 < cf.threshold) :
    ¬ ∃ (C : ℝ) (N₀ : ℕ), ∀ N, N₀ ≤ N → ∀ fl V' m', runSteps (simpleOps (fcompute seqFor 2 0) seqFor 2)
      (fun a dt => do rkCalls C74.layout (rkdpTab.map (Rat.cast : ℚ → ℝ)).toBT cf dt a; pure true) (List.replicate N (1 / N))
        (false, fun h => some (buf (if h = 0 then 2 else 12) (twinBuffers 1 h))) = .ok (fl, m') →
      HostHolds 2 0 (fun h => h ≠ 0) twinMass V' m' → Near 2 (V' 1) (twinPos 1) (twinVel 1) (C / N ^ 5) :=
  no_higher_order C74.layout_injective (tables cf hsub hre hq (fun s => by
    have := layout_pos s
    show C74.layout s ≠ 0
    omega) (rkdpTab.map Rat.cast, 4) (by simp)) (by norm_num) one_pos (Direct.simple 0) trivial (twin_holds 1) (twin_start 1 (by norm_num))

/-- Adams of rank 5 with the Euler starter: after the time 1 the error is between `c / N ^ 2` and `C / N ^ 2`. -/
example (correction : Bool) :
    ∃ (c C : ℝ) (N₀ : ℕ), 0 < c ∧ ∀ N, N₀ ≤ N →
      ∃ fl V' m', runSteps (simpleOps (fcompute seqFor 2 0) seqFor 2)
          (fun (x : ℕ × Unit) dt => adamsCalls C82.even [1901 / 720, -1387 / 360, 109 / 30, -637 / 360, 251 / 720] correction
            (eulerCalls C82.odd dt) x.2 dt x.1)
          (List.replicate N (1 / N)) ((0, ()), fun h => some (buf (if h = 0 then 2 else 12) (twinBuffers 2 h))) = .ok (fl, m') ∧
        HostHolds 2 0 (fun h => h ≠ 0) twinMass V' m' ∧
        ¬ Near 2 (V' 2) (twinPos 1) (twinVel 1) (c / N ^ 2) ∧ Near 2 (V' 2) (twinPos 1) (twinVel 1) (C / N ^ 2) := by
  obtain ⟨c, C, N₀, hc, key⟩ := exact_order C82.even_injective ((adams_orders (H := fun h => h ≠ 0) 5 _ rfl correction C82.even_odd
    (fun s => by
      have := layout_pos s
      show 2 * C74.layout s ≠ 0
      omega) fun s => by
      show C82.odd s ≠ 0
      unfold C82.odd
      split_ifs <;> omega).1 (by norm_num)) one_pos
  exact ⟨c, C, N₀, hc, fun N hN => key N hN _ _ (Direct.simple 0) _ _ (fun _ => rfl) (twin_holds 2) (twin_start 2 (by norm_num))⟩

end NB.C84
