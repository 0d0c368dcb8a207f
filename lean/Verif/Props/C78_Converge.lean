import Verif.Lemmas.ConvergeSchemes
import Verif.Lemmas.Motion
import Verif.Props.C57_Feagin
import Mathlib.Analysis.SpecialFunctions.Trigonometric.Deriv

/-
C78: convergence.  What the solvers compute on the engines approaches, as the steps become smaller, the motion of the
bodies under softened gravity.
-/

namespace NB.C78

open Finset
open _root_.Spec (Buffers Motion Near)
open C69 (newtonDeriv)
open C74 (Direct Apart runSteps maxAbs every_solver_on_every_engine)

/-! ### The motion -/

/-- **There is a motion**: for all masses, positions and velocities to start with, and for all times. -/
theorem motion_exists (n : ℕ) (M : ℕ → ℝ) (q₀ v₀ : ℕ → Fin 3 → ℝ) {T : ℝ} (hT : 0 ≤ T) :
    ∃ q v, Motion 1e-8 n M T q v ∧ ∀ i, i < n → q 0 i = q₀ i ∧ v 0 i = v₀ i := by
  obtain ⟨x, h0, hx⟩ := exists_solution n M hT (firstN (6 * n) (packed n q₀ v₀))
  refine ⟨_, _, solves_motion hx, fun i hi => ⟨funext fun k => ?_, funext fun k => ?_⟩⟩
  · show padded (x 0) (k * n + i) = _
    have hk : (k : ℕ) * n + i < 6 * n := by
      have : (k : ℕ) * n ≤ 2 * n := Nat.mul_le_mul_right n (by omega)
      omega
    rw [h0, ← packed_pos q₀ v₀ hi k]
    unfold padded
    rw [dif_pos hk]
    rfl
  · show padded (x 0) ((3 + k) * n + i) = _
    have hk : (3 + (k : ℕ)) * n + i < 6 * n := by
      have : (3 + (k : ℕ)) * n ≤ 5 * n := Nat.mul_le_mul_right n (by omega)
      omega
    rw [h0, ← packed_vel q₀ v₀ hi k]
    unfold padded
    rw [dif_pos hk]
    rfl

lemma stateOf_pos {n : ℕ} (q v : ℝ → ℕ → Fin 3 → ℝ) (t : ℝ) {i : ℕ} (hi : i < n) (k : Fin 3)
    (hk : (k : ℕ) * n + i < 6 * n) : stateOf n q v t ⟨k * n + i, hk⟩ = q t i k := packed_pos (q t) (v t) hi k

lemma stateOf_vel {n : ℕ} (q v : ℝ → ℕ → Fin 3 → ℝ) (t : ℝ) {i : ℕ} (hi : i < n) (k : Fin 3)
    (hk : (3 + (k : ℕ)) * n + i < 6 * n) : stateOf n q v t ⟨(3 + k) * n + i, hk⟩ = v t i k :=
  packed_vel (q t) (v t) hi k

lemma pos_lt {n i : ℕ} (hi : i < n) (k : Fin 3) : (k : ℕ) * n + i < 6 * n := by
  have : (k : ℕ) * n ≤ 2 * n := Nat.mul_le_mul_right n (by omega)
  omega

lemma vel_lt {n i : ℕ} (hi : i < n) (k : Fin 3) : (3 + (k : ℕ)) * n + i < 6 * n := by
  have : (3 + (k : ℕ)) * n ≤ 5 * n := Nat.mul_le_mul_right n (by omega)
  omega

/-- **There is one only.** -/
theorem motion_unique {n : ℕ} {M : ℕ → ℝ} {T : ℝ} {q v q' v' : ℝ → ℕ → Fin 3 → ℝ} (h : Motion 1e-8 n M T q v)
    (h' : Motion 1e-8 n M T q' v') (h0 : ∀ i, i < n → q 0 i = q' 0 i ∧ v 0 i = v' 0 i) :
    ∀ t ∈ Set.Icc (0 : ℝ) T, ∀ i, i < n → q t i = q' t i ∧ v t i = v' t i := by
  have e : stateOf n q v 0 = stateOf n q' v' 0 := by
    funext ⟨j, hj⟩
    rcases coordinate hj with ⟨i, k, hi, rfl⟩ | ⟨i, k, hi, rfl⟩
    · rw [stateOf_pos _ _ _ hi, stateOf_pos _ _ _ hi, (h0 i hi).1]
    · rw [stateOf_vel _ _ _ hi, stateOf_vel _ _ _ hi, (h0 i hi).2]
  intro t ht i hi
  have := solution_unique (motion_solves h) (motion_solves h') e t ht
  refine ⟨funext fun k => ?_, funext fun k => ?_⟩
  · rw [← stateOf_pos q v t hi k (pos_lt hi k), this, stateOf_pos]; exact hi
  · rw [← stateOf_vel q v t hi k (vel_lt hi k), this, stateOf_vel]; exact hi

lemma near_iff {n : ℕ} (hn : 0 < n) (Y : ℕ → ℝ) (q v : ℝ → ℕ → Fin 3 → ℝ) (t d : ℝ) :
    Near n Y (q t) (v t) d ↔ ‖firstN (6 * n) Y - stateOf n q v t‖ ≤ d := by
  constructor
  · intro h
    have hd : 0 ≤ d := (abs_nonneg _).trans (h 0 hn 0).1
    rw [pi_norm_le_iff_of_nonneg hd]
    rintro ⟨j, hj⟩
    rw [Real.norm_eq_abs]
    rcases coordinate hj with ⟨i, k, hi, rfl⟩ | ⟨i, k, hi, rfl⟩
    · have := (h i hi k).1
      rwa [← stateOf_pos q v t hi k hj] at this
    · have := (h i hi k).2
      rwa [← stateOf_vel q v t hi k hj] at this
  · intro h i hi k
    constructor
    · have := (norm_le_pi_norm (firstN (6 * n) Y - stateOf n q v t) ⟨_, pos_lt hi k⟩).trans h
      rw [Real.norm_eq_abs] at this
      rw [← stateOf_pos q v t hi k (pos_lt hi k)]
      exact this
    · have := (norm_le_pi_norm (firstN (6 * n) Y - stateOf n q v t) ⟨_, vel_lt hi k⟩).trans h
      rw [Real.norm_eq_abs] at this
      rw [← stateOf_vel q v t hi k (vel_lt hi k)]
      exact this

/-! ### The solvers -/

/-- The solvers other than Adams-Bashforth when they have just been made: the program of a step and the members that are
not buffers before the first step.  Nothing is asked of the contents of the buffers.  `η` is a bound of the error in the sum of
the weights. -/
inductive BasicFresh (h : Slot → Handle) (H : ℕ → Prop) : (φ : Type) → (φ → ℝ → Act ℝ φ) → φ → ℝ → Prop
  | euler (hH : ∀ s, Spec.basicSlots 1 false s → H (h s)) :
      BasicFresh h H Unit (fun _ dt => eulerCalls h dt) () 0
  | midpoint (hH : ∀ s, Spec.basicSlots 2 true s → H (h s)) :
      BasicFresh h H Unit (fun _ dt => midpointCalls h dt) () 0
  | rk4 (hH : ∀ s, Spec.basicSlots 4 true s → H (h s)) :
      BasicFresh h H Unit (fun _ dt => rk4Calls h dt) () 0
  | trapeze (refine : ℕ) (hH : ∀ s, Spec.basicSlots 2 true s → H (h s)) :
      BasicFresh h H Unit (fun _ dt => trapezeCalls h refine dt) () 0
  | stetter (hH : ∀ s, Spec.stetterSlots s → H (h s)) :
      BasicFresh h H StetterFlags (fun fl dt => stetterCalls h dt fl) ⟨false, false, false⟩ 0
  | rk (bt : BT ℝ) (cf : RKConf ℝ) {η : ℝ} (hg : GoodTable η bt cf) (hH : ∀ s, Spec.rkSlots bt cf s → H (h s)) :
      BasicFresh h H Bool (fun allocated dt => do rkCalls h bt cf dt allocated; pure true) false η
  | bs (cf : BSConf ℝ) (hcf : C23.Constructed cf) (hlev : 1 ≤ cf.maxLevel)
      (hH : ∀ s, Spec.bsSlots cf.maxLevel s → H (h s)) :
      BasicFresh h H BSFlags (fun fl dt => do let r ← bsCalls h cf.maxLevel cf.threshold cf.steps dt fl; pure r.1)
        ⟨⟨false, false, false⟩, false⟩ 0

/-- The solvers when they have just been made: those, and Adams-Bashforth started by any of those.  With correction it asks
for zeros in its buffer of corrections, the only one that a solver reads before writing to it (see C66). -/
inductive Fresh (h : Slot → Handle) (H : ℕ → Prop) :
    (φ : Type) → (φ → ℝ → Act ℝ φ) → φ → (Buffers ℝ → Prop) → ℝ → Prop
  | basic {φ : Type} {step : φ → ℝ → Act ℝ φ} {fl₀ : φ} {η : ℝ} (hb : BasicFresh h H φ step fl₀ η) :
      Fresh h H φ step fl₀ (fun _ => True) η
  | adams (rank : ℕ) (al : List ℝ) (hal : adamsTable (K := ℝ) rank = some al) (correction : Bool)
      (hH : ∀ s, Spec.adamsSlots rank correction s → H (h s)) (hst : Slot → Handle) (ha : Apart h hst)
      {φ : Type} {st : φ → ℝ → Act ℝ φ} {fl₀ : φ} {η : ℝ} (hS : BasicFresh hst H φ st fl₀ η) :
      Fresh h H (ℕ × φ) (fun x dt => adamsCalls h al correction (st x.2 dt) x.2 dt x.1) (0, fl₀)
        (fun V => correction = true → V (h .ycorr) = 0) η

lemma basic_converges {n : ℕ} {M : ℕ → ℝ} {h : Slot → Handle} {H : ℕ → Prop} {φ : Type} {step : φ → ℝ → Act ℝ φ}
    {fl₀ : φ} {η : ℝ} (hs : BasicFresh h H φ step fl₀ η) :
    ∃ (σ : Type) (adv : Rhs → ℝ → σ × Eng (ℕ → ℝ) ℝ → Res (σ × Eng (ℕ → ℝ) ℝ)) (R : φ → σ → Buffers ℝ → Prop)
      (I : σ → Prop), (∀ F, C74.Basic F (maxAbs (6 * n)) h H φ σ step (adv (Spec.still F)) R) ∧
      (∀ V, ∃ x, R fl₀ x V ∧ I x) ∧ LooseConverges (firstN (6 * n)) (gravity n M) η adv I ∧ 0 ≤ η := by
  have hL := gravityLip_nonneg n M
  have hf := gravity_lip n M
  cases hs with
  | euler hH => exact ⟨_, fun F => C74.plain (eulerAdvise F), _, _, fun _ => .euler hH, fun V => ⟨(), trivial, trivial⟩, euler_converges hL hf, le_rfl⟩
  | midpoint hH => exact ⟨_, fun F => C74.plain (midpointAdvise F), _, _, fun _ => .midpoint hH, fun V => ⟨(), trivial, trivial⟩, midpoint_converges hL hf, le_rfl⟩
  | rk4 hH => exact ⟨_, fun F => C74.plain (rk4Advise F), _, _, fun _ => .rk4 hH, fun V => ⟨(), trivial, trivial⟩, rk4_converges hL hf, le_rfl⟩
  | trapeze refine hH =>
    exact ⟨_, fun F => C74.plain (trapezeAdvise F refine), _, _, fun _ => .trapeze refine hH, fun V => ⟨(), trivial, trivial⟩, trapeze_converges hL hf refine, le_rfl⟩
  | stetter hH =>
    exact ⟨_, fun F dt x => .ok (stetterAdvise F dt x.1 x.2), _, _, fun _ => .stetter hH, fun V =>
      ⟨⟨false, false, V (h (.stack 0)), V (h (.stack 1)), V (h (.k 0)), V (h (.k 1))⟩, ⟨rfl, rfl, rfl, rfl, rfl, rfl⟩, rfl⟩,
      stetter_converges hL hf, le_rfl⟩
  | rk bt cf hg hH =>
    refine ⟨_, fun F dt x => .ok (rkAdvise F (maxAbs (6 * n)) bt cf dt x.1 x.2), _, _, fun _ => .rk bt cf hH, fun V => ?_, rk_converges hL hf (maxAbs (6 * n)) hg, (abs_nonneg _).trans hg.weights⟩
    cases hc : cf.correction with
    | true =>
      exact ⟨⟨false, fun i => V (h (.k i)), V (h .t), 0, 0⟩, ⟨rfl, fun _ => rfl, rfl, fun e => (by
        rcases e with e | e
        · cases e
        · rw [hc] at e; cases e), fun _ _ => ⟨rfl, rfl⟩⟩, rfl, fun _ => rfl⟩
    | false =>
      exact ⟨⟨false, fun i => V (h (.k i)), V (h .t), V (h .ycorr), V (h .tcorr)⟩,
        ⟨rfl, fun _ => rfl, rfl, fun _ => ⟨rfl, rfl⟩, fun _ e => by rw [hc] at e; cases e⟩, rfl,
        fun e => by rw [hc] at e; cases e⟩
  | bs cf hcf hlev hH =>
    have hlen : cf.steps.length = cf.maxLevel := by
      have := hcf
      rw [C23.Constructed, C23.init_steps_bs] at this
      rw [← Except.ok.inj this]
      simp [buf]
    exact ⟨_, fun F dt x => bsAdvise F (maxAbs (6 * n)) cf dt x.1 x.2, _, _, fun _ => .bs cf hlen hH, fun V =>
      ⟨⟨⟨false, false, V (h (.stack 0)), V (h (.stack 1)), V (h (.k 0)), V (h (.k 1))⟩,
        ⟨buf cf.maxLevel fun j => V (h (.table j)), buf cf.maxLevel fun j => V (h (.prev j))⟩⟩,
        ⟨⟨rfl, rfl, rfl, rfl, rfl, rfl⟩, rfl, rfl⟩, by simp [buf], by simp [buf]⟩,
      bs_converges hL hf (maxAbs (6 * n)) hcf hlev, le_rfl⟩

/-- A fresh solver as in C74, and its convergence. -/
lemma fresh_converges {n : ℕ} {M : ℕ → ℝ} {h : Slot → Handle} {H : ℕ → Prop} {φ : Type} {step : φ → ℝ → Act ℝ φ}
    {fl₀ : φ} {Z : Buffers ℝ → Prop} {η : ℝ} (hs : Fresh h H φ step fl₀ Z η) :
    ∃ (σ : Type) (adv : Rhs → ℝ → σ × Eng (ℕ → ℝ) ℝ → Res (σ × Eng (ℕ → ℝ) ℝ)) (R : φ → σ → Buffers ℝ → Prop)
      (I : σ → Prop), (∀ F, C74.Solver F (maxAbs (6 * n)) h H φ σ step (adv (Spec.still F)) R) ∧
      (∀ V, Z V → ∃ x, R fl₀ x V ∧ I x) ∧ SchemeConverges (firstN (6 * n)) (gravity n M) η adv I := by
  cases hs with
  | basic hb =>
    obtain ⟨σ, adv, R, I, h1, h2, h3, -⟩ := basic_converges (n := n) (M := M) hb
    exact ⟨σ, adv, R, I, fun F => .basic (h1 F), fun V _ => h2 V, h3.scheme⟩
  | @adams rank al hal correction hH hst ha φ' st fl' _ hS =>
    obtain ⟨σ, adv, R, I, h1, h2, h3, h4⟩ := basic_converges (n := n) (M := M) hS
    refine ⟨_, fun F dt x => adamsAdvise F (adv F) rank correction dt x.1 x.2, _, _,
      fun F => .adams rank al hal correction hH hst ha (h1 F), fun V hz => ?_,
      adams_converges (gravityLip_nonneg n M) (gravity_lip n M) hal correction h4 h3⟩
    obtain ⟨x, hx, hi⟩ := h2 V
    exact ⟨⟨fun i => V (h (.k i)), 0, 0, x⟩, ⟨rfl, fun _ => rfl, fun e => hz e, hx⟩, rfl, rfl, hi⟩

/-- **Convergence.**  For a motion of the bodies there are `C` and `δ₀`, the same for all engines, such that steps
none of which exceeds `δ ≤ δ₀`, made by the solver on the engine from a state within `ε` of the beginning of the
motion, run to the end and leave the bodies within `C (ε + δ + η)` of where the motion has them at that time. -/
theorem every_solver_converges {n : ℕ} {M : ℕ → ℝ} {H : ℕ → Prop} (hn : 0 < n) (hM : ∀ i, i < n → M i ≠ 0)
    {h : Slot → Handle} (hh : Function.Injective h) {φ : Type} {step : φ → ℝ → Act ℝ φ} {fl₀ : φ}
    {Z : Buffers ℝ → Prop} {η : ℝ} (hs : Fresh h H φ step fl₀ Z η) {T : ℝ} (hT : 0 ≤ T)
    {q v : ℝ → ℕ → Fin 3 → ℝ} (hq : Motion 1e-8 n M T q v) :
    ∃ C δ₀ : ℝ, 0 ≤ C ∧ 0 < δ₀ ∧
      ∀ (E : EngineOps ℝ (Mem ℝ)) (Rep : Buffers ℝ → Mem ℝ → Prop), Direct n M H E Rep →
      ∀ (dts : List ℝ) (δ ε : ℝ), 0 ≤ δ → δ ≤ δ₀ → (∀ d ∈ dts, 0 < d ∧ d ≤ δ) → dts.sum ≤ T →
      ∀ (V : Buffers ℝ) (m : Mem ℝ), Z V → Rep V m → Near n (V (h .y)) (q 0) (v 0) ε →
      ∃ fl V' m', runSteps E step dts (fl₀, m) = .ok (fl, m') ∧ Rep V' m' ∧
        Near n (V' (h .y)) (q dts.sum) (v dts.sum) (C * (ε + δ + η)) := by
  obtain ⟨σ, adv, R, I, hsol, hI, hconv⟩ := fresh_converges (n := n) (M := M) hs
  obtain ⟨C, δ₀, hC, hδ₀, key⟩ := hconv T _ hT (motion_solves hq)
  refine ⟨C, δ₀, hC, hδ₀, fun E Rep hE dts δ ε hδ hδ' hd hS V m hZ hm hnear => ?_⟩
  obtain ⟨x, hx, hIx⟩ := hI V hZ
  obtain ⟨fl, x', e', V', m', h1, h2, h3, -, h5⟩ := every_solver_on_every_engine hn hM hE hh (hsol fun _ => newtonDeriv n M) dts fl₀ x
    ⟨V (h .y), 0, 0, 0⟩ V m hx rfl hm
  refine ⟨fl, V', m', h1, h3, ?_⟩
  rw [near_iff hn] at hnear ⊢
  have := key _ 0 le_rfl (fun _ _ y => by rw [gravity_firstN n M, sub_self, norm_zero]) dts δ hδ hδ' hd hS x _ _ hIx h2
  rw [h5]
  refine this.trans (mul_le_mul_of_nonneg_left ?_ hC)
  show ‖firstN (6 * n) (V (h .y)) - stateOf n q v 0‖ + δ + η + 0 ≤ _
  linarith

/-- **Enough equal steps** take the bodies as near as you like to where they are after the time `T`. -/
theorem enough_steps {n : ℕ} {M : ℕ → ℝ} {H : ℕ → Prop} (hn : 0 < n) (hM : ∀ i, i < n → M i ≠ 0)
    {h : Slot → Handle} (hh : Function.Injective h) {φ : Type} {step : φ → ℝ → Act ℝ φ} {fl₀ : φ}
    {Z : Buffers ℝ → Prop} (hs : Fresh h H φ step fl₀ Z 0) {T : ℝ} (hT : 0 < T)
    {q v : ℝ → ℕ → Fin 3 → ℝ} (hq : Motion 1e-8 n M T q v) {r : ℝ} (hr : 0 < r) :
    ∃ N₀ : ℕ, ∀ N, N₀ ≤ N → ∀ (E : EngineOps ℝ (Mem ℝ)) (Rep : Buffers ℝ → Mem ℝ → Prop), Direct n M H E Rep →
      ∀ (V : Buffers ℝ) (m : Mem ℝ), Z V → Rep V m → Near n (V (h .y)) (q 0) (v 0) 0 →
      ∃ fl V' m', runSteps E step (List.replicate N (T / N)) (fl₀, m) = .ok (fl, m') ∧ Rep V' m' ∧
        Near n (V' (h .y)) (q T) (v T) r := by
  obtain ⟨C, δ₀, hC, hδ₀, key⟩ := every_solver_converges hn hM hh hs hT.le hq
  obtain ⟨N₁, hN₁⟩ := exists_nat_gt (T / δ₀)
  obtain ⟨N₂, hN₂⟩ := exists_nat_gt (C * T / r)
  refine ⟨max 1 (max N₁ N₂), fun N hN E Rep hE V m hZ hm hnear => ?_⟩
  have hN1 : 1 ≤ N := (le_max_left _ _).trans hN
  have hN0 : (0 : ℝ) < N := by exact_mod_cast hN1
  have hb1 : T / N ≤ δ₀ := by
    rw [div_le_iff₀ hN0, mul_comm, ← div_le_iff₀ hδ₀]
    exact hN₁.le.trans (by exact_mod_cast (le_max_left N₁ N₂).trans ((le_max_right _ _).trans hN))
  have hb2 : C * (T / N) ≤ r := by
    rw [← mul_div_assoc, div_le_iff₀ hN0, mul_comm r, ← div_le_iff₀ hr]
    exact hN₂.le.trans (by exact_mod_cast (le_max_right N₁ N₂).trans ((le_max_right _ _).trans hN))
  have hsum : (List.replicate N (T / N)).sum = T := by
    rw [List.sum_replicate, nsmul_eq_mul]
    field_simp
  obtain ⟨fl, V', m', h1, h2, h3⟩ := key E Rep hE (List.replicate N (T / N)) (T / N) 0 (by positivity) hb1
    (fun d hd => by rw [List.eq_of_mem_replicate hd]; exact ⟨by positivity, le_rfl⟩) hsum.le V m hZ hm hnear
  rw [hsum, zero_add, add_zero] at h3
  exact ⟨fl, V', m', h1, h2, fun i hi k => ⟨(h3 i hi k).1.trans hb2, (h3 i hi k).2.trans hb2⟩⟩

/-! ### The tables of the library -/

lemma good_explicit {t : Tab ℝ} (hwf : C17.WellFormed t) (hi : t.implicit = false) {cf : RKConf ℝ}
    (hsub : 0 < cf.subdivisions) : GoodTable 0 t.toBT cf :=
  ⟨hsub, by rw [show ∑ i ∈ range t.toBT.steps, t.toBT.b2 i = 1 from hwf.2.1.2.1]; simp, zero_le_one,
    fun _ => Or.inr fun i h0 hi' => (hwf.2.2 hi i hi').2 h0, fun e => by
      rw [show t.toBT.implicit = false from hi] at e; cases e⟩

/-- **The explicit tables**, with any threshold and depth of subdivision, any number of parts and with or without
correction. -/
theorem explicit_tables (cf : RKConf ℝ) (hsub : 0 < cf.subdivisions) :
    ∀ t ∈ [rk4Tab, rkckTab, rkdpTab, rkdverkTab, rkfTab], GoodTable 0 (t.map (Rat.cast : ℚ → ℝ)).toBT cf := by
  intro t ht
  simp only [List.mem_cons, List.not_mem_nil, or_false] at ht
  rcases ht with rfl | rfl | rfl | rfl | rfl
  · exact good_explicit (C17.rk4_wf ℝ) rfl hsub
  · exact good_explicit (C17.rkck_wf ℝ) rfl hsub
  · exact good_explicit (C17.rkdp_wf ℝ) rfl hsub
  · exact good_explicit (C17.rkdverk_wf ℝ) rfl hsub
  · exact good_explicit (C17.rkf_wf ℝ) rfl hsub

/-- **The implicit tables**, with at least one sweep. -/
theorem implicit_tables (cf : RKConf ℝ) (hsub : 0 < cf.subdivisions) (hre : 1 ≤ cf.refine) :
    GoodTable 0 (rklcTab.map (Rat.cast : ℚ → ℝ)).toBT cf ∧ GoodTable 0 (rkglTab ℝ (Real.sqrt 15)).toBT cf := by
  refine ⟨⟨hsub, ?_, zero_le_one, fun e => (by cases e), fun _ => ⟨C65.rklc_rows, hre⟩⟩,
    ⟨hsub, ?_, zero_le_one, fun e => (by cases e), fun _ => ⟨C65.rkgl_rows, hre⟩⟩⟩
  · have : ∑ i ∈ range (rklcTab.map (Rat.cast : ℚ → ℝ)).toBT.steps, (rklcTab.map (Rat.cast : ℚ → ℝ)).toBT.b2 i = 1 :=
      (C17.rklc_wf ℝ).2.1.2.1
    rw [this]; simp
  · have : ∑ i ∈ range (rkglTab ℝ (Real.sqrt 15)).toBT.steps, (rkglTab ℝ (Real.sqrt 15)).toBT.b2 i = 1 :=
      (C17.rkgl_wf (K := ℝ) (Real.sqrt 15)).2.1.2.1
    rw [this]; simp

lemma good_feagin {t : Tab ℚ} {ε : ℚ} (hε : ε ≤ 1) (hc : C57.ConsistentWithin (ε : ℝ) (t.map (Rat.cast : ℚ → ℝ)))
    (hl : C17.StrictlyLower t) (hi : t.implicit = false) {cf : RKConf ℝ} (hsub : 0 < cf.subdivisions) :
    GoodTable (ε : ℝ) (t.map (Rat.cast : ℚ → ℝ)).toBT cf := by
  refine ⟨hsub, hc.2.1, by exact_mod_cast hε, fun _ => Or.inr fun i h0 hi' => ?_, fun e => ?_⟩
  · obtain ⟨j, hj, hne⟩ := (hl hi i hi').2 h0
    refine ⟨j, hj, ?_⟩
    rw [C18.map_toBT_a (Rat.cast : ℚ → ℝ) (by simp)]
    exact_mod_cast hne
  · rw [show (t.map (Rat.cast : ℚ → ℝ)).toBT.implicit = t.implicit from rfl, hi] at e
    cases e

/-- **The tables of Feagin**, whose weights are printed with some sixty digits: up to `10⁻⁵⁵`. -/
theorem feagin_tables (cf : RKConf ℝ) (hsub : 0 < cf.subdivisions) :
    ∀ t ∈ [feagin10Tab, feagin12Tab, feagin14Tab], GoodTable (((1 / 10 ^ 55 : ℚ)) : ℝ) (t.map (Rat.cast : ℚ → ℝ)).toBT cf := by
  have hs : (1 / 10 ^ 55 : ℚ) ≤ 1 := by norm_num
  intro t ht
  simp only [List.mem_cons, List.not_mem_nil, or_false] at ht
  rcases ht with rfl | rfl | rfl
  · exact good_feagin hs (C57.consistent ℝ).1 C57.strictly_lower.1 rfl hsub
  · exact good_feagin hs (C57.consistent ℝ).2.1 C57.strictly_lower.2.1 rfl hsub
  · exact good_feagin hs (C57.consistent ℝ).2.2 C57.strictly_lower.2.2 rfl hsub

/-! ### Cases -/

/-- Two bodies opposite to each other on the unit circle. -/
noncomputable def orbitPos (t : ℝ) (i : ℕ) (k : Fin 3) : ℝ := (if i = 0 then 1 else -1) * ![Real.cos t, Real.sin t, 0] k
noncomputable def orbitVel (t : ℝ) (i : ℕ) (k : Fin 3) : ℝ := (if i = 0 then 1 else -1) * ![-Real.sin t, Real.cos t, 0] k

lemma orbit_accel (t : ℝ) (i : ℕ) (hi : i < 2) (k : Fin 3) :
    _root_.Spec.accel 1e-8 2 (orbitPos t) (fun _ => 4) i k = -orbitPos t i k := by
  have hd : ∀ a b : ℕ, a < 2 → b < 2 → a ≠ b → _root_.Spec.dist2 (orbitPos t a) (orbitPos t b) = 4 := by
    intro a b ha hb hab
    have h1 := Real.sin_sq_add_cos_sq t
    unfold _root_.Spec.dist2 orbitPos
    interval_cases a <;> interval_cases b <;> simp at hab ⊢ <;> nlinarith
  have hs : Real.sqrt (max 4 1e-8) ^ 3 = 8 := by
    rw [max_eq_left (by norm_num), show (4 : ℝ) = 2 ^ 2 by norm_num, Real.sqrt_sq (by norm_num)]
    norm_num
  have hop : ∀ a b : ℕ, a < 2 → b < 2 → a ≠ b → orbitPos t b k = -orbitPos t a k := by
    intro a b ha hb hab
    unfold orbitPos
    interval_cases a <;> interval_cases b <;> simp at hab ⊢
  unfold _root_.Spec.accel
  interval_cases i
  · rw [show (range 2).erase 0 = {1} by decide, sum_singleton, hd 0 1 (by norm_num) (by norm_num) (by norm_num), hs,
      hop 0 1 (by norm_num) (by norm_num) (by norm_num)]
    ring
  · rw [show (range 2).erase 1 = {0} by decide, sum_singleton, hd 1 0 (by norm_num) (by norm_num) (by norm_num), hs,
      hop 1 0 (by norm_num) (by norm_num) (by norm_num)]
    ring

/-- With masses 4 they move so under gravity (the distance is 2). -/
lemma orbit (T : ℝ) : Motion 1e-8 2 (fun _ => 4) T orbitPos orbitVel := by
  refine ⟨fun t _ i hi k => HasDerivAt.hasDerivWithinAt ?_, fun t _ i hi k => HasDerivAt.hasDerivWithinAt ?_⟩
  · refine HasDerivAt.const_mul _ ?_
    fin_cases k
    · exact Real.hasDerivAt_cos t
    · exact Real.hasDerivAt_sin t
    · exact hasDerivAt_const t (0 : ℝ)
  · rw [orbit_accel t i hi k]
    have e : -orbitPos t i k = (if i = 0 then 1 else -1) * ![-Real.cos t, -Real.sin t, 0] k := by
      unfold orbitPos
      fin_cases k <;> simp
    rw [e]
    refine HasDerivAt.const_mul _ ?_
    fin_cases k
    · exact (Real.hasDerivAt_sin t).neg
    · exact Real.hasDerivAt_cos t
    · exact hasDerivAt_const t (0 : ℝ)

/-- With enough steps of any of the explicit tables, subdivided by the estimate of the error, the two bodies come back
after the time 2π to within a thousandth of where they were: on the sequential engine. -/
example (t : Tab ℚ) (ht : t ∈ [rkckTab, rkdpTab, rkfTab]) (th : ℝ) :
    let cf : RKConf ℝ := ⟨2, 8, th, 1, false, 1 / 1000⟩
    ∃ N₀ : ℕ, ∀ N, N₀ ≤ N → ∀ V : Buffers ℝ, V 0 = (fun _ => 4) →
      Near 2 (V 1) (orbitPos 0) (orbitVel 0) 0 →
      ∃ fl V' m', runSteps (simpleOps (fcompute seqFor 2 0) seqFor 2)
          (fun a dt => do rkCalls C74.layout (t.map (Rat.cast : ℚ → ℝ)).toBT cf dt a; pure true)
          (List.replicate N (2 * Real.pi / N)) (false, fun h => some (buf (if h = 0 then 2 else 12) (V h))) = .ok (fl, m') ∧
        HostHolds 2 0 (fun h => h ≠ 0) (fun _ => 4) V' m' ∧ Near 2 (V' 1) (orbitPos 0) (orbitVel 0) (1 / 1000) := by
  intro cf
  have hg := explicit_tables cf (show 0 < 8 by decide) t (by
    simp only [List.mem_cons, List.not_mem_nil, or_false] at ht ⊢
    tauto)
  obtain ⟨N₀, hN⟩ := enough_steps (n := 2) (M := fun _ => 4) (H := fun h => h ≠ 0) (by decide) (fun _ _ => by norm_num)
    C74.layout_injective (.basic (.rk _ cf hg fun s hs => by
      cases s <;> simp only [C74.layout] <;> (try split_ifs) <;> omega)) (T := 2 * Real.pi) (by positivity)
    (orbit (2 * Real.pi)) (r := 1 / 1000) (by norm_num)
  refine ⟨N₀, fun N h V h0 hnear => ?_⟩
  have e : orbitPos (2 * Real.pi) = orbitPos 0 ∧ orbitVel (2 * Real.pi) = orbitVel 0 := by
    constructor <;> (funext i k; simp [orbitPos, orbitVel])
  rw [← e.1, ← e.2]
  exact hN N h _ _ (Direct.simple 0) V _ trivial
    ⟨fun h hh => congrArg (fun k => some (buf k (V h))) (if_neg hh), by simp [h0], fun h hh => hh⟩ hnear

/-- Bulirsch-Stoer with three levels is such a solver. -/
example : Fresh C74.layout (fun h => h ≠ 0) BSFlags
    (fun fl dt => do let r ← bsCalls C74.layout 3 (1 / 1000) [2, 4, 6] dt fl; pure r.1)
    ⟨⟨false, false, false⟩, false⟩ (fun _ => True) 0 :=
  .basic (.bs ⟨3, 1 / 1000, [2, 4, 6], 0⟩ (by rfl) (by decide) fun s hs => by
    cases s <;> simp only [C74.layout] <;> (try split_ifs) <;> omega)

end NB.C78
