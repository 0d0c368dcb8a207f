import Verif.Props.C16_Butcher
import Mathlib.Analysis.Normed.Module.Basic
import Mathlib.Tactic.Linarith
import Mathlib.Topology.MetricSpace.Contracting
import Mathlib.Analysis.Real.Sqrt

/-
C65: the iterating solvers - the trapezoidal predictor/corrector and the implicit Runge-Kutta schemes -
iterate the equations of their scheme.  Exact arithmetic.
-/

namespace NB.C65

open Finset Spec

section
variable {V K : Type} [Field K] [LinearOrder K] [AddCommGroup V] [Module K V]

/-! ### Trapezoidal rule -/

/-- Tableau of the trapezoidal predictor/corrector: the Euler predictor, then correctors built from the first
and the latest derivative. -/
def trapA (i j : ℕ) : K :=
  if i = 0 then 0 else if i = 1 then (if j = 0 then 1 else 0) else if j = 0 ∨ j + 1 = i then 1 / 2 else 0
/-- The weights: half the first, half the last stage. -/
def trapB (r i : ℕ) : K := if i = 0 ∨ i = r + 1 then 1 / 2 else 0

lemma sum_trapA (i : ℕ) (hi : 2 ≤ i) (k : ℕ → V) :
    ∑ j ∈ range i, (trapA i j : K) • k j = (1 / 2 : K) • k 0 + (1 / 2 : K) • k (i - 1) := by
  obtain ⟨m, rfl⟩ : ∃ m, i = m + 2 := ⟨i - 2, by omega⟩
  rw [sum_range_succ, sum_range_succ', sum_eq_zero]
  · simp [trapA]
  · intro j hj
    have := mem_range.1 hj
    simp [trapA, show ¬ (j = m) by omega]

lemma sum_trapB (r : ℕ) (k : ℕ → V) :
    ∑ i ∈ range (r + 2), (trapB r i : K) • k i = (1 / 2 : K) • k 0 + (1 / 2 : K) • k (r + 1) := by
  rw [sum_range_succ, sum_range_succ', sum_eq_zero]
  · simp [trapB]
  · intro j hj
    have := mem_range.1 hj
    simp [trapB, show ¬ (j = r) by omega]

lemma half_sum (n : ℕ → V) (dt : K) : (∑ i ∈ range 2, (dt / 2) • n i) = dt • ((1 / 2 : K) • n 0 + (1 / 2 : K) • n 1) := by
  rw [sum_range_succ, sum_range_succ, range_zero, sum_empty, zero_add, smul_add, smul_smul, smul_smul]
  simp [div_eq_mul_inv]

variable (h2 : (2 : K) ≠ 0)
include h2

/-- The predictors of the loop, the derivative evaluations and the final state. -/
lemma trapeze_loop (F : ℕ → K → V → V) (refine : ℕ) (t dt : K) (f0 : V) (e : Eng V K) (p0 : V) (hdt : dt ≠ 0) :
    ∃ p : ℕ → V, p 0 = p0 ∧
      (∀ s, s < refine → p (s + 1) = e.y + dt • ((1 / 2 : K) • f0 + (1 / 2 : K) • F (e.cc + s) t (p s))) ∧
      (foldN (refine + 1) (p0, e) (trapezeIter F refine t dt f0)).2 =
        { e with y := e.y + dt • ((1 / 2 : K) • f0 + (1 / 2 : K) • F (e.cc + refine) t (p refine)),
                 cc := e.cc + refine + 1 } := by
  have hc : dt / 2 ≠ 0 := div_ne_zero hdt h2
  have key : ∀ m, m ≤ refine → ∃ p : ℕ → V, p 0 = p0 ∧
      (∀ s, s < m → p (s + 1) = e.y + dt • ((1 / 2 : K) • f0 + (1 / 2 : K) • F (e.cc + s) t (p s))) ∧
      foldN m (p0, e) (trapezeIter F refine t dt f0) = (p m, { e with cc := e.cc + m }) := by
    intro m
    induction m with
    | zero => intro _; exact ⟨fun _ => p0, rfl, fun s hs => absurd hs (by omega), rfl⟩
    | succ m ih =>
      intro hm
      obtain ⟨p, h1, h3, h4⟩ := ih (by omega)
      let q := e.y + dt • ((1 / 2 : K) • f0 + (1 / 2 : K) • F (e.cc + m) t (p m))
      refine ⟨fun s => if s = m + 1 then q else p s, by simp [h1], ?_, ?_⟩
      · intro s hs
        by_cases hsm : s = m
        · subst hsm; simp [q]
        · simp only [show ¬ (s + 1 = m + 1) by omega, if_false, show ¬ (s = m + 1) by omega]
          exact h3 s (by omega)
      · simp only [foldN, h4, trapezeIter, Eng.fc, if_true, show ¬ (m = refine) by omega, if_false]
        rw [vfmaddn_some _ _ _ _ _ ⟨0, by omega, hc⟩, half_sum]
        simp [q, add_assoc]
  obtain ⟨p, h1, h3, h4⟩ := key refine (Nat.le_refl _)
  refine ⟨p, h1, h3, ?_⟩
  simp only [foldN, h4, trapezeIter, Eng.fc, if_true]
  rw [vfmaddnInplace_eq, half_sum]
  simp

/-- **The trapezoidal solver is the explicit scheme** with the tableau `trapA`, `trapB` and with all stages
evaluated at the time `t` of the beginning of the step, for every number of refinements. -/
theorem trapeze_is_erk (F : ℕ → K → V → V) (refine : ℕ) (dt : K) (e : Eng V K) :
    ERKStep F e.cc (refine + 2) trapA (trapB refine) (fun _ => 0) e.time dt e.y
      (trapezeAdvise F refine dt e).y := by
  by_cases hdt : dt = 0
  · subst hdt
    have : (trapezeAdvise F refine 0 e).y = e.y := by
      simp only [trapezeAdvise, Eng.adviseTime, Eng.fc]
      refine foldN_inv (P := fun _ (p : V × Eng V K) => p.2.y = e.y) rfl ?_
      rintro i ⟨p, e'⟩ _ h
      simp only [trapezeIter, Eng.fc]
      split
      · rw [vfmaddnInplace_eq]; simpa using h
      · exact h
    rw [this]
    exact C16.erk_zero ..
  obtain ⟨p, h1, h3, h4⟩ := trapeze_loop h2 F refine e.time dt (F e.cc e.time e.y)
    { e with cc := e.cc + 1 } (vfmadd e.y (F e.cc e.time e.y) dt) hdt
  let k : ℕ → V := fun i => if i = 0 then F e.cc e.time e.y else F (e.cc + i) e.time (p (i - 1))
  refine ⟨k, fun i hi => ?_, ?_⟩
  · by_cases h0 : i = 0
    · subst h0; simp [k]
    · simp only [k, h0, if_false, zero_mul, add_zero]
      congr 1
      by_cases hi1 : i = 1
      · subst hi1
        rw [sum_range_succ]
        simp [h1, vfmadd, trapA]
      · rw [sum_trapA i (by omega)]
        obtain ⟨m, rfl⟩ : ∃ m, i = m + 2 := ⟨i - 2, by omega⟩
        rw [show m + 2 - 1 = m + 1 by omega, h3 m (by omega)]
        simp only [if_true, show ¬ (m + 1 = 0) by omega, if_false, show m + 1 - 1 = m by omega,
          show e.cc + 1 + m = e.cc + (m + 1) by omega]
  · rw [sum_trapB]
    simp only [trapezeAdvise, Eng.adviseTime, Eng.fc]
    rw [h4]
    simp only [k, if_true, show ¬ (refine + 1 = 0) by omega, if_false, show refine + 1 - 1 = refine by omega,
      show e.cc + 1 + refine = e.cc + (refine + 1) by omega]

omit h2 in
/-- **Second order**: the tableau satisfies the order conditions through order 2, whatever the number of
refinements, so for an autonomous system (every engine of the repository ignores the time) the solver is of
second order. -/
theorem trapeze_order [CharZero K] (refine : ℕ) : HasOrder (refine + 2) (trapA (K := K)) (trapB refine) 2 := by
  have h2 : (2 : K) ≠ 0 := two_ne_zero
  intro t ht
  match t with
  | .node [] =>
    have := sum_trapB (V := K) (K := K) refine (fun _ => 1)
    simp only [smul_eq_mul, mul_one] at this
    simp only [OrderCond, RTree.phi, RTree.phis, RTree.gamma, RTree.gammas, RTree.orders, mul_one, this]
    norm_num
  | .node (.node [] :: []) =>
    have key : ∀ i, i < refine + 2 → ∑ j ∈ range (refine + 2), (trapA i j : K) = if i = 0 then 0 else 1 := by
      intro i hi
      have hs : ∑ j ∈ range (refine + 2), (trapA i j : K) = ∑ j ∈ range i, (trapA i j : K) := by
        symm
        apply sum_subset (by intro j; simp; omega)
        intro j _ hj
        have : ¬ j < i := by simpa using hj
        unfold trapA
        split_ifs <;> first | rfl | omega
      rw [hs]
      by_cases h0 : i = 0
      · subst h0; simp
      · by_cases h1 : i = 1
        · subst h1; simp [trapA]
        · have := sum_trapA (V := K) (K := K) i (by omega) (fun _ => 1)
          simp only [smul_eq_mul, mul_one] at this
          rw [this, if_neg h0]; norm_num
    simp only [OrderCond, RTree.phi, RTree.phis, RTree.gamma, RTree.gammas, RTree.orders, RTree.order, mul_one]
    have := sum_trapB (V := K) (K := K) refine (fun i => if i = 0 then 0 else 1)
    simp only [smul_eq_mul] at this
    rw [sum_congr rfl fun i hi => by rw [key i (mem_range.1 hi)], this]
    norm_num
  | .node (.node (_ :: _) :: _) =>
    simp only [RTree.order, RTree.orders] at ht
    have : ∀ t : RTree, 1 ≤ t.order := by rintro ⟨l⟩; simp [RTree.order]
    rename_i a b c
    have := this a
    omega
  | .node (.node [] :: _ :: _) =>
    simp only [RTree.order, RTree.orders] at ht
    have : ∀ t : RTree, 1 ≤ t.order := by rintro ⟨l⟩; simp [RTree.order]
    rename_i a b
    have := this a
    omega

/-- **A converged iteration solves the trapezoidal rule**: if the step's result reproduces the predictor it
was computed from, it satisfies `y' = y + h/2 (f(y) + f(y'))`. -/
theorem trapeze_converged (f : V → V) (refine : ℕ) (dt : K) (e : Eng V K) (hdt : dt ≠ 0) :
    ∃ p : V, (trapezeAdvise (fun _ _ => f) refine dt e).y =
        e.y + dt • ((1 / 2 : K) • f e.y + (1 / 2 : K) • f p) ∧
      ((trapezeAdvise (fun _ _ => f) refine dt e).y = p →
        p = e.y + dt • ((1 / 2 : K) • f e.y + (1 / 2 : K) • f p)) := by
  obtain ⟨p, h1, h3, h4⟩ := trapeze_loop h2 (fun _ _ => f) refine e.time dt (f e.y)
    { e with cc := e.cc + 1 } (vfmadd e.y (f e.y) dt) hdt
  have h5 : (trapezeAdvise (fun _ _ => f) refine dt e).y =
      e.y + dt • ((1 / 2 : K) • f e.y + (1 / 2 : K) • f (p refine)) := by
    simp only [trapezeAdvise, Eng.adviseTime, Eng.fc]
    rw [h4]
  exact ⟨p refine, h5, fun h => by rw [← h5, h]⟩

end

/-- Where the code departs from the trapezoidal rule: the corrector evaluates the derivative at `t` instead of
`t + dt`, so a system that depends on time is integrated with first order only.  `y' = t` from 0 to 1 gives 0
instead of 1/2. -/
theorem trapeze_ignores_time :
    (trapezeAdvise (V := ℚ) (K := ℚ) (fun _ t _ => t) 3 1 ⟨0, 0, 0, 0⟩).y ≠ 0 + 1 * (1 / 2 * 0 + 1 / 2 * 1) := by
  decide +kernel

/-! ### Implicit Runge-Kutta schemes -/

section
variable {V K : Type} [Field K] [LinearOrder K] [AddCommGroup V] [Module K V]

/-- No row of the matrix is zero: otherwise `fmaddn` leaves `m_t` untouched. -/
def FullRows (bt : BT K) : Prop := ∀ i, i < bt.steps → ∃ j, j < bt.steps ∧ bt.a i j ≠ 0

/-- **One refinement sweep** evaluates stage after stage with the stages already refined in this sweep and the
old values of the others. -/
theorem refine_sweep (F : ℕ → K → V → V) (bt : BT K) (y : V) (t dt : K) (r : RKState V) (n₀ : ℕ)
    (hr : FullRows bt) (hdt : dt ≠ 0) :
    let q := rkRefine F bt y t dt (r, n₀)
    q.2 = n₀ + bt.steps ∧ q.1.ycorr = r.ycorr ∧
    (∀ i, i < bt.steps → q.1.k i = F (n₀ + i) (t + bt.c i * dt)
      (y + dt • ∑ j ∈ range bt.steps, bt.a i j • (if j < i then q.1.k j else r.k j))) := by
  intro q
  have := foldN_inv (n := bt.steps) (s := (r, n₀)) (f := fun i s =>
      let tb := vfmaddn bt.steps s.1.tbuf (some y) s.1.k (fun n => dt * bt.a i n)
      ({ s.1 with tbuf := tb, k := upd s.1.k i (F s.2 (t + bt.c i * dt) tb) }, s.2 + 1))
    (P := fun m (p : RKState V × ℕ) => p.2 = n₀ + m ∧ p.1.ycorr = r.ycorr ∧
      (∀ i, i < m → p.1.k i = F (n₀ + i) (t + bt.c i * dt)
        (y + dt • ∑ j ∈ range bt.steps, bt.a i j • (if j < i then p.1.k j else r.k j))) ∧
      ∀ i, m ≤ i → p.1.k i = r.k i) ⟨rfl, rfl, fun i hi => absurd hi (by omega), fun _ _ => rfl⟩ ?_
  · exact ⟨this.1, this.2.1, this.2.2.1⟩
  · rintro i ⟨s, n⟩ hi ⟨h1, h2, h3, h4⟩
    simp only at h1 h2 h3 h4
    subst h1
    obtain ⟨j₀, hj₀, ha⟩ := hr i hi
    have hv := vfmaddn_some bt.steps s.tbuf y s.k (fun n => dt * bt.a i n) ⟨j₀, hj₀, mul_ne_zero hdt ha⟩
    have hy : (∑ j ∈ range bt.steps, (dt * bt.a i j) • s.k j) = dt • ∑ j ∈ range bt.steps, bt.a i j • s.k j := by
      rw [smul_sum]; exact sum_congr rfl fun j _ => by rw [mul_smul]
    simp only [hv, hy]
    refine ⟨by omega, h2, fun m hm => ?_, fun m hm => ?_⟩
    · have hsum : ∀ v : V, ∑ j ∈ range bt.steps, bt.a m j • (if j < m then upd s.k i v j else r.k j) =
          ∑ j ∈ range bt.steps, bt.a m j • (if j < m then s.k j else r.k j) := fun v =>
        sum_congr rfl fun j _ => by
          by_cases hjm : j < m
          · rw [if_pos hjm, if_pos hjm, upd_ne _ _ (by omega)]
          · rw [if_neg hjm, if_neg hjm]
      rw [hsum]
      by_cases hmi : m = i
      · subst hmi
        rw [upd_same]
        congr 3
        refine sum_congr rfl fun j _ => ?_
        by_cases hjm : j < m
        · rw [if_pos hjm]
        · rw [if_neg hjm, h4 j (by omega)]
      · rw [upd_ne _ _ hmi, h3 m (by omega)]
    · rw [upd_ne _ _ (by omega), h4 m (by omega)]

/-- **The first approach** of the very first call: every stage is evaluated at its own time at the point reached by
an Euler step of that length. -/
theorem first_approach_stages (F : ℕ → K → V → V) (bt : BT K) (y : V) (t dt : K) (r : RKState V) (n₀ : ℕ) :
    let q := rkFirstApproach F bt y t dt (r, n₀)
    q.2 = n₀ + 1 + bt.steps ∧
    ∀ i, i < bt.steps → q.1.k i = F (n₀ + 1 + i) (t + bt.c i * dt) (y + (dt * bt.c i) • F n₀ t y) := by
  intro q
  refine foldN_inv (P := fun m (p : RKState V × ℕ) => p.2 = n₀ + 1 + m ∧
    ∀ i, i < m → p.1.k i = F (n₀ + 1 + i) (t + bt.c i * dt) (y + (dt * bt.c i) • F n₀ t y))
    ⟨rfl, fun i hi => absurd hi (by omega)⟩ ?_
  rintro i ⟨s, n⟩ hi ⟨h1, h2⟩
  simp only at h1 h2
  subst h1
  refine ⟨by simp only; omega, fun m hm => ?_⟩
  by_cases hmi : m = i
  · subst hmi; simp [vfmadd]
  · simp only [upd_ne _ _ hmi]
    exact h2 m (by omega)

/-- **A sweep that changes nothing has solved the stage equations**, and conversely a solution of the stage
equations is left unchanged by any number of sweeps. -/
theorem refine_fixed_iff (f : K → V → V) (bt : BT K) (y : V) (t dt : K) (r : RKState V) (n₀ : ℕ)
    (hr : FullRows bt) (hdt : dt ≠ 0) :
    (∀ i, i < bt.steps → (rkRefine (fun _ => f) bt y t dt (r, n₀)).1.k i = r.k i) ↔
      IRKStages f bt.steps bt.a bt.c t dt y r.k := by
  have hs := (refine_sweep (fun _ => f) bt y t dt r n₀ hr hdt).2.2
  constructor
  · intro h i hi
    rw [← h i hi, hs i hi]
    congr 3
    refine sum_congr rfl fun j hj => ?_
    by_cases hji : j < i
    · rw [if_pos hji, h j (mem_range.1 hj)]
    · rw [if_neg hji]
  · intro h i
    induction i using Nat.strong_induction_on with
    | _ i ih =>
      intro hi
      rw [hs i hi, h i hi]
      congr 3
      refine sum_congr rfl fun j hj => ?_
      by_cases hji : j < i
      · rw [if_pos hji, ih j hji (mem_range.1 hj)]
      · rw [if_neg hji]

end

section
variable {V : Type} [NormedAddCommGroup V] [NormedSpace ℝ V]

/-- **Each sweep contracts the error**: for a Lipschitz derivative with constant `L` and a step with
`|dt| L Σⱼ|aᵢⱼ| ≤ θ ≤ 1`, `n` sweeps bring every stage `θⁿ` times closer to the solution of the stage equations
than the worst stage was. -/
theorem refine_contracts (f : ℝ → V → V) (bt : BT ℝ) (y : V) (t dt L θ M : ℝ) (n : ℕ) (r : RKState V) (n₀ : ℕ)
    (hr : FullRows bt) (hdt : dt ≠ 0) (hL : 0 ≤ L) (hf : ∀ s a b, ‖f s a - f s b‖ ≤ L * ‖a - b‖)
    (hθ : ∀ i, i < bt.steps → |dt| * L * ∑ j ∈ range bt.steps, |bt.a i j| ≤ θ) (hθ0 : 0 ≤ θ) (hθ1 : θ ≤ 1)
    (ks : ℕ → V) (hks : IRKStages f bt.steps bt.a bt.c t dt y ks) (hM : 0 ≤ M)
    (h0 : ∀ i, i < bt.steps → ‖r.k i - ks i‖ ≤ M) :
    ∀ i, i < bt.steps →
      ‖(foldN n (r, n₀) (fun _ s => rkRefine (fun _ => f) bt y t dt s)).1.k i - ks i‖ ≤ θ ^ n * M := by
  have one : ∀ (r : RKState V) (n₀ : ℕ) (M : ℝ), 0 ≤ M → (∀ i, i < bt.steps → ‖r.k i - ks i‖ ≤ M) →
      ∀ i, i < bt.steps → ‖(rkRefine (fun _ => f) bt y t dt (r, n₀)).1.k i - ks i‖ ≤ θ * M := by
    intro r n₀ M hM h i
    have hs := (refine_sweep (fun _ => f) bt y t dt r n₀ hr hdt).2.2
    set q := (rkRefine (fun _ => f) bt y t dt (r, n₀)).1 with hq
    induction i using Nat.strong_induction_on with
    | _ i ih =>
      intro hi
      have hb : ∀ j, j ∈ range bt.steps → ‖(if j < i then q.k j else r.k j) - ks j‖ ≤ M := by
        intro j hj
        by_cases hji : j < i
        · rw [if_pos hji]
          refine (ih j hji (mem_range.1 hj)).trans ?_
          nlinarith
        · rw [if_neg hji]; exact h j (mem_range.1 hj)
      rw [hs i hi, hks i hi]
      refine (hf _ _ _).trans ?_
      have e : (y + dt • ∑ j ∈ range bt.steps, bt.a i j • (if j < i then q.k j else r.k j)) -
          (y + dt • ∑ j ∈ range bt.steps, bt.a i j • ks j) =
          dt • ∑ j ∈ range bt.steps, bt.a i j • ((if j < i then q.k j else r.k j) - ks j) := by
        rw [add_sub_add_left_eq_sub, ← smul_sub, ← sum_sub_distrib]
        simp only [smul_sub]
      rw [e, norm_smul, Real.norm_eq_abs]
      have hsum : ‖∑ j ∈ range bt.steps, bt.a i j • ((if j < i then q.k j else r.k j) - ks j)‖ ≤
          (∑ j ∈ range bt.steps, |bt.a i j|) * M := by
        refine (norm_sum_le _ _).trans ?_
        rw [sum_mul]
        refine sum_le_sum fun j hj => ?_
        rw [norm_smul, Real.norm_eq_abs]
        exact mul_le_mul_of_nonneg_left (hb j hj) (abs_nonneg _)
      calc L * (|dt| * ‖∑ j ∈ range bt.steps, bt.a i j • ((if j < i then q.k j else r.k j) - ks j)‖)
          ≤ L * (|dt| * ((∑ j ∈ range bt.steps, |bt.a i j|) * M)) :=
            mul_le_mul_of_nonneg_left (mul_le_mul_of_nonneg_left hsum (abs_nonneg _)) hL
        _ = (|dt| * L * ∑ j ∈ range bt.steps, |bt.a i j|) * M := by ring
        _ ≤ θ * M := mul_le_mul_of_nonneg_right (hθ i hi) hM
  induction n with
  | zero => intro i hi; simpa [foldN] using h0 i hi
  | succ n ih =>
    intro i hi
    have := one (foldN n (r, n₀) (fun _ s => rkRefine (fun _ => f) bt y t dt s)).1
      (foldN n (r, n₀) (fun _ s => rkRefine (fun _ => f) bt y t dt s)).2 (θ ^ n * M) (by positivity) ih i hi
    rw [pow_succ, mul_comm (θ ^ n) θ, mul_assoc]
    exact this

lemma implicit_ycorr (f : ℝ → V → V) (bt : BT ℝ) (y : V) (t dt : ℝ) (n : ℕ) (s : RKState V × ℕ)
    (hr : FullRows bt) (hdt : dt ≠ 0) :
    (foldN n s (fun _ s => rkRefine (fun _ => f) bt y t dt s)).1.ycorr = s.1.ycorr := by
  induction n with
  | zero => rfl
  | succ n ih =>
    simp only [foldN]
    rw [← ih]
    exact (refine_sweep (fun _ => f) bt y t dt _ _ hr hdt).2.1

/-- The stages an implicit step starts its sweeps from: the first approach on the very first call, the stages
of the previous step afterwards. -/
noncomputable def startStages (f : ℝ → V → V) (bt : BT ℝ) (y : V) (t dt : ℝ) (r : RKState V) (n₀ : ℕ) : ℕ → V :=
  if r.allocated then r.k
  else (rkFirstApproach (fun _ => f) bt y t dt ({ r with allocated := true }, n₀)).1.k

/-- **One step of an implicit solver** (no subdivision): the result is within `|dt| Σ|bᵢ| θʳ M` of the exact
implicit Runge-Kutta step, where `r` is the number of refinement sweeps and `M` the distance of the starting
stages from the solution of the stage equations. -/
theorem rk_implicit_step (f : ℝ → V → V) (nrm : V → ℝ) (bt : BT ℝ) (cf : RKConf ℝ) (dt L θ M : ℝ)
    (r : RKState V) (e : Eng V ℝ) (hi : bt.implicit = true) (hr : FullRows bt) (hdt : dt ≠ 0)
    (hs : cf.maxRecursion = 0 ∨ bt.embedded = false) (hc : cf.correction = true → r.ycorr = 0)
    (hL : 0 ≤ L) (hf : ∀ s a b, ‖f s a - f s b‖ ≤ L * ‖a - b‖)
    (hθ : ∀ i, i < bt.steps → |dt| * L * ∑ j ∈ range bt.steps, |bt.a i j| ≤ θ) (hθ0 : 0 ≤ θ) (hθ1 : θ ≤ 1)
    (ks : ℕ → V) (hks : IRKStages f bt.steps bt.a bt.c e.time dt e.y ks) (hM : 0 ≤ M)
    (h0 : ∀ i, i < bt.steps → ‖startStages f bt e.y e.time dt r e.cc i - ks i‖ ≤ M) :
    let e' := (rkAdvise (fun _ => f) nrm bt cf dt r e).2
    ‖e'.y - (e.y + dt • ∑ i ∈ range bt.steps, bt.b2 i • ks i)‖ ≤
        |dt| * (∑ i ∈ range bt.steps, |bt.b2 i|) * (θ ^ cf.refine * M) ∧
    e'.time = e.time + dt ∧ e'.step = e.step + 1 := by
  intro e'
  have he' := C16.rkAdvise_nosub (fun _ => f) nrm bt cf dt r e hs
  simp only [rkStages, hi, if_true, rkImplicit] at he'
  have hfa : (rkFirstApproach (fun _ => f) bt e.y e.time dt ({ r with allocated := true }, e.cc)).1.ycorr = r.ycorr := by
    simp only [rkFirstApproach]
    exact foldN_inv (P := fun _ (p : RKState V × ℕ) => p.1.ycorr = r.ycorr) rfl (fun _ _ _ h => h)
  set st := (if (!r.allocated) = true then
      rkFirstApproach (fun _ => f) bt e.y e.time dt ({ r with allocated := true }, e.cc)
    else ({ r with allocated := true }, e.cc) : RKState V × ℕ) with hst
  have hk : st.1.k = startStages f bt e.y e.time dt r e.cc := by
    rw [hst]; unfold startStages
    cases r.allocated <;> rfl
  have hyc : st.1.ycorr = r.ycorr := by
    rw [hst]
    cases h : r.allocated
    · simpa using hfa
    · rfl
  have hcon := refine_contracts f bt e.y e.time dt L θ M cf.refine st.1 st.2 hr hdt hL hf hθ hθ0 hθ1 ks hks hM
    (by rw [hk]; exact h0)
  have hyc' := implicit_ycorr f bt e.y e.time dt cf.refine st hr hdt
  set q := foldN cf.refine st (fun _ s => rkRefine (fun _ => f) bt e.y e.time dt s) with hq
  refine ⟨?_, by simp [e', he', Eng.adviseTime], by simp [e', he', Eng.adviseTime]⟩
  have hadv := C16.rkAdvance_eq bt cf dt { q.1 with tbuf := (rkError nrm bt q.1).1 } e.y
    (fun h => by rw [← hc h, ← hyc]; exact hyc')
  simp only [e', he', Eng.adviseTime]
  rw [hadv]
  have e1 : (e.y + dt • ∑ i ∈ range bt.steps, bt.b2 i • q.1.k i) - (e.y + dt • ∑ i ∈ range bt.steps, bt.b2 i • ks i) =
      dt • ∑ i ∈ range bt.steps, bt.b2 i • (q.1.k i - ks i) := by
    rw [add_sub_add_left_eq_sub, ← smul_sub, ← sum_sub_distrib]
    simp only [smul_sub]
  rw [e1, norm_smul, Real.norm_eq_abs, mul_assoc]
  refine mul_le_mul_of_nonneg_left ?_ (abs_nonneg _)
  refine (norm_sum_le _ _).trans ?_
  rw [sum_mul]
  refine sum_le_sum fun i hi' => ?_
  rw [norm_smul, Real.norm_eq_abs]
  exact mul_le_mul_of_nonneg_left (hcon i (mem_range.1 hi')) (abs_nonneg _)

/-- The stage equations have a solution for every sufficiently small step (`θ < 1`), so the hypotheses of the
theorems above can be met for every Lipschitz derivative. -/
theorem stage_equations_solvable [CompleteSpace V] (f : ℝ → V → V) (bt : BT ℝ) (y : V) (t dt L θ : ℝ)
    (hL : 0 ≤ L) (hf : ∀ s a b, ‖f s a - f s b‖ ≤ L * ‖a - b‖)
    (hθ : ∀ i, i < bt.steps → |dt| * L * ∑ j ∈ range bt.steps, |bt.a i j| ≤ θ) (hθ0 : 0 ≤ θ) (hθ1 : θ < 1) :
    ∃ ks, IRKStages f bt.steps bt.a bt.c t dt y ks := by
  let ext : (Fin bt.steps → V) → ℕ → V := fun k j => if h : j < bt.steps then k ⟨j, h⟩ else 0
  let Φ : (Fin bt.steps → V) → (Fin bt.steps → V) := fun k i =>
    f (t + bt.c i * dt) (y + dt • ∑ j ∈ range bt.steps, bt.a i j • ext k j)
  have hΦ : ContractingWith ⟨θ, hθ0⟩ Φ := by
    refine ⟨by exact_mod_cast hθ1, LipschitzWith.of_dist_le_mul fun k k' => ?_⟩
    rw [dist_eq_norm, dist_eq_norm]
    refine (pi_norm_le_iff_of_nonneg (mul_nonneg hθ0 (norm_nonneg _))).2 fun i => ?_
    rw [Pi.sub_apply]
    refine (hf _ _ _).trans ?_
    have e : (y + dt • ∑ j ∈ range bt.steps, bt.a i j • ext k j) -
        (y + dt • ∑ j ∈ range bt.steps, bt.a i j • ext k' j) =
        dt • ∑ j ∈ range bt.steps, bt.a i j • (ext k j - ext k' j) := by
      rw [add_sub_add_left_eq_sub, ← smul_sub, ← sum_sub_distrib]
      simp only [smul_sub]
    rw [e, norm_smul, Real.norm_eq_abs]
    have hsum : ‖∑ j ∈ range bt.steps, bt.a i j • (ext k j - ext k' j)‖ ≤
        (∑ j ∈ range bt.steps, |bt.a i j|) * ‖k - k'‖ := by
      refine (norm_sum_le _ _).trans ?_
      rw [sum_mul]
      refine sum_le_sum fun j hj => ?_
      rw [norm_smul, Real.norm_eq_abs]
      refine mul_le_mul_of_nonneg_left ?_ (abs_nonneg _)
      have hj' := mem_range.1 hj
      simp only [ext, hj', dif_pos]
      exact norm_le_pi_norm (k - k') ⟨j, hj'⟩
    calc L * (|dt| * ‖∑ j ∈ range bt.steps, bt.a i j • (ext k j - ext k' j)‖)
        ≤ L * (|dt| * ((∑ j ∈ range bt.steps, |bt.a i j|) * ‖k - k'‖)) :=
          mul_le_mul_of_nonneg_left (mul_le_mul_of_nonneg_left hsum (abs_nonneg _)) hL
      _ = (|dt| * L * ∑ j ∈ range bt.steps, |bt.a i j|) * ‖k - k'‖ := by ring
      _ ≤ θ * ‖k - k'‖ := mul_le_mul_of_nonneg_right (hθ i i.2) (norm_nonneg _)
  have hfix := hΦ.fixedPoint_isFixedPt
  refine ⟨ext (hΦ.fixedPoint Φ), fun i hi => ?_⟩
  have := congrFun hfix ⟨i, hi⟩
  simp only [ext, hi, dif_pos]
  rw [← this]

/-! ### The two implicit tables of the repository -/

lemma rklc_rows : FullRows (rklcTab.map (Rat.cast : ℚ → ℝ)).toBT := by
  intro i hi
  refine ⟨0, by decide, ?_⟩
  have hi' : i < 3 := hi
  interval_cases i <;> norm_num [Tab.toBT, Tab.map, rklcTab]

lemma rklc_sum (i : ℕ) (hi : i < (rklcTab.map (Rat.cast : ℚ → ℝ)).toBT.steps) :
    ∑ j ∈ range (rklcTab.map (Rat.cast : ℚ → ℝ)).toBT.steps, |(rklcTab.map (Rat.cast : ℚ → ℝ)).toBT.a i j| ≤ 1 := by
  have hi' : i < 3 := hi
  have hs : (rklcTab.map (Rat.cast : ℚ → ℝ)).toBT.steps = 3 := rfl
  rw [hs]
  interval_cases i <;> norm_num [Tab.toBT, Tab.map, rklcTab, sum_range_succ, abs_of_pos, abs_of_neg]

lemma sqrt15_bounds : 3.8 ≤ Real.sqrt 15 ∧ Real.sqrt 15 ≤ 3.9 := by
  constructor
  · exact Real.le_sqrt_of_sq_le (by norm_num)
  · rw [Real.sqrt_le_left (by norm_num)]; norm_num

lemma rkgl_rows : FullRows (rkglTab ℝ (Real.sqrt 15)).toBT := by
  obtain ⟨h1, h2⟩ := sqrt15_bounds
  intro i hi
  refine ⟨0, by decide, ?_⟩
  have hi' : i < 3 := hi
  interval_cases i
  · norm_num [Tab.toBT, rkglTab]
  · simp only [Tab.toBT, rkglTab, List.getD_cons_succ, List.getD_cons_zero]
    intro h; linarith
  · simp only [Tab.toBT, rkglTab, List.getD_cons_succ, List.getD_cons_zero]
    intro h; linarith

lemma rkgl_sum (i : ℕ) (hi : i < (rkglTab ℝ (Real.sqrt 15)).toBT.steps) :
    ∑ j ∈ range (rkglTab ℝ (Real.sqrt 15)).toBT.steps, |(rkglTab ℝ (Real.sqrt 15)).toBT.a i j| ≤ 1 := by
  obtain ⟨h1, h2⟩ := sqrt15_bounds
  have hi' : i < 3 := hi
  have hs : (rkglTab ℝ (Real.sqrt 15)).toBT.steps = 3 := rfl
  rw [hs]
  set q := Real.sqrt 15 with hq
  clear_value q
  have hle : ∀ x b : ℝ, -b ≤ x → x ≤ b → |x| ≤ b := fun x b h1 h2 => abs_le.2 ⟨h1, h2⟩
  rw [sum_range_succ, sum_range_succ, sum_range_succ, range_zero, sum_empty, zero_add]
  interval_cases i <;> simp only [Tab.toBT, rkglTab, List.getD_cons_succ, List.getD_cons_zero]
  · have a1 := hle ((5 : ℝ) / 36) 0.14 (by norm_num) (by norm_num)
    have a2 := hle ((2 : ℝ) / 9 - q / 15) 0.04 (by linarith) (by linarith)
    have a3 := hle ((5 : ℝ) / 36 - q / 30) 0.02 (by linarith) (by linarith)
    linarith
  · have a1 := hle ((5 : ℝ) / 36 + q / 24) 0.31 (by linarith) (by linarith)
    have a2 := hle ((2 : ℝ) / 9) 0.23 (by norm_num) (by norm_num)
    have a3 := hle ((5 : ℝ) / 36 - q / 24) 0.03 (by linarith) (by linarith)
    linarith
  · have a1 := hle ((5 : ℝ) / 36 + q / 30) 0.27 (by linarith) (by linarith)
    have a2 := hle ((2 : ℝ) / 9 + q / 15) 0.49 (by linarith) (by linarith)
    have a3 := hle ((5 : ℝ) / 36) 0.14 (by norm_num) (by norm_num)
    linarith

/-- **`rkgl` and `rklc`**: one sweep per refinement contracts the error by `|dt| L`, for every Lipschitz
derivative.  (Which step they converge to - the weights `b2` - is C18's subject.) -/
theorem gauss_and_lobatto_converge (f : ℝ → V → V) (bt : BT ℝ)
    (hbt : bt = (rkglTab ℝ (Real.sqrt 15)).toBT ∨ bt = (rklcTab.map (Rat.cast : ℚ → ℝ)).toBT)
    (y : V) (t dt L M : ℝ) (n : ℕ) (r : RKState V) (n₀ : ℕ) (hdt : dt ≠ 0) (hL : 0 ≤ L)
    (hf : ∀ s a b, ‖f s a - f s b‖ ≤ L * ‖a - b‖) (h1 : |dt| * L ≤ 1) (ks : ℕ → V)
    (hks : IRKStages f bt.steps bt.a bt.c t dt y ks) (hM : 0 ≤ M) (h0 : ∀ i, i < bt.steps → ‖r.k i - ks i‖ ≤ M) :
    ∀ i, i < bt.steps →
      ‖(foldN n (r, n₀) (fun _ s => rkRefine (fun _ => f) bt y t dt s)).1.k i - ks i‖ ≤ (|dt| * L) ^ n * M := by
  have hdL : 0 ≤ |dt| * L := mul_nonneg (abs_nonneg _) hL
  refine refine_contracts f bt y t dt L (|dt| * L) M n r n₀ ?_ hdt hL hf (fun i hi => ?_) hdL h1 ks hks hM h0
  · rcases hbt with rfl | rfl
    · exact rkgl_rows
    · exact rklc_rows
  · refine mul_le_of_le_one_right hdL ?_
    rcases hbt with rfl | rfl
    · exact rkgl_sum i hi
    · exact rklc_sum i hi

/-- The hypotheses are met: `y' = y`, step 1/10, Gauss-Legendre, starting from zero stages. -/
example : ∃ ks : ℕ → ℝ, ∃ M : ℝ, ∀ n : ℕ, ∀ i, i < 3 →
    ‖(foldN n ((RKState.new : RKState ℝ), 0)
      (fun _ s => rkRefine (fun _ _ y => y) (rkglTab ℝ (Real.sqrt 15)).toBT 1 0 (1 / 10) s)).1.k i - ks i‖ ≤
      (|1 / 10| * 1) ^ n * M := by
  obtain ⟨ks, hks⟩ := stage_equations_solvable (V := ℝ) (fun _ y => y) (rkglTab ℝ (Real.sqrt 15)).toBT 1 0 (1 / 10)
    1 (1 / 10) (by norm_num) (by intro s a b; simp)
    (fun i hi => by
      have := rkgl_sum i hi
      rw [abs_of_pos (by norm_num)]
      linarith) (by norm_num) (by norm_num)
  refine ⟨ks, ‖ks 0‖ + ‖ks 1‖ + ‖ks 2‖, fun n i hi => ?_⟩
  refine gauss_and_lobatto_converge (fun _ y => y) _ (Or.inl rfl) 1 0 (1 / 10) 1 _ n _ 0 (by norm_num) (by norm_num)
    (by intro s a b; simp) (by rw [abs_of_pos (by norm_num)]; norm_num) ks hks (by positivity) (fun i hi => ?_) i hi
  have hi' : i < 3 := hi
  have : (RKState.new : RKState ℝ).k i = 0 := rfl
  rw [this, zero_sub, norm_neg]
  have a0 := norm_nonneg (ks 0)
  have a1 := norm_nonneg (ks 1)
  have a2 := norm_nonneg (ks 2)
  interval_cases i <;> linarith

end

/-- Trapezoidal rule, `y' = y`, `h = 1`, one refinement: 1, predictor 2, corrector 5/2, result 11/4. -/
example : (trapezeAdvise (V := ℚ) (K := ℚ) (fun _ _ y => y) 1 1 ⟨1, 0, 0, 0⟩).y = 11 / 4 := by
  decide +kernel

end NB.C65
