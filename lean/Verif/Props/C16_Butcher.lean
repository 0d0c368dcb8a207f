import Verif.Model.ButcherTables
import Verif.Spec.RungeKutta
import Verif.Lemmas.SolverOps
import Mathlib.Tactic.IntervalCases
import Mathlib.Tactic.FieldSimp
import Mathlib.Tactic.NormNum
import Mathlib.Data.Rat.Cast.CharZero

/-
C16: the dedicated Runge-Kutta solvers and the table driven solver compute the same scheme.
-/

namespace NB.C16

open Finset Spec

section
variable {V K : Type} [Field K] [LinearOrder K] [AddCommGroup V] [Module K V]

/-- A step is determined by the stage equations. -/
theorem erk_unique (f : ℕ → K → V → V) (n₀ s : ℕ) (a : ℕ → ℕ → K) (b c : ℕ → K) (t h : K) (y y₁ y₂ : V)
    (h₁ : ERKStep f n₀ s a b c t h y y₁) (h₂ : ERKStep f n₀ s a b c t h y y₂) : y₁ = y₂ := by
  obtain ⟨k, hk, rfl⟩ := h₁
  obtain ⟨k', hk', rfl⟩ := h₂
  have key : ∀ i, i < s → k i = k' i := by
    intro i
    induction i using Nat.strong_induction_on with
    | _ i ih =>
      intro hi
      rw [hk i hi, hk' i hi]
      congr 3
      exact sum_congr rfl fun j hj => by rw [ih j (mem_range.1 hj) (lt_trans (mem_range.1 hj) hi)]
  congr 2
  exact sum_congr rfl fun i hi => by rw [key i (mem_range.1 hi)]

/-- Every stage after the first reads at least one earlier stage: otherwise `fmaddn` leaves `m_t`
untouched. -/
def RowsNonzero (bt : BT K) : Prop := ∀ i, 0 < i → i < bt.steps → ∃ j, j < i ∧ bt.a i j ≠ 0

/-- The stages computed by `sub_step_explicit`. -/
lemma rkExplicit_stages (F : ℕ → K → V → V) (bt : BT K) (cf : RKConf K) (y : V) (t dt : K)
    (r : RKState V) (n₀ : ℕ) (hc : cf.correction = true → r.ycorr = 0)
    (hr : cf.correction = true ∨ RowsNonzero bt) (hdt : cf.correction = true ∨ dt ≠ 0) :
    let q := rkExplicit F bt cf y t dt (r, n₀)
    q.2 = n₀ + bt.steps ∧ q.1.ycorr = r.ycorr ∧
    ∀ i, i < bt.steps → q.1.k i = F (n₀ + i) (t + bt.c i * dt)
      (y + dt • ∑ j ∈ range i, bt.a i j • q.1.k j) := by
  intro q
  refine foldN_inv (P := fun m (p : RKState V × ℕ) => p.2 = n₀ + m ∧ p.1.ycorr = r.ycorr ∧
    ∀ i, i < m → p.1.k i = F (n₀ + i) (t + bt.c i * dt)
      (y + dt • ∑ j ∈ range i, bt.a i j • p.1.k j)) ⟨rfl, rfl, fun i hi => absurd hi (by omega)⟩ ?_
  rintro i ⟨s, n⟩ hi ⟨h1, h2, h3⟩
  simp only at h1 h2 h3
  subst h1
  have hy : (∑ j ∈ range i, (dt * bt.a i j) • s.k j) = dt • ∑ j ∈ range i, bt.a i j • s.k j := by
    rw [smul_sum]; exact sum_congr rfl fun j _ => by rw [mul_smul]
  have upd_sum : ∀ (v : V) (m : ℕ), m ≤ i → (∑ j ∈ range m, bt.a m j • upd s.k i v j)
      = ∑ j ∈ range m, bt.a m j • s.k j := fun v m hm =>
    sum_congr rfl fun j hj => by rw [upd_ne _ _ (by have := mem_range.1 hj; omega)]
  by_cases h0 : i = 0
  · subst h0
    refine ⟨by simp [rkStageExplicit, add_assoc], by simpa [rkStageExplicit] using h2, ?_⟩
    intro m hm
    have hm0 : m = 0 := by omega
    subst hm0
    simp [rkStageExplicit]
  · have tb : ∀ v : V, v = y + dt • ∑ j ∈ range i, bt.a i j • s.k j →
        n₀ + i + 1 = n₀ + (i + 1) ∧ s.ycorr = r.ycorr ∧
        ∀ m, m < i + 1 → upd s.k i (F (n₀ + i) (t + bt.c i * dt) v) m = F (n₀ + m) (t + bt.c m * dt)
          (y + dt • ∑ j ∈ range m, bt.a m j • upd s.k i (F (n₀ + i) (t + bt.c i * dt) v) j) := by
      intro v hv
      refine ⟨by omega, h2, ?_⟩
      intro m hm
      rw [upd_sum _ m (by omega)]
      by_cases hmi : m = i
      · subst hmi; rw [upd_same, hv]
      · rw [upd_ne _ _ hmi, h3 m (by omega)]
    unfold rkStageExplicit
    rw [if_neg h0]
    by_cases hcorr : cf.correction = true
    · simp only [hcorr, if_true]
      exact tb _ (by rw [h2, hc hcorr, vfmaddnCorr_eq, hy])
    · have hcorr' : cf.correction = false := by simpa using hcorr
      simp only [hcorr', Bool.false_eq_true, if_false]
      have hr' : RowsNonzero bt := by simpa [hcorr'] using hr
      have hdt' : dt ≠ 0 := by simpa [hcorr'] using hdt
      obtain ⟨j, hj, hja⟩ := hr' i (Nat.pos_of_ne_zero h0) hi
      have hv := vfmaddn_some i s.tbuf y s.k (fun n => dt * bt.a i n) ⟨j, hj, mul_ne_zero hdt' hja⟩
      exact tb _ (by rw [hv, hy])

/-- The state after `advise` when the step is not subdivided. -/
lemma rkAdvise_nosub (F : ℕ → K → V → V) (nrm : V → K) (bt : BT K) (cf : RKConf K) (dt : K)
    (r : RKState V) (e : Eng V K) (hs : cf.maxRecursion = 0 ∨ bt.embedded = false) :
    let st := rkStages F bt cf (!r.allocated) e.y e.time dt ({ r with allocated := true }, e.cc)
    let x := { st.1 with tbuf := (rkError nrm bt st.1).1 }
    (rkAdvise F nrm bt cf dt r e).2 =
      ({ e with y := (rkAdvance bt cf dt x e.y).1, cc := st.2 } : Eng V K).adviseTime dt := by
  unfold rkAdvise rkSubStep
  simp only [foldN]
  rcases hs with h | h
  · rw [h]
  · cases cf.maxRecursion with
    | zero => rfl
    | succ n => simp [h]

lemma rkAdvance_eq (bt : BT K) (cf : RKConf K) (dt : K) (r : RKState V) (y : V)
    (hc : cf.correction = true → r.ycorr = 0) :
    (rkAdvance bt cf dt r y).1 = y + dt • ∑ i ∈ range bt.steps, bt.b2 i • r.k i := by
  have hy : (∑ j ∈ range bt.steps, (bt.b2 j * dt) • r.k j) = dt • ∑ j ∈ range bt.steps, bt.b2 j • r.k j := by
    rw [smul_sum]; exact sum_congr rfl fun j _ => by rw [mul_comm, mul_smul]
  unfold rkAdvance
  by_cases hcorr : cf.correction = true
  · simp only [hcorr, if_true]
    rw [hc hcorr, vfmaddnCorr_eq, hy]
  · have hcorr' : cf.correction = false := by simpa using hcorr
    simp only [hcorr', Bool.false_eq_true, if_false]
    rw [vfmaddnInplace_eq, hy]

/-- A scheme with zero step size does nothing, whatever the stages. -/
lemma erk_zero (f : ℕ → K → V → V) (n₀ s : ℕ) (a : ℕ → ℕ → K) (b c : ℕ → K) (t : K) (y : V) :
    ERKStep f n₀ s a b c t 0 y y :=
  ⟨fun i => f (n₀ + i) (t + c i * 0) y, fun i _ => by simp, by simp⟩

/-- **The table driven solver computes the scheme of its table** with the weights `b2`: for every
derivative function, state, step size and table whose rows are not zero, an explicit `advise` that does
not subdivide performs one step of that scheme, evaluates the derivative once per stage and advances the
clock once. -/
theorem rk_explicit_step (F : ℕ → K → V → V) (nrm : V → K) (bt : BT K) (cf : RKConf K) (dt : K)
    (r : RKState V) (e : Eng V K) (hi : bt.implicit = false) (hrows : RowsNonzero bt)
    (hs : cf.maxRecursion = 0 ∨ bt.embedded = false) (hc : cf.correction = true → r.ycorr = 0) :
    let e' := (rkAdvise F nrm bt cf dt r e).2
    ERKStep F e.cc bt.steps bt.a bt.b2 bt.c e.time dt e.y e'.y ∧
    e'.time = e.time + dt ∧ e'.step = e.step + 1 ∧ e'.cc = e.cc + bt.steps := by
  intro e'
  have he' := rkAdvise_nosub F nrm bt cf dt r e hs
  simp only [rkStages, hi, Bool.false_eq_true, if_false] at he'
  have hcc : ∀ (r : RKState V) (n : ℕ), (rkExplicit F bt cf e.y e.time dt (r, n)).2 = n + bt.steps ∧
      (rkExplicit F bt cf e.y e.time dt (r, n)).1.ycorr = r.ycorr := by
    intro r n
    refine foldN_inv (P := fun m (p : RKState V × ℕ) => p.2 = n + m ∧ p.1.ycorr = r.ycorr) ⟨rfl, rfl⟩ ?_
    rintro i ⟨s, n⟩ _ ⟨h1, h2⟩
    simp only at h1 h2
    subst h1
    unfold rkStageExplicit
    by_cases h0 : i = 0
    · rw [if_pos h0]; exact ⟨by simp [add_assoc], h2⟩
    · rw [if_neg h0]
      refine ⟨by simp [add_assoc], ?_⟩
      by_cases hcorr : cf.correction = true <;> simpa [hcorr] using h2
  refine ⟨?_, by simp [e', he', Eng.adviseTime], by simp [e', he', Eng.adviseTime],
    by simp [e', he', Eng.adviseTime, (hcc _ _).1]⟩
  have hadv := rkAdvance_eq bt cf dt
    { (rkExplicit F bt cf e.y e.time dt ({ r with allocated := true }, e.cc)).1 with
      tbuf := (rkError nrm bt (rkExplicit F bt cf e.y e.time dt ({ r with allocated := true }, e.cc)).1).1 } e.y
    (fun h => by rw [← hc h]; exact (hcc _ _).2)
  by_cases hz : dt = 0
  · have : e'.y = e.y := by
      simp only [e', he', Eng.adviseTime]
      rw [hadv, hz, zero_smul, add_zero]
    rw [this, hz]
    exact erk_zero ..
  · have hst := rkExplicit_stages F bt cf e.y e.time dt { r with allocated := true } e.cc hc (Or.inr hrows)
      (Or.inr hz)
    refine ⟨_, hst.2.2, ?_⟩
    simp only [e', he', Eng.adviseTime]
    rw [hadv]

/-- **The Euler solver is the one-stage scheme.** -/
theorem euler_is_erk (F : ℕ → K → V → V) (dt : K) (e : Eng V K) :
    ERKStep F e.cc 1 (fun _ _ => 0) (fun _ => 1) (fun _ => 0) e.time dt e.y (eulerAdvise F dt e).y := by
  refine ⟨fun _ => F e.cc e.time e.y, fun i hi => ?_, ?_⟩
  · have : i = 0 := by omega
    subst this; simp
  · simp [eulerAdvise, Eng.fc, Eng.adviseTime, vfmadd]

/-- **The midpoint solver is the two-stage scheme** with tableau 0 | ; 1/2 | 1/2 ; | 0 1. -/
theorem midpoint_is_erk (F : ℕ → K → V → V) (dt : K) (e : Eng V K) :
    ERKStep F e.cc 2 (fun _ _ => 1 / 2) (fun i => if i = 0 then 0 else 1) (fun i => if i = 0 then 0 else 1 / 2)
      e.time dt e.y (midpointAdvise F dt e).y := by
  refine ⟨fun i => if i = 0 then F e.cc e.time e.y else
    F (e.cc + 1) (e.time + dt / 2) (vfmadd e.y (F e.cc e.time e.y) (dt / 2)), fun i hi => ?_, ?_⟩
  · interval_cases i
    · simp
    · simp [vfmadd, smul_smul]
      congr 2 <;> ring
  · simp [midpointAdvise, Eng.fc, Eng.adviseTime, vfmadd, sum_range_succ]

/-- The coefficients of the classic fourth order method (Kutta 1901). -/
def classicA (i j : ℕ) : K :=
  if i = 1 ∧ j = 0 then 1 / 2 else if i = 2 ∧ j = 1 then 1 / 2 else if i = 3 ∧ j = 2 then 1 else 0
def classicB (i : ℕ) : K := if i = 1 ∨ i = 2 then 1 / 3 else 1 / 6
def classicC (i : ℕ) : K := if i = 0 then 0 else if i = 3 then 1 else 1 / 2

/-- **The dedicated RK4 solver is the classic four-stage scheme.** -/
theorem rk4_is_erk (F : ℕ → K → V → V) (dt : K) (e : Eng V K) :
    ERKStep F e.cc 4 classicA classicB classicC e.time dt e.y (rk4Advise F dt e).y := by
  let k0 := F e.cc e.time e.y
  let k1 := F (e.cc + 1) (e.time + dt / 2) (vfmadd e.y k0 (dt / 2))
  let k2 := F (e.cc + 2) (e.time + dt / 2) (vfmadd e.y k1 (dt / 2))
  let k3 := F (e.cc + 3) (e.time + dt) (vfmadd e.y k2 dt)
  refine ⟨fun i => if i = 0 then k0 else if i = 1 then k1 else if i = 2 then k2 else k3, fun i hi => ?_, ?_⟩
  · interval_cases i
    · simp [classicC, k0]
    · simp only [classicA, classicC, k1, vfmadd, sum_range_succ, range_zero, sum_empty]
      simp [smul_smul]
      congr 2 <;> ring
    · simp only [classicA, classicC, k2, vfmadd, sum_range_succ, range_zero, sum_empty]
      simp [smul_smul]
      congr 2 <;> ring
    · simp only [classicA, classicC, k3, vfmadd, sum_range_succ, range_zero, sum_empty]
      simp
  · simp only [rk4Advise, Eng.fc, Eng.adviseTime, vfmaddnInplace_eq, classicB, sum_range_succ, range_zero,
      sum_empty, smul_add, smul_smul]
    simp only [k0, k1, k2, k3, add_assoc]
    norm_num [div_eq_mul_inv]

end

section
variable {V K : Type} [Field K] [LinearOrder K] [IsStrictOrderedRing K] [AddCommGroup V] [Module K V]

/-- **The two fourth order solvers agree**: the dedicated RK4 solver and the table driven solver with the
`rk4` table perform the same transition of the engine - state, time, step counter and number of
derivative evaluations - for every derivative function, state and step size, with or without
compensated summation. -/
theorem rk4_agrees (F : ℕ → K → V → V) (nrm : V → K) (cf : RKConf K) (dt : K) (r : RKState V) (e : Eng V K)
    (hc : cf.correction = true → r.ycorr = 0) :
    rk4Advise F dt e = (rkAdvise F nrm (rk4Tab.map (Rat.cast : ℚ → K)).toBT cf dt r e).2 := by
  have h := rk_explicit_step F nrm (rk4Tab.map (Rat.cast : ℚ → K)).toBT cf dt r e rfl
    (by
      intro i h0 hi
      have hi' : i < 4 := hi
      interval_cases i
      · exact ⟨0, by omega, by simp [Tab.toBT, Tab.map, rk4Tab]⟩
      · exact ⟨1, by omega, by simp [Tab.toBT, Tab.map, rk4Tab]⟩
      · exact ⟨2, by omega, by simp [Tab.toBT, Tab.map, rk4Tab]⟩) (Or.inr rfl) hc
  obtain ⟨h1, h2, h3, h4⟩ := h
  have hy := rk4_is_erk F dt e
  have same : ERKStep F e.cc 4 (classicA (K := K)) classicB classicC e.time dt e.y
      (rkAdvise F nrm (rk4Tab.map (Rat.cast : ℚ → K)).toBT cf dt r e).2.y := by
    obtain ⟨k, hk, hy'⟩ := h1
    refine ⟨k, fun i hi => ?_, ?_⟩
    · rw [hk i hi]
      interval_cases i <;>
        simp [Tab.toBT, Tab.map, rk4Tab, classicA, classicC, sum_range_succ]
    · rw [hy']
      simp [Tab.toBT, Tab.map, rk4Tab, classicB, sum_range_succ]
  apply Eng.ext
  · exact erk_unique _ _ _ _ _ _ _ _ _ _ _ hy same
  · rw [h2]; simp [rk4Advise, Eng.fc, Eng.adviseTime]
  · rw [h3]; simp [rk4Advise, Eng.fc, Eng.adviseTime]
  · rw [h4]; simp [rk4Advise, Eng.fc, Eng.adviseTime, Tab.toBT, Tab.map, rk4Tab]

end

/-- The hypotheses are met and the step is not trivial: `y' = y`, `y(0) = 1`, `h = 1` gives 65/24. -/
example : (rkAdvise (V := ℚ) (K := ℚ) (fun _ _ y => y) abs rk4Tab.toBT ⟨8, 8, 1, 1, false, 0⟩ 1 RKState.new
    ⟨1, 0, 0, 0⟩).2.y = 65 / 24 := by
  have h := rk4_agrees (V := ℚ) (K := ℚ) (fun _ _ y => y) abs ⟨8, 8, 1, 1, false, 0⟩ 1 RKState.new ⟨1, 0, 0, 0⟩
    (by simp)
  have hm : rk4Tab.map (Rat.cast : ℚ → ℚ) = rk4Tab := by
    simp [Tab.map, rk4Tab]
  rw [hm] at h
  rw [← h]
  norm_num [rk4Advise, Eng.fc, Eng.adviseTime, vfmadd, vfmaddnInplace_eq, sum_range_succ]

end NB.C16
