import Verif.Props.C19_Adaptive

/-
C20: a step whose error exceeds the threshold must not be lost.  With at least one subdivision this is
C19 (`leaves_cover`); with `substep_subdivisions = 0`, which the command line accepts, it is violated.
-/

namespace NB.C20

open Finset C19

section
variable {V K : Type} [Field K] [LinearOrder K] [AddCommGroup V] [Module K V]

/-- **Zero subdivisions lose the step**: whenever the error estimate exceeds the threshold (and the step is
above the minimal one), `advise` leaves the state unchanged while time and step counter advance. -/
theorem zero_subdivisions_lose_step (F : ℕ → K → V → V) (nrm : V → K) (bt : BT K) (cf : RKConf K) (dt : K)
    (r : RKState V) (e : Eng V K) (h0 : cf.subdivisions = 0) (he : bt.embedded = true)
    (hr : 0 < cf.maxRecursion) (hm : cf.minStep < dt)
    (hthr : cf.threshold < errOf nrm bt (rkStages F bt cf (!r.allocated) e.y e.time dt
      ({ r with allocated := true }, e.cc)).1.k) :
    let e' := (rkAdvise F nrm bt cf dt r e).2
    e'.y = e.y ∧ e'.time = e.time + dt ∧ e'.step = e.step + 1 := by
  intro e'
  refine ⟨?_, by simp [e', rkAdvise, Eng.adviseTime], by simp [e', rkAdvise, Eng.adviseTime]⟩
  obtain ⟨n, hn⟩ : ∃ n, cf.maxRecursion = n + 1 := ⟨cf.maxRecursion - 1, by omega⟩
  simp only [e', rkAdvise, hn, Eng.adviseTime]
  rw [subStep_one, if_pos]
  · rw [h0, rkSubStep]; rfl
  · simp only [Bool.and_eq_true, decide_eq_true_eq]
    refine ⟨⟨he, hm⟩, ?_⟩
    rw [rkError_eq _ _ _ he]; exact hthr

end

/-- **The property is violated**: with the rkck table, subdivisions 0 and the default recursion limit and
threshold, the solution of `y' = 1000 t⁵` on [0,1] stays at 0 although time has reached 1, while with one
subdivision it moves. -/
theorem zero_subdivisions_violate :
    (rkAdvise (V := ℚ) (K := ℚ) (fun _ t _ => 1000 * t ^ 5) abs rkckTab.toBT ⟨8, 0, 1 / 10000, 1, false, 0⟩ 1
      RKState.new ⟨0, 0, 0, 0⟩).2.y = 0 ∧
    (rkAdvise (V := ℚ) (K := ℚ) (fun _ t _ => 1000 * t ^ 5) abs rkckTab.toBT ⟨8, 0, 1 / 10000, 1, false, 0⟩ 1
      RKState.new ⟨0, 0, 0, 0⟩).2.time = 1 ∧
    (rkAdvise (V := ℚ) (K := ℚ) (fun _ t _ => 1000 * t ^ 5) abs rkckTab.toBT ⟨8, 1, 1 / 10000, 1, false, 0⟩ 1
      RKState.new ⟨0, 0, 0, 0⟩).2.y ≠ 0 := by
  decide +kernel

section
variable {V K : Type} [Field K] [LinearOrder K] [IsStrictOrderedRing K] [AddCommGroup V] [Module K V]

/-- **With at least one subdivision no step is lost**: on a constant right hand side `v` the state
advances by exactly `dt • v` whatever the error estimates, for every table whose `b2` weights sum to one. -/
theorem positive_subdivisions_keep_step_partial (v : V) (nrm : V → K) (bt : BT K) (cf : RKConf K) (dt : K)
    (r : RKState V) (e : Eng V K) (hdt : dt ≠ 0) (hsub : 0 < cf.subdivisions)
    (hi : bt.implicit = false) (hrows : C16.RowsNonzero bt) (hb : ∑ i ∈ range bt.steps, bt.b2 i = 1)
    (hc : cf.correction = true → r.ycorr = 0) :
    (rkAdvise (fun _ _ _ => v) nrm bt cf dt r e).2.y = e.y + dt • v := by
  obtain ⟨ls, hch, hok⟩ := explicit_leaves (fun _ _ _ => v) nrm bt cf dt r e hdt hsub hi hrows hc
  have key : ∀ (ls : List (Leaf V K)) (t t' : K) (y y' : V), Chain ls t y t' y' →
      (∀ l ∈ ls, LeafOK (ExplicitStages (fun _ _ _ => v) bt) nrm bt cf dt l) → y' = y + (t' - t) • v := by
    intro ls
    induction ls with
    | nil =>
      rintro t t' y y' ⟨rfl, rfl⟩ _
      simp
    | cons l ls ih =>
      rintro t t' y y' ⟨h1, h2, h3⟩ hok
      have hl := hok l (by simp)
      have := ih _ _ _ _ h3 fun l' hl' => hok l' (by simp [hl'])
      rw [this, hl.advance]
      obtain ⟨n₀, hk⟩ := hl.stages
      have : ∑ i ∈ range bt.steps, bt.b2 i • l.k i = v := by
        calc ∑ i ∈ range bt.steps, bt.b2 i • l.k i = ∑ i ∈ range bt.steps, bt.b2 i • v :=
              sum_congr rfl fun i hi => by rw [hk i (mem_range.1 hi)]
          _ = v := by rw [← sum_smul, hb, one_smul]
      rw [this, h2, add_assoc, ← add_smul]
      congr 2
      ring
  have := key ls _ _ _ _ hch hok
  rw [this]
  congr 2
  ring

/-- Concrete case of the last theorem. -/
example : (rkAdvise (V := ℚ) (K := ℚ) (fun _ _ _ => 3) (fun _ => 1) rkckTab.toBT ⟨3, 2, 1 / 2, 1, false, 0⟩ 5
    RKState.new ⟨1, 0, 0, 0⟩).2.y = 16 := by
  have hwf : C17.WellFormed rkckTab := by decide +kernel
  rw [positive_subdivisions_keep_step_partial (V := ℚ) (K := ℚ) 3 (fun _ => 1) rkckTab.toBT
    ⟨3, 2, 1 / 2, 1, false, 0⟩ 5 RKState.new ⟨1, 0, 0, 0⟩ (by norm_num) (by norm_num) rfl
    (fun i h0 hi => (hwf.2.2 rfl i hi).2 h0) hwf.2.1.2.1 (by simp)]
  norm_num

end

end NB.C20
