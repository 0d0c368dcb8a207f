import Verif.Lemmas.Run
import Verif.Model.Solvers
import Mathlib.Algebra.Order.Floor.Semiring
import Mathlib.Data.Rat.Floor
import Mathlib.Tactic.NormNum

/-
C35: the run loop stops at the requested time.
-/

namespace NB.C35

open RunSpec

section
variable {σ φ ω K : Type} [Field K] [LinearOrder K] [IsStrictOrderedRing K] [FloorSemiring K]
variable {E : RunEnv σ φ ω K} {c : RunConf K}

lemma steps_time (hdt : 0 < c.dt) (t0 : K) :
    c.maxTime ≤ t0 + (steps t0 c.maxTime c.dt : K) * c.dt ∧
    (t0 < c.maxTime → t0 + (steps t0 c.maxTime c.dt : K) * c.dt < c.maxTime + c.dt) := by
  unfold steps
  constructor
  · have := Nat.le_ceil ((c.maxTime - t0) / c.dt)
    rw [div_le_iff₀ hdt] at this
    linarith
  · intro h
    have := Nat.ceil_lt_add_one (a := (c.maxTime - t0) / c.dt) (div_nonneg (by linarith) hdt.le)
    have h2 := mul_lt_mul_of_pos_right this hdt
    rw [add_mul, div_mul_cancel₀ _ hdt.ne'] at h2
    linarith

/-- The loop state at the start of the loop. -/
lemma runAt_zero (s0 : σ) (w : ω) :
    runAt E c s0 0 w = ⟨s0, w, E.time s0, E.time s0, []⟩ := by
  simp [runAt, multiples]

lemma frames_eq (s0 : σ) (n : ℕ) :
    frames E.getData (oneStep E c) s0 (E.time s0) c.dumpDt c.dt n =
      (if E.time s0 ≤ 0 then [E.getData s0] else []) ++ dueFrames E c s0 n := by
  unfold frames dumpSteps dueFrames
  rw [List.map_append]
  split <;> rfl

lemma run_start (s0 : σ) (w w1 : ω) (fuel : ℕ)
    (hw : dumping c → writeAll E.write (if E.time s0 ≤ 0 then [E.getData s0] else []) w = (true, w1))
    (hw' : ¬ dumping c → w1 = w) :
    solverRun E c fuel s0 w = runLoop E c fuel (runAt E c s0 0 w1) := by
  rw [runAt_zero]
  unfold solverRun
  simp only
  by_cases h : c.hasStream = true ∧ 0 < c.dumpDt ∧ E.time s0 ≤ 0
  · have hd : dumping c := ⟨h.1, h.2.1⟩
    have := hw hd
    rw [if_pos h.2.2] at this
    simp only [writeAll] at this
    rw [if_pos h]
    by_cases hq : (E.write (E.getData s0) w).1 = true
    · rw [if_pos hq] at this ⊢
      simp only [Prod.mk.injEq, true_and] at this
      rw [this]
    · rw [if_neg hq] at this
      simp at this
  · rw [if_neg h]
    have : w1 = w := by
      by_cases hd : dumping c
      · have h0 : ¬ E.time s0 ≤ 0 := fun h0 => h ⟨hd.1, hd.2, h0⟩
        have := hw hd
        rw [if_neg h0] at this
        simpa [writeAll] using this.symm
      · exact hw' hd
    rw [this]

/-- A run with a positive step whose writes succeed performs exactly `⌈(max_time - t0)/dt⌉` steps, returns 0,
and stops in the first state whose time has reached `max_time`. -/
theorem run_steps (hclock : Clock E c.dt) (hdt : 0 < c.dt) (s0 : σ) (w w' : ω) (fuel : ℕ)
    (hfuel : steps (E.time s0) c.maxTime c.dt ≤ fuel)
    (hw : c.hasStream = true ∧ 0 < c.dumpDt → writeAll E.write
      (frames E.getData (oneStep E c) s0 (E.time s0) c.dumpDt c.dt (steps (E.time s0) c.maxTime c.dt)) w
        = (true, w'))
    (hw' : ¬ (c.hasStream = true ∧ 0 < c.dumpDt) → w' = w) :
    ∃ r, solverRun E c fuel s0 w = .ok (0, r) ∧
      r.s = (oneStep E c)^[steps (E.time s0) c.maxTime c.dt] s0 ∧
      r.stream = w' ∧
      c.maxTime ≤ E.time r.s ∧
      (E.time s0 < c.maxTime → E.time r.s < c.maxTime + c.dt) ∧
      (c.maxTime ≤ E.time s0 → r.s = s0) ∧
      r.checks = (if 0 < c.checkDt then
        (multiples (period c.checkDt c.dt) (steps (E.time s0) c.maxTime c.dt)).map
          (fun k => E.getData ((oneStep E c)^[k] s0)) else []) := by
  set n := steps (E.time s0) c.maxTime c.dt with hn
  have hst := steps_time (c := c) hdt (E.time s0)
  have hsplit : ∃ w1, (dumping c → writeAll E.write (if E.time s0 ≤ 0 then [E.getData s0] else []) w = (true, w1)) ∧
      (¬ dumping c → w1 = w) ∧ (dumping c → writeAll E.write (dueFrames E c s0 n) w1 = (true, w')) := by
    by_cases hd : dumping c
    · have := hw hd
      rw [frames_eq, writeAll_append] at this
      by_cases hq : (writeAll E.write (if E.time s0 ≤ 0 then [E.getData s0] else []) w).1 = true
      · rw [if_pos hq] at this
        exact ⟨(writeAll E.write (if E.time s0 ≤ 0 then [E.getData s0] else []) w).2,
          fun _ => by rw [← hq], fun h => absurd hd h, fun _ => this⟩
      · rw [if_neg hq] at this; simp at this
    · exact ⟨w, fun h => absurd h hd, fun _ => rfl, fun h => absurd h hd⟩
  obtain ⟨w1, h1, h2, h3⟩ := hsplit
  rw [run_start s0 w w1 fuel h1 h2]
  by_cases hlt : E.time s0 < c.maxTime
  · have hend : E.time s0 + ((0 + n : ℕ) : K) * c.dt < c.maxTime + c.dt := by
      rw [Nat.zero_add]; exact hst.2 hlt
    have hadv := runLoop_advance hclock hdt s0 0 n (fuel - n) w1 w' hend
      (fun hd => ⟨dueFrames E c s0 n, by simp [dueFrames, multiples], h3 hd⟩)
      (fun hd => by rw [hw' hd, h2 hd])
    rw [Nat.sub_add_cancel hfuel, Nat.zero_add] at hadv
    rw [hadv]
    have hstop : ¬ E.time (runAt E c s0 n w').s < c.maxTime := by
      have : (runAt E c s0 n w').s = (oneStep E c)^[n] s0 := rfl
      rw [this, time_iterate hclock]
      exact not_lt.2 hst.1
    refine ⟨runAt E c s0 n w', ?_, rfl, rfl, not_lt.1 hstop, fun _ => ?_, fun h => absurd hlt (not_lt.2 h), rfl⟩
    · exact runLoop_stop _ hstop
    · have : (runAt E c s0 n w').s = (oneStep E c)^[n] s0 := rfl
      rw [this, time_iterate hclock]
      exact hst.2 hlt
  · have hn0 : n = 0 := by
      rw [hn]; unfold steps
      rw [Nat.ceil_eq_zero]
      exact div_nonpos_of_nonpos_of_nonneg (by linarith [not_lt.1 hlt]) hdt.le
    have hww : w' = w1 := by
      by_cases hd : dumping c
      · have := h3 hd
        rw [hn0] at this
        simpa [dueFrames, multiples, writeAll] using this.symm
      · rw [hw' hd, h2 hd]
    have hz : (runAt E c s0 0 w1).s = s0 := rfl
    refine ⟨runAt E c s0 0 w1, ?_, ?_, hww ▸ rfl, ?_, fun h => absurd h hlt, fun _ => rfl, ?_⟩
    · exact runLoop_stop _ (by rw [hz]; exact hlt)
    · rw [hn0]; rfl
    · rw [hz]; exact not_lt.1 hlt
    · rw [hn0]; rfl

end

section
variable {σ φ ω K : Type} [Field K] [LinearOrder K] [IsStrictOrderedRing K]
variable {E : RunEnv σ φ ω K} {c : RunConf K}

/-- With writes that succeed, a run whose clock does not advance never returns. -/
lemma loop_stuck (hclamp : ∀ s, E.time (E.clamp s) = E.time s)
    (hadv : ∀ s, E.time (E.advise c.dt s) ≤ E.time s) (hwr : ∀ f w, (E.write f w).1 = true)
    (fuel : ℕ) (r : RunSt σ φ ω K) (h : E.time r.s < c.maxTime) :
    runLoop E c fuel r = .error .noReturn := by
  induction fuel generalizing r with
  | zero => rw [runLoop, if_pos h]
  | succ fuel ih =>
    rw [runLoop, if_pos h]
    have hs : (runBody E c r).2.s = E.advise c.dt (if c.clampToBox then E.clamp r.s else r.s) := by
      unfold runBody
      simp only
      split_ifs <;> rfl
    have hb : (runBody E c r).1 = true := by
      unfold runBody
      simp only [hwr, if_true]
      split_ifs <;> rfl
    simp only [hb, if_true]
    apply ih
    rw [hs]
    refine lt_of_le_of_lt (hadv _) ?_
    split
    · rw [hclamp]; exact h
    · exact h

/-- If `advise` does not move the clock forward, in particular for a step that is zero or negative, and
the requested time lies ahead, `run` never returns. -/
theorem never_returns (hclamp : ∀ s, E.time (E.clamp s) = E.time s)
    (hadv : ∀ s, E.time (E.advise c.dt s) ≤ E.time s) (hwr : ∀ f w, (E.write f w).1 = true)
    (s0 : σ) (w : ω) (h : E.time s0 < c.maxTime) (fuel : ℕ) :
    solverRun E c fuel s0 w = .error .noReturn := by
  unfold solverRun
  simp only [hwr, if_true]
  split
  · exact loop_stuck hclamp hadv hwr fuel _ h
  · exact loop_stuck hclamp hadv hwr fuel _ h

/-- A non-positive step never reaches a later time. -/
theorem nonpositive_step (hclock : Clock E c.dt) (hdt : c.dt ≤ 0) (hwr : ∀ f w, (E.write f w).1 = true)
    (s0 : σ) (w : ω) (h : E.time s0 < c.maxTime) (fuel : ℕ) :
    solverRun E c fuel s0 w = .error .noReturn :=
  never_returns hclock.clamp (fun s => by rw [hclock.advise]; linarith) hwr s0 w h fuel

end

section
variable {V K : Type} [Field K] [LinearOrder K] [IsStrictOrderedRing K] [AddCommGroup V] [Module K V]

/-- The environment of a run of one of the solvers of Model/Solvers.lean without a stream state. -/
def solverEnv (advise : K → Eng V K → Eng V K) (clamp : V → V) : RunEnv (Eng V K) (Eng V K) (List (Eng V K)) K where
  time e := e.time
  clamp e := { e with y := clamp e.y }
  advise := advise
  getData e := e
  write e l := (true, l ++ [e])

/-- The solvers' clocks satisfy the hypothesis of the theorems above. -/
theorem solver_clock (F : ℕ → K → V → V) (clamp : V → V) (dt : K) (refine : ℕ) :
    Clock (solverEnv (eulerAdvise F) clamp) dt ∧ Clock (solverEnv (midpointAdvise F) clamp) dt ∧
    Clock (solverEnv (rk4Advise F) clamp) dt ∧ Clock (solverEnv (trapezeAdvise F refine) clamp) dt := by
  refine ⟨⟨fun _ => rfl, fun _ => rfl⟩, ⟨fun _ => rfl, fun _ => rfl⟩, ⟨fun _ => rfl, fun _ => rfl⟩,
    ⟨fun _ => rfl, fun e => ?_⟩⟩
  have h : ∀ (n : ℕ) (st : V × Eng V K) (t : K) (f0 : V),
      (foldN n st (trapezeIter F refine t dt f0)).2.time = st.2.time := by
    intro n st t f0
    induction n with
    | zero => rfl
    | succ n ih =>
      rw [← ih]
      show (trapezeIter F refine t dt f0 n _).2.time = _
      unfold trapezeIter
      simp only [Eng.fc]
      split <;> rfl
  show (trapezeAdvise F refine dt e).time = e.time + dt
  unfold trapezeAdvise
  simp only [Eng.adviseTime, h]
  rfl

/-- The Störmer solver, whose `advise` is empty, never gets to a later time. -/
theorem stormer_never_returns (F : ℕ → K → V → V) (clamp : V → V) (c : RunConf K) (e : Eng V K)
    (h : e.time < c.maxTime) (l : List (Eng V K)) (fuel : ℕ) :
    solverRun (solverEnv (stormerAdvise F) clamp) c fuel e l = .error .noReturn :=
  never_returns (fun _ => rfl) (fun _ => le_refl _) (fun _ _ => rfl) e l h fuel

end

/-- A stream that records everything. -/
lemma writeAll_record {φ : Type} (l w : List φ) :
    writeAll (fun f (w : List φ) => (true, w ++ [f])) l w = (true, w ++ l) := by
  induction l generalizing w with
  | nil => simp [writeAll]
  | cons f l ih => simp [writeAll, ih]

/-- `y' = y` from 1 with steps of 1/4 to time 1, dumping every 1/2: four steps; frames at 0, 1/2 and 1. -/
example :
    let E := solverEnv (K := ℚ) (rk4Advise fun _ _ (y : ℚ) => y) id
    let c : RunConf ℚ := ⟨1/4, 1, 1/2, 0, true, false⟩
    ((solverRun E c 10 ⟨1, 0, 0, 0⟩ []).map fun r => (r.1, r.2.s.time, r.2.s.step, r.2.stream.map (·.time))) =
      .ok (0, 1, 4, [0, 1/2, 1]) := by decide +kernel

/-- The hypotheses of `run_steps` hold for it. -/
example : ∃ r, solverRun (solverEnv (K := ℚ) (rk4Advise fun _ _ (y : ℚ) => y) id)
    ⟨1/4, 1, 1/2, 0, true, false⟩ 4 ⟨1, 0, 0, 0⟩ [] = .ok (0, r) ∧ 1 ≤ r.s.time := by
  obtain ⟨r, h1, _, _, h4, _⟩ := run_steps (c := ⟨1/4, 1, 1/2, 0, true, false⟩)
    (solver_clock (K := ℚ) (fun _ _ (y : ℚ) => y) id (1/4) 0).2.2.1 (by norm_num) ⟨1, 0, 0, 0⟩ [] _ 4
    (by decide +kernel) (fun _ => writeAll_record _ _) (fun h => absurd ⟨rfl, by norm_num⟩ h)
  exact ⟨r, h1, h4⟩

end NB.C35
