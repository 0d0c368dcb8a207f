import Verif.Props.C50_SolverFactory
import Verif.Model.Sim

/-
C68, continued: the options of the command line are those the steps are made with.
-/

namespace NB.C68

open FactorySpec Act

section
variable {S V D ε : Type} [Sub S] [Mul S] [Neg S] [Div S] [Zero S] [FOps S]

/-- An option read as a whole number, a number or a switch. -/
def whole (c : Conv V D) (p : Params V) (o : String) (d : ℕ) : ℕ := match p o with | some v => c.toUInt v | none => d
def real (c : Conv V D) (p : Params V) (o : String) (d : D) : D := match p o with | some v => c.toDouble v | none => d
def switch (c : Conv V D) (p : Params V) (o : String) : Bool := match p o with | some v => c.toBool v | none => false

/-- The names of the Butcher tables. -/
def tableNames : List (String × RKKind) :=
  [("rkck", .rkck), ("rkdp", .rkdp), ("rkdverk", .rkdverk), ("rkf", .rkf), ("rkfeagin10", .rkfeagin10), ("rkfeagin12", .rkfeagin12),
    ("rkfeagin14", .rkfeagin14), ("rkgl", .rkgl), ("rklc", .rklc)]

lemma switch_get (c : Conv V D) (p : Params V) (o : String) : p.get o c.toBool false = switch c p o := by
  unfold Params.get switch; cases p o <;> rfl

/-- **A step is made with the options given**: the error threshold, the depth and the number of parts of the subdivision, the number of
refinements, the correction and the smallest step of a table-driven solver; the number of levels and the threshold of Bulirsch–Stoer; the number
of refinements of the trapeze; the rank and the correction of Adams, and the options of its starter.  What is left out has its documented value. -/
theorem options_reach_the_steps (c : Conv V D) (ofStr : String → V) (p : Params V) (n : ℕ) (s : SolverDesc D)
    (h : createSolver c ofStr (n + 2) p = .ok (some s)) (X : SimEnv S D ε) (l : ℕ) (dt : S) (m : ℕ → Members) :
    (∀ a kind, (a, kind) ∈ tableNames → text c p "solver" "" = a →
      s.calls X l dt m = (do
        rkCalls (X.layout l) (X.table kind) ⟨whole c p "max_recursion" 8, whole c p "substep_subdivisions" 8,
          X.toCoord (real c p "error_threshold" (c.dec 1 (-4))), whole c p "refine_steps_count" 1, switch c p "correction",
          X.toCoord (real c p "min_step" (c.dec 1 (-9)))⟩ dt (m l).allocated
        pure (upd m l { m l with allocated := true }, 1))) ∧
    (text c p "solver" "" = "bs" → ∀ steps, initSteps (whole c p "max_level" 8) true = .ok steps →
      s.calls X l dt m = (do
        let r ← bsCalls (X.layout l) (whole c p "max_level" 8) (X.toCoord (real c p "error_threshold" (c.dec 1 (-11)))) steps dt
          ⟨(m l).stetter, (m l).swapped⟩
        pure (upd m l { m l with stetter := r.1.internal, swapped := r.1.swapped }, r.2 + 1))) ∧
    (text c p "solver" "" = "trapeze" →
      s.calls X l dt m = (do trapezeCalls (X.layout l) (whole c p "refine_steps_count" 1) dt; pure (m, 1))) ∧
    (text c p "solver" "" = "adams" → ∀ (r : ℕ) (al : List S), (match p "rank" with | some v => c.toInt v | none => 1) = (r : ℤ) → adamsRow r = some al →
      ∃ st : SolverDesc D, createSolver c ofStr (n + 1) (p.insert "solver" ((p "starter_solver").getD (ofStr "euler"))) = .ok (some st) ∧
        s.calls X l dt m = (do
          (if switch c p "correction" && (m l).step == 0 then op (.fill (X.layout l .ycorr) 0) else pure () : Act S Unit)
          let q ← adamsCalls (X.layout l) al (switch c p "correction") (st.calls X (l + 1) dt m) (m, 1) dt (m l).step
          pure (upd q.2.1 l { m l with step := q.1 }, q.2.2))) := by
  have e1 : ∀ o d, p.get o c.toUInt d = whole c p o d := fun o d => by unfold Params.get whole; cases p o <;> rfl
  have e2 : ∀ o d, p.get o c.toDouble d = real c p o d := fun o d => by unfold Params.get real; cases p o <;> rfl
  refine ⟨fun a kind ha hp => ?_, fun hp steps hst => ?_, fun hp => ?_, fun hp r al hr hal => ?_⟩
  · have hk : rkKindFromStr a = some kind ∧ a ∉ ["adams", "bs", "euler", "midpoint", "midpoint-st", "rk4"] := by
      have all : ∀ x ∈ tableNames, rkKindFromStr x.1 = some x.2 ∧ x.1 ∉ ["adams", "bs", "euler", "midpoint", "midpoint-st", "rk4"] := by
        decide
      exact all (a, kind) ha
    obtain ⟨hk, hn⟩ := hk
    simp only [List.mem_cons, List.not_mem_nil, or_false, not_or] at hn
    simp only [createSolver, C50.get_text, hp, hn, if_false, hk] at h
    cases h
    simp only [SolverDesc.calls, rkConf, butcherSettings, stepSettings, e1, e2, switch_get]
  · simp only [createSolver, C50.get_text, hp] at h
    cases h
    simp only [SolverDesc.calls, e1, e2, hst]
  · simp only [createSolver, C50.get_text, hp, rkKindFromStr] at h
    cases h
    simp only [SolverDesc.calls, e1]
  · rw [C50.create_adams c ofStr p hp] at h
    cases hc : createSolver c ofStr (n + 1) (C50.starterParams ofStr p) with
    | error u => rw [hc] at h; cases h
    | ok o =>
      cases o with
      | none => rw [hc] at h; cases h
      | some st =>
        rw [hc] at h
        cases h
        refine ⟨st, hc, ?_⟩
        have er : sizeOfInt (p.get "rank" c.toInt 1) = r := by
          have : p.get "rank" c.toInt 1 = r := by rw [← hr]; unfold Params.get; cases p "rank" <;> rfl
          rw [this]; simp [sizeOfInt]
        simp only [SolverDesc.calls, switch_get, er, hal]

open C49 in
/-- A command line that asks for Dormand–Prince with two options. -/
example (X : SimEnv S ℤ ε) (dt : S) (m : ℕ → Members) :
    ∃ s, createSolver demoConv id 2 (parseArguments ["nbody", "--solver=rkdp", "--max_recursion=3", "--correction=true"]) = .ok (some s) ∧
      s.calls X 0 dt m = (do
        rkCalls (X.layout 0) (X.table .rkdp) ⟨demoConv.toUInt "3", 8, X.toCoord (demoConv.dec 1 (-4)), 1, demoConv.toBool "true",
          X.toCoord (demoConv.dec 1 (-9))⟩ dt (m 0).allocated
        pure (upd m 0 { m 0 with allocated := true }, 1)) := by
  obtain ⟨s, hs⟩ : ∃ s, createSolver demoConv id 2
      (parseArguments ["nbody", "--solver=rkdp", "--max_recursion=3", "--correction=true"]) = .ok (some s) :=
    ⟨.rk .rkdp ⟨1, 3, 1, 8, true⟩ ⟨1, 1, false⟩, by decide +kernel⟩
  refine ⟨s, hs, ?_⟩
  rw [(options_reach_the_steps demoConv id _ 0 s hs X 0 dt m).1 "rkdp" .rkdp (by decide) (by decide +kernel)]
  rfl

end

end NB.C68
