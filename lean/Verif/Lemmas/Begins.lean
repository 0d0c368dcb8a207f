import Verif.Lemmas.Main

/-
Command lines with which the program gets as far as the simulation.
-/

namespace NB.C68

open StreamSpec

section
variable {S C D K σ : Type} [Raw S] [Raw C] [Zero S] [One S] [Add S] [Sub S] [Mul S] [Neg S] [Div S] [FOps S]
variable [Zero K] [Add K] [Sub K] [Mul K] [LT K] [LE K] [DecidableLT K] [DecidableLE K] [OfScientific K]

/-- The program gets as far as opening the stream `name`: with the data `d`, the solver `s`, and the simulation in
the state `s0`. -/
structure Begins (M : MainEnv S C D K σ) (p : Params String) (fs : Files) (name : FName) (part : Option ℕ)
    (d : DataObj S C) (e : EngineDesc D) (s : SolverDesc D) (s0 : σ) : Prop where
  data : M.initialData fs p = .ok (some (d, name, part))
  engine : createEngine M.build M.conv p = some e
  solver : createSolver M.conv id M.depth p = .ok (some s)
  start : M.start e s d = some s0

/-- The part size a command line asks for. -/
def partOf (M : MainEnv S C D K σ) (p : Params String) : ℤ :=
  partSize (p.get "max_part_size" M.conv.toULongLong (2 ^ 30))

variable {M : MainEnv S C D K σ} {p : Params String} {fs : Files} {name : FName} {part : Option ℕ}
  {d : DataObj S C} {e : EngineDesc D} {s : SolverDesc D} {s0 s1 : σ}

omit [OfScientific K] [DecidableLE K] [DecidableLT K] [LE K] [LT K] [Mul K] [Sub K] [Add K] [Zero K] in
lemma begins_or (M : MainEnv S C D K σ) (p : Params String) (fs : Files) :
    (∃ name part d e s s0, Begins M p fs name part d e s s0) ∨
    (∀ name part d e s s0, ¬ Begins M p fs name part d e s s0) := by
  by_cases h : ∃ name part d e s s0, Begins M p fs name part d e s s0
  · exact .inl h
  · exact .inr fun a b c d e f hb => h ⟨a, b, c, d, e, f, hb⟩

lemma main_begins (h : Begins M p fs name part d e s s0) (fuel : ℕ) :
    M.mainWith p fuel fs =
      match solverRun M.runEnv (M.runConf p s) fuel s0
        ((Writer.new.open name (partOf M p) part fs).2,
          applyOps (Writer.new.open name (partOf M p) part fs).1 fs) with
      | .error u => .error u
      | .ok (z, q) => .ok (z, q.stream.2) := by
  unfold MainEnv.mainWith
  simp only [h.data, h.engine, h.solver, h.start]
  rfl

lemma main_not_begins (h : ∀ name part d e s s0, ¬ Begins M p fs name part d e s s0) (fuel : ℕ) {z : ℤ}
    {fs' : Files} (hm : M.mainWith p fuel fs = .ok (z, fs')) : z = -1 ∧ fs' = fs := by
  unfold MainEnv.mainWith at hm
  cases h1 : M.initialData fs p with
  | error u => rw [h1] at hm; cases hm
  | ok o =>
    rw [h1] at hm
    rcases o with _ | ⟨d, name, part⟩
    · cases hm; exact ⟨rfl, rfl⟩
    simp only at hm
    cases h2 : createEngine M.build M.conv p with
    | none => rw [h2] at hm; cases hm; exact ⟨rfl, rfl⟩
    | some e =>
      rw [h2] at hm
      simp only at hm
      cases h3 : createSolver M.conv id M.depth p with
      | error u => rw [h3] at hm; cases hm
      | ok o =>
        rw [h3] at hm
        rcases o with _ | s
        · cases hm; exact ⟨rfl, rfl⟩
        simp only at hm
        cases h4 : M.start e s d with
        | none => rw [h4] at hm; cases hm; exact ⟨rfl, rfl⟩
        | some s0 => exact absurd ⟨h1, h2, h3, h4⟩ (h name part d e s s0)

end

end NB.C68
