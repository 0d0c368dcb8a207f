import Verif.Model.Factory
import Mathlib.Tactic.Lemma

/-
The factories read no other keys than these.
-/

namespace NB

/-- The keys `nbody_create_engine` reads. -/
def engineKeys : List String :=
  ["engine", "full_recompute_rate", "max_dist", "min_force", "device", "block_size", "use_nccl",
   "distance_to_node_radius_ratio", "tree_build_rate", "tree_layout", "traverse_type", "verbose", "oclprof"]

/-- The keys `nbody_create_solver` reads. -/
def solverKeys : List String :=
  ["solver", "starter_solver", "rank", "correction", "max_level", "error_threshold", "max_recursion",
   "refine_steps_count", "substep_subdivisions", "min_step", "max_step", "clamp"]

section
variable {V D : Type} {p q : Params V}

lemma get_agree {α : Type} {k : String} (h : p k = q k) (f : V → α) (d : α) : p.get k f d = q.get k f d := by
  unfold Params.get; rw [h]

lemma engine_agree (b : Build) (c : Conv V D) (h : ∀ k ∈ engineKeys, p k = q k) :
    createEngine b c p = createEngine b c q := by
  have g : ∀ {α : Type} (k : String) (f : V → α) (d : α), k ∈ engineKeys → p.get k f d = q.get k f d :=
    fun k f d hk => get_agree (h k hk) f d
  unfold createEngine
  simp only [g "engine" _ _ (by decide), g "full_recompute_rate" _ _ (by decide), g "max_dist" _ _ (by decide),
    g "min_force" _ _ (by decide), g "device" _ _ (by decide), g "block_size" _ _ (by decide),
    g "use_nccl" _ _ (by decide), g "distance_to_node_radius_ratio" _ _ (by decide),
    g "tree_build_rate" _ _ (by decide), g "tree_layout" _ _ (by decide), g "traverse_type" _ _ (by decide),
    g "verbose" _ _ (by decide), g "oclprof" _ _ (by decide)]

lemma solver_agree (c : Conv V D) (ofStr : String → V) (depth : Nat) (h : ∀ k ∈ solverKeys, p k = q k) :
    createSolver c ofStr depth p = createSolver c ofStr depth q := by
  induction depth generalizing p q with
  | zero => rfl
  | succ depth ih =>
    have g : ∀ {α : Type} (k : String) (f : V → α) (d : α), k ∈ solverKeys → p.get k f d = q.get k f d :=
      fun k f d hk => get_agree (h k hk) f d
    have hst : (stepSettings c p : StepSettings D) = stepSettings c q := by
      unfold stepSettings
      simp only [g "min_step" _ _ (by decide), g "max_step" _ _ (by decide), g "clamp" _ _ (by decide)]
    have hbs : (butcherSettings c p : RKSettings D) = butcherSettings c q := by
      unfold butcherSettings
      simp only [g "error_threshold" _ _ (by decide), g "max_recursion" _ _ (by decide),
        g "refine_steps_count" _ _ (by decide), g "substep_subdivisions" _ _ (by decide),
        g "correction" _ _ (by decide)]
    have hs : createSolver c ofStr depth (p.insert "solver" ((p "starter_solver").getD (ofStr "euler"))) =
        createSolver c ofStr depth (q.insert "solver" ((q "starter_solver").getD (ofStr "euler"))) := by
      refine ih fun k hk => ?_
      unfold Params.insert
      rw [h "starter_solver" (by decide)]
      split
      · rfl
      · exact h k hk
    unfold createSolver
    simp only [hst, hbs, hs, g "solver" _ _ (by decide), g "rank" _ _ (by decide), g "correction" _ _ (by decide),
      g "max_level" _ _ (by decide), g "error_threshold" _ _ (by decide), g "refine_steps_count" _ _ (by decide)]

end

end NB
