import Verif.Lemmas.Lifecycle
import Verif.Model.ButcherTables

/-
C66: a solver's buffers are released exactly once when it is destroyed.
-/

namespace NB.C66

variable {D : Type}

/-- Specification: every Adams rank in the description is one the solver has coefficients for. -/
def RanksOk : SolverDesc D → Prop
  | .adams s r _ _ => 1 ≤ r ∧ r ≤ 5 ∧ RanksOk s
  | _ => True

/-- A program that creates a solver, sets its engine, and makes `n` steps: the object and the buffers at the
end. -/
def steps (fails : Nat → Bool) : Nat → SolverObj × Heap → Res (SolverObj × Heap)
  | 0, x => .ok x
  | n + 1, x =>
    match x.1.advise fails x.2 with
    | .error u => .error u
    | .ok y => steps fails n y

/-- The whole life: created, attached, `n` steps, destroyed; the result is the heap afterwards. -/
def life (fails : Nat → Bool) (d : SolverDesc D) (n : Nat) (h : Heap) : Res Heap :=
  match steps fails n (d.newObj.setEngine, h) with
  | .error u => .error u
  | .ok (o, h') => o.destroy h'

lemma newObj_shape (d : SolverDesc D) (hr : RanksOk d) : d.newObj.shape := by
  induction d with
  | adams s r c st ih =>
    obtain ⟨h1, h2, h3⟩ := hr
    exact ⟨h1, h2, ih h3, fun _ => ⟨rfl, rfl⟩, fun h => absurd rfl h⟩
  | bs => exact ⟨fun _ => ⟨rfl, rfl⟩, fun h => absurd rfl h⟩
  | euler => trivial
  | midpoint => exact fun _ => ⟨rfl, rfl⟩
  | midpointSt => exact ⟨fun _ => ⟨rfl, rfl, rfl⟩, fun h => absurd rfl h⟩
  | rk4 => exact fun _ => rfl
  | rk k => exact ⟨by cases k <;> decide, fun _ => ⟨rfl, rfl, rfl, rfl, rfl⟩⟩
  | trapeze => exact fun _ => rfl

lemma setEngine_shape (o : SolverObj) (h : o.shape) : o.setEngine.shape := by
  cases o <;> exact h

lemma steps_ok {fails : Nat → Bool} (hf : NoFail fails) (n : Nat) (o : SolverObj) (ha : o.attached = true)
    (hs : o.shape) (hr : o.ready = true ∨ 0 < n) {h : Heap} {base : List Nat} (hh : h.Holds o.owned base) :
    ∃ o' h', steps fails n (o, h) = .ok (o', h') ∧ o'.ready = true ∧ h'.Holds o'.owned base := by
  induction n generalizing o h with
  | zero =>
    rcases hr with hr | hr
    · exact ⟨o, h, rfl, hr, hh⟩
    · exact absurd hr (Nat.lt_irrefl 0)
  | succ n ih =>
    obtain ⟨o1, h1, e1, r1, a1, s1, hh1⟩ := adviseAs_ok hf o false (by simp [ha]) hs hh
    obtain ⟨o2, h2, e2, r2, hh2⟩ := ih o1 a1 s1 (.inl r1) hh1
    refine ⟨o2, h2, ?_, r2, hh2⟩
    simp only [steps, SolverObj.advise, e1, e2]

/-- The solver is not `adams`: it has no part whose engine is set only later. -/
def NotAdams : SolverDesc D → Prop
  | .adams .. => False
  | _ => True

/-- The full claim. -/
def CleanLife (fails : Nat → Bool) (d : SolverDesc D) (n : Nat) (h : Heap) : Prop :=
  ∃ h', life fails d n h = .ok h' ∧ h'.live.Perm h.live

/-- On an engine whose buffer creation does not fail, for every solver the factory can create (with ranks 1..5)
and every number of steps, at least one for `adams`: nothing undefined happens in steps and destruction, and
every buffer the solver and its parts created is released exactly once, the others not at all. -/
theorem clean_life_partial {fails : Nat → Bool} (hf : ∀ n, fails n = false) (d : SolverDesc D) (hr : RanksOk d) (n : Nat)
    (hn : NotAdams d ∨ 0 < n) (h : Heap) (hh : h.live.Nodup ∧ ∀ x ∈ h.live, x < h.calls) : CleanLife fails d n h := by
  have h0 : h.Holds d.newObj.setEngine.owned h.live := by
    rw [setEngine_owned, newObj_owned]; exact ⟨hh, by simp⟩
  have hready : d.newObj.setEngine.ready = true ∨ 0 < n := by
    rcases hn with hn | hn
    · left
      cases d <;> first | rfl | exact absurd hn (by simp [NotAdams])
    · exact .inr hn
  obtain ⟨o, h1, e1, r1, hh1⟩ := steps_ok hf n _ (setEngine_attached _) (setEngine_shape _ (newObj_shape d hr)) hready h0
  obtain ⟨h2, e2, hh2⟩ := destroy_holds o r1 hh1
  exact ⟨h2, by simp only [life, e1, e2], by simpa using hh2.2⟩

/-- Destroying any solver before its engine was set is undefined: the destructors call the engine.  The main
program does this when `engine->init` fails (/repo/test/main/main.cpp:85-90). -/
theorem unattached_destroy_undefined (d : SolverDesc D) (h : Heap) : d.newObj.destroy h = .error .null := by
  induction d with
  | adams s r c st ih => simp only [SolverDesc.newObj, SolverObj.destroy, ih]; rfl
  | _ => rfl

/-- Destroying an Adams solver whose engine was set but which never made a step is undefined, whatever its
starter: the starter never got its engine.  The main program does this when the run has no step to do. -/
theorem adams_without_step_undefined (fails : Nat → Bool) (s : SolverDesc D) (r : Nat) (c : Bool) (st : StepSettings D)
    (h : Heap) : life fails (.adams s r c st) 0 h = .error .null := by
  simp only [life, steps, SolverDesc.newObj, SolverObj.setEngine, SolverObj.destroy, unattached_destroy_undefined]
  rfl

/-- With failing buffer creation buffers can be lost: the midpoint solver creates all three again when the first
was missing. -/
theorem midpoint_leaks_after_failure : ∃ (fails : Nat → Bool) (st : StepSettings Nat),
    ¬ CleanLife fails (.midpoint st) 2 ⟨0, []⟩ := by
  refine ⟨fun n => n == 0, ⟨0, 0, false⟩, ?_⟩
  rintro ⟨h', e, hp⟩
  have : life (fun n => n == 0) (SolverDesc.midpoint (⟨0, 0, false⟩ : StepSettings Nat)) 2 ⟨0, []⟩ =
      .ok ⟨6, [2, 1]⟩ := by rfl
  rw [this] at e
  cases e
  exact absurd hp.length_eq (by decide)

/-- The stage counts used here are those of the tables. -/
example : RKKind.rkck.steps = rkckTab.steps ∧ RKKind.rkdp.steps = rkdpTab.steps ∧
    RKKind.rkdverk.steps = rkdverkTab.steps ∧ RKKind.rkf.steps = rkfTab.steps ∧
    RKKind.rklc.steps = rklcTab.steps := by decide

/-- A case: Adams of rank 4 with a Bulirsch-Stoer starter, 7 steps, beside a buffer of the engine's own. -/
example : CleanLife (fun _ => false) (.adams (.bs 8 (0 : Nat) ⟨0, 0, false⟩) 4 true ⟨0, 0, false⟩) 7 ⟨1, [0]⟩ :=
  clean_life_partial (fun _ => rfl) _ (by simp [RanksOk]) 7 (.inr (by decide)) _ (by simp)

example : steps (fun _ => false) 2 ((SolverDesc.rk4 (⟨0, 0, false⟩ : StepSettings Nat)).newObj.setEngine, ⟨1, [0]⟩) =
    .ok (.rk4 true [1, 2, 3, 4] (some 5), ⟨6, [5, 4, 3, 2, 1, 0]⟩) := rfl

end NB.C66
