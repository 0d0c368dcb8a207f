import Verif.Model.Mem

/-
Model of `#pragma omp parallel for` (/repo/nbody/nbody_engine_openmp.cpp:55,94,127,147,173,207,256).

Every iteration of the loop is a process; the memory is shared; an execution interleaves single memory
accesses of the iterations arbitrarily.  This over-approximates every OpenMP schedule (static, dynamic,
guided, any number of threads, any assignment of iterations to threads), because a thread that runs its
iterations one after the other is one particular interleaving.  The implicit barrier at the end of the
loop means that the loop is over when every iteration has returned.
Simplification: memory accesses are sequentially consistent.  For loops without data races this is what
the OpenMP memory model guarantees, and absence of races is what the theorems establish.
-/

namespace NB

/-- A running parallel loop: the shared memory and what is left to do of each iteration.
(OpenMP semantics: `#pragma omp parallel for`, /repo/nbody/nbody_engine_openmp.cpp:55,94,127,147,173,207,256, /repo/nbody/nbody_engine_ah.cpp:79,137, /repo/nbody/nbody_engine_block.cpp:51, /repo/nbody/nbody_engine_simple_bh.cpp:80.) -/
structure ParState (S : Type) where
  mem : Mem S
  todo : Nat → Prog S Unit

/-- Iteration `i` (`i < n`) performs its next memory access.
(`omp parallel for`, e.g. /repo/nbody/nbody_engine_openmp.cpp:55.) -/
inductive ParStep {S : Type} (n : Nat) : ParState S → ParState S → Prop where
  | read (m : Mem S) (t : Nat → Prog S Unit) (i : Nat) (hi : i < n) (h : Handle) (j : Nat)
      (k : S → Prog S Unit) (ht : t i = .read h j k) (v : S) (hv : m.cell h j = some v) :
      ParStep n ⟨m, t⟩ ⟨m, fun i' => if i' = i then k v else t i'⟩
  | write (m : Mem S) (t : Nat → Prog S Unit) (i : Nat) (hi : i < n) (h : Handle) (j : Nat)
      (v : S) (k : Prog S Unit) (ht : t i = .write h j v k) (w : S) (hw : m.cell h j = some w) :
      ParStep n ⟨m, t⟩ ⟨m.setCell h j v, fun i' => if i' = i then k else t i'⟩

/-- Some iteration is about to access memory outside its buffer.
(`omp parallel for`, e.g. /repo/nbody/nbody_engine_openmp.cpp:55.) -/
def ParState.Faulty {S : Type} (n : Nat) (c : ParState S) : Prop :=
  ∃ i, i < n ∧
    ((∃ h j k, c.todo i = .read h j k ∧ c.mem.cell h j = none) ∨
     (∃ h j v k, c.todo i = .write h j v k ∧ c.mem.cell h j = none))

/-- All iterations have returned: the barrier at the end of the loop is passed.
(`omp parallel for`, e.g. /repo/nbody/nbody_engine_openmp.cpp:55.) -/
def ParState.Done {S : Type} (n : Nat) (c : ParState S) : Prop :=
  ∀ i, i < n → c.todo i = .ret ()

/-- Reflexive transitive closure of `ParStep`, counting steps.
(`omp parallel for`, e.g. /repo/nbody/nbody_engine_openmp.cpp:55.) -/
inductive ParRun {S : Type} (n : Nat) : Nat → ParState S → ParState S → Prop where
  | refl (c : ParState S) : ParRun n 0 c c
  | step {k : Nat} {a b c : ParState S} : ParRun n k a b → ParStep n b c → ParRun n (k + 1) a c

/-- `#pragma omp parallel for` over `body` started in memory `m`.
(`omp parallel for`, e.g. /repo/nbody/nbody_engine_openmp.cpp:55.) -/
def ParState.start {S : Type} (body : Nat → Prog S Unit) (m : Mem S) : ParState S := ⟨m, body⟩

/-- `loop` is a possible implementation of `#pragma omp parallel for`: whatever it returns is the outcome
of some interleaving of the iterations (a finished one, or one that runs into a bad access).  The choice
of the interleaving is arbitrary and may differ from call to call.
(`omp parallel for`, e.g. /repo/nbody/nbody_engine_openmp.cpp:55.) -/
def IsParLoop {S : Type} (loop : Nat → (Nat → Prog S Unit) → Mem S → Res (Mem S)) : Prop :=
  ∀ n body m,
    (∀ m', loop n body m = .ok m' →
      ∃ k c, ParRun n k (ParState.start body m) c ∧ c.Done n ∧ c.mem = m') ∧
    (∀ e, loop n body m = .error e →
      ∃ k c, ParRun n k (ParState.start body m) c ∧ c.Faulty n)

end NB
