import Mathlib.Algebra.Order.Floor.Ring
import Mathlib.Algebra.Order.Field.Basic
import Mathlib.Algebra.Order.Archimedean.Basic
import Mathlib.Logic.Function.Iterate

/-
What a run is supposed to do, without reference to the loop.
-/

namespace NB.RunSpec

variable {σ φ ω K : Type} [Field K] [LinearOrder K] [FloorSemiring K]

/-- Number of steps of length `dt` needed to get from `t0` to `maxTime`. -/
def steps (t0 maxTime dt : K) : ℕ := ⌈(maxTime - t0) / dt⌉₊

/-- An output requested every `per` units of time appears every so many steps: the smallest positive number
of steps whose length, plus a tenth of a step, is at least `per`. -/
def period (per dt : K) : ℕ := max 1 ⌈per / dt - 1 / 10⌉₊

/-- The steps among `1, …, n` whose number is a multiple of `m`. -/
def multiples (m n : ℕ) : List ℕ := (List.range' 1 n).filter (m ∣ ·)

/-- The numbers of the steps after which a run of `n` steps from time `t0` has to write a frame: step 0
unless the run continues an earlier one, then one every `period` steps. -/
def dumpSteps (t0 per dt : K) (n : ℕ) : List ℕ :=
  (if t0 ≤ 0 then [0] else []) ++ multiples (period per dt) n

/-- The frames of a run, when one step is `step` and `get` gives the data of a state. -/
def frames (get : σ → φ) (step : σ → σ) (s0 : σ) (t0 per dt : K) (n : ℕ) : List φ :=
  (dumpSteps t0 per dt n).map (fun k => get (step^[k] s0))

/-- Write a list of frames one after the other, stopping at the first failure. -/
def writeAll (write : φ → ω → Bool × ω) : List φ → ω → Bool × ω
  | [], w => (true, w)
  | f :: l, w => if (write f w).1 then writeAll write l (write f w).2 else (false, (write f w).2)

end NB.RunSpec
