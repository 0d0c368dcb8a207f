import Verif.Spec.Program
import Verif.Spec.FloatModel

/-
Programs of calls in rounded arithmetic.  Where an engine may give one of several numbers for a norm (in which order
the threads of a reduction finish decides which of two equal numbers is kept), every number is allowed.
-/

namespace Spec

open NB

section
variable {S : Type} [Add S] [Sub S] [Mul S] [Neg S] [Zero S] [FOps S]

/-- `r` is a possible result of the program, together with the contents of the buffers after it.  Nothing is said about
what `fmaxabs` gives. -/
def Outcome {α : Type} (deriv : (Nat → S) → Nat → S) (n : Nat) :
    Act S α → Buffers S → α × Buffers S → Prop
  | .ret a, V, r => r = (a, V)
  | .call c k, V, r => Outcome deriv n k (call deriv n V c) r
  | .norm _ k, V, r => ∃ x, Outcome deriv n (k x) V r

/-- The engine `E` makes the calls as the machine does, and `fmaxabs` gives some number. -/
structure Performs {σ : Type} (E : EngineOps S σ) (n : Nat) (H : Nat → Prop) (deriv : (Nat → S) → Nat → S)
    (Rep : Buffers S → σ → Prop) : Prop where
  call : ∀ c V s, Proper c → (∀ h ∈ mentions c, H h) → Rep V s →
    ∃ s', E.call c s = .ok s' ∧ Rep (Spec.call deriv n V c) s'
  norm : ∀ h V s, H h → Rep V s → ∃ x s', E.maxabs h s = .ok (some x, s') ∧ Rep V s'

end

end Spec

namespace NB.Spec

/-- Rounded arithmetic with all that the solvers use besides: whole numbers are converted up to a rounding, and the test for
equality compares the numbers. -/
structure FloatOps {S : Type} [Add S] [Sub S] [Mul S] [Neg S] [Div S] [Zero S] [One S] [FOps S]
    (val : S → ℝ) (u : ℝ) : Prop extends FloatModel val u where
  lit : ∀ k : ℕ, |val (FOps.lit k) - k| ≤ u * k
  eqb : ∀ a b, FOps.eqb a b = true ↔ val a = val b

/-- Binary arithmetic with `p` bits is a case. -/
theorem Bin.floatOps (p : ℕ) : FloatOps (S := Bin p) Bin.val (2⁻¹ ^ p) where
  toFloatModel := Bin.floatModel p
  lit k := by
    have := roundBits_error p (k : ℝ)
    rwa [abs_of_nonneg (show (0 : ℝ) ≤ k from Nat.cast_nonneg k)] at this
  eqb a b := by
    show decide (a.val = b.val) = true ↔ _
    simp

end NB.Spec
