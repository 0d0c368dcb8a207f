import Verif.Spec.Machine
import Verif.Model.SolverCalls

/-
What a program of calls means: the machine of Spec/Machine.lean makes the calls, and `nrm` is what `fmaxabs`
gives for the contents of a buffer.
-/

namespace Spec

open NB

section
variable {S : Type} [Add S] [Sub S] [Mul S] [Neg S] [Zero S] [FOps S]

/-- The result of a program and the contents of the buffers after it. -/
def eval {α : Type} (deriv : (Nat → S) → Nat → S) (nrm : (Nat → S) → S) (n : Nat) :
    Act S α → Buffers S → α × Buffers S
  | .ret a, V => (a, V)
  | .call c k, V => eval deriv nrm n k (call deriv n V c)
  | .norm h k, V => eval deriv nrm n (k (nrm (V h))) V

/-- Contents of the buffers together with the number of derivatives asked for so far. -/
structure Tally (S : Type) where
  count : Nat
  bufs : Buffers S

/-- The result of a program and the contents of the buffers after it, when an engine need not compute the derivative
the same way each time it is asked: the `k`-th time it is `derivs k`. -/
def tally {α : Type} (derivs : Nat → (Nat → S) → Nat → S) (nrm : (Nat → S) → S) (n : Nat) :
    Act S α → Tally S → α × Tally S
  | .ret a, X => (a, X)
  | .call c k, X => tally derivs nrm n k ⟨X.count + cost c, call (derivs X.count) n X.bufs c⟩
  | .norm h k, X => tally derivs nrm n (k (nrm (X.bufs h))) X

end

/-- Every call the program can make is proper, and no buffer outside `H` is mentioned. -/
def Allowed {S α : Type} (H : Nat → Prop) : Act S α → Prop
  | .ret _ => True
  | .call c k => (Proper c ∧ ∀ h ∈ mentions c, H h) ∧ Allowed H k
  | .norm h k => H h ∧ ∀ r, Allowed H (k r)

/-- The engine `E` does what the machine does.  `Rep V s`: the state `s` of the engine stands for the contents
`V`. -/
structure Implements {S σ : Type} [Add S] [Sub S] [Mul S] [Neg S] [Zero S] [FOps S] (E : EngineOps S σ) (n : Nat)
    (H : Nat → Prop) (deriv : (Nat → S) → Nat → S) (nrm : (Nat → S) → S) (Rep : Buffers S → σ → Prop) : Prop where
  call : ∀ c V s, Proper c → (∀ h ∈ mentions c, H h) → Rep V s →
    ∃ s', E.call c s = .ok s' ∧ Rep (Spec.call deriv n V c) s'
  norm : ∀ h V s, H h → Rep V s → ∃ s', E.maxabs h s = .ok (some (nrm (V h)), s') ∧ Rep V s'

/-- The engine `E` does what the machine does, but for the derivative: that of the contents `y` is any `F` with
`A y F`, perhaps another one each time. -/
structure Approximates {S σ : Type} [Add S] [Sub S] [Mul S] [Neg S] [Zero S] [FOps S] (E : EngineOps S σ) (n : Nat)
    (H : Nat → Prop) (A : (Nat → S) → (Nat → S) → Prop) (nrm : (Nat → S) → S) (Rep : Buffers S → σ → Prop) : Prop where
  compute : ∀ y f V s, y ≠ f → H y → H f → Rep V s →
    ∃ F s', A (V y) F ∧ E.call (.fcompute y f) s = .ok s' ∧ Rep (put V f F) s'
  call : ∀ c V s, cost c = 0 → Proper c → (∀ h ∈ mentions c, H h) → Rep V s →
    ∃ s', E.call c s = .ok s' ∧ Rep (Spec.call (fun _ _ => 0) n V c) s'
  norm : ∀ h V s, H h → Rep V s → ∃ s', E.maxabs h s = .ok (some (nrm (V h)), s') ∧ Rep V s'

end Spec
