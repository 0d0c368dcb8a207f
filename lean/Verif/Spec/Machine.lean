import Verif.Model.GpuOps

/-
What the operations of an engine mean for the contents of the buffers, device by device details left out: a
state gives each buffer a sequence of numbers.  `deriv` is the derivative computed by `fcompute`.
-/

namespace Spec

open NB

/-- Contents of the buffers. -/
abbrev Buffers (S : Type) := Nat → Nat → S

section
variable {S : Type}

/-- Buffer `a` gets the contents `x`. -/
def put (V : Buffers S) (a : Nat) (x : Nat → S) : Buffers S := fun h => if h = a then x else V h

variable [Add S] [Sub S] [Mul S] [Neg S] [Zero S] [FOps S]

/-- One coordinate in a periodic box. -/
def wrap (b x : S) : S :=
  let x := if FOps.lt b x then x - FOps.lit 2 * b else x
  if FOps.lt x (-b) then x + FOps.lit 2 * b else x

/-- `a += b * c` unless the coefficient is zero. -/
def addTerm (a : Nat) (V : Buffers S) (t : Nat × S) : Buffers S :=
  if FOps.eqb t.2 0 then V else put V a fun j => V a j + V t.1 j * t.2

/-- `a = b + Σ …`, where terms with coefficient zero do not exist; without terms `a` is left alone. -/
def sumFrom (a b : Nat) (V : Buffers S) : List (Nat × S) → Buffers S
  | [] => V
  | t :: ts =>
    if FOps.eqb t.2 0 then sumFrom a b V ts
    else ts.foldl (addTerm a) (put V a fun j => V b j + V t.1 j * t.2)

/-- `a += b * c` with Kahan's correction. -/
def addCorrected (a corr : Nat) (V : Buffers S) (t : Nat × S) : Buffers S :=
  if FOps.eqb t.2 0 then V
  else
    let term j := V t.1 j * t.2 - V corr j
    put (put V corr fun j => ((V a j + term j) - V a j) - term j) a fun j => V a j + term j

/-- The meaning of a call, for `n` bodies. -/
def call (deriv : (Nat → S) → Nat → S) (n : Nat) (V : Buffers S) : Call S → Buffers S
  | .fcompute y f => put V f (deriv (V y))
  | .clamp y b => put V y fun j => if j < 3 * n then wrap b (V y j) else V y j
  | .copy a b => put V a (V b)
  | .fill a v => put V a fun _ => v
  | .fmaddInplace a b c => put V a fun j => V a j + V b j * c
  | .fmadd a b c d => put V a fun j => V b j + V c j * d
  | .fmaddnInplace a b c k => ((b.zip c).take k).foldl (addTerm a) V
  | .fmaddn a none c d k => ((c.zip d).take k).foldl (addTerm a) (put V a fun _ => 0)
  | .fmaddn a (some b) c d k => sumFrom a b V ((c.zip d).take k)
  | .fmaddnCorr a corr b c k => ((b.zip c).take k).foldl (addCorrected a corr) V

/-- The number of derivatives a call asks for. -/
def cost : Call S → Nat
  | .fcompute _ _ => 1
  | _ => 0

/-- Buffers a call mentions. -/
def mentions : Call S → List Nat
  | .fcompute y f => [y, f]
  | .clamp y _ => [y]
  | .copy a b => [a, b]
  | .fill a _ => [a]
  | .fmaddInplace a b _ => [a, b]
  | .fmadd a b c _ => [a, b, c]
  | .fmaddnInplace a b _ _ => a :: b
  | .fmaddn a none c _ _ => a :: c
  | .fmaddn a (some b) c _ _ => a :: b :: c
  | .fmaddnCorr a corr b _ _ => a :: corr :: b

/-- Calls as solvers make them: no derivative computed in place, no copy of a buffer to itself, and enough
buffers and coefficients. -/
def Proper : Call S → Prop
  | .fcompute y f => y ≠ f
  | .copy a b => a ≠ b
  | .fmaddnInplace _ b c k => k ≤ b.length ∧ k ≤ c.length
  | .fmaddn _ _ c d k => k ≤ c.length ∧ k ≤ d.length
  | .fmaddnCorr _ _ b c k => k ≤ b.length ∧ k ≤ c.length
  | _ => True

end

end Spec
