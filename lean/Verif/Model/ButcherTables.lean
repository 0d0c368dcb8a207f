import Verif.Model.Solvers
import Mathlib.Algebra.Order.Ring.Rat
import Mathlib.Algebra.Field.Rat

/-
The Butcher tables shipped with the repository, as arrays of exact numbers.
Simplification: a constant expression such as `3 / 40_f` or a decimal string is the exact rational
number, not its rounding to `nbcoord_t`.
-/

namespace NB

/-- /repo/nbody/nbody_butcher_table.h:7-20: a table as the arrays behind its accessors.  `rows` are the
arrays that the entries of `get_a()` point to. -/
structure Tab (R : Type) where
  steps : ℕ
  rows : List (List R)
  b1 : List R
  b2 : List R
  c : List R
  implicit : Bool
  embedded : Bool

/-- The same table with every entry converted.
(The tables are of type `nbcoord_t`, /repo/nbody/nbody_butcher_table.h:7-20.) -/
def Tab.map {R S : Type} (f : R → S) (t : Tab R) : Tab S :=
  { steps := t.steps, rows := t.rows.map (List.map f), b1 := t.b1.map f, b2 := t.b2.map f,
    c := t.c.map f, implicit := t.implicit, embedded := t.embedded }

/-- The table as read by the solver.  The total reads agree with the arrays wherever the solver reads:
C17.
(Accessors of /repo/nbody/nbody_butcher_table.h:7-20.) -/
def Tab.toBT {R : Type} [Zero R] (t : Tab R) : BT R :=
  { steps := t.steps, a := fun i n => (t.rows.getD i []).getD n 0, b1 := fun n => t.b1.getD n 0,
    b2 := fun n => t.b2.getD n 0, c := fun n => t.c.getD n 0, implicit := t.implicit,
    embedded := t.embedded }

/-- /repo/nbody/nbody_butcher_table.cpp:15-58: the classic table. -/
def rk4Tab : Tab ℚ where
  steps := 4
  rows := [
    [0, 0],
    [1/2, 0],
    [0, 1/2, 0],
    [0, 0, 1, 0]]
  b1 := [1/6, 1/3, 1/3, 1/6]
  b2 := [1/6, 1/3, 1/3, 1/6]
  c := [0, 1/2, 1/2, 1]
  implicit := false
  embedded := false

/-- /repo/nbody/nbody_solver_rkck.cpp:25-72: Cash-Karp. -/
def rkckTab : Tab ℚ where
  steps := 6
  rows := [
    [0],
    [1/5],
    [3/40, 9/40],
    [3/10, -9/10, 6/5],
    [-11/54, 5/2, -70/27, 35/27],
    [1631/55296, 175/512, 575/13824, 44275/110592, 253/4096]]
  b1 := [37/378, 0, 250/621, 125/594, 0, 512/1771]
  b2 := [2825/27648, 0, 18575/48384, 13525/55296, 277/14336, 1/4]
  c := [0, 1/5, 3/10, 3/5, 1, 7/8]
  implicit := false
  embedded := true

/-- /repo/nbody/nbody_solver_rkdp.cpp:25-73: Dormand-Prince. -/
def rkdpTab : Tab ℚ where
  steps := 7
  rows := [
    [0],
    [1/5],
    [3/40, 9/40],
    [44/45, -56/15, 32/9],
    [19372/6561, -25360/2187, 64448/6561, -212/729],
    [9017/3168, -355/33, 46732/5247, 49/176, -5103/18656],
    [35/384, 0, 500/1113, 125/192, -2187/6784, 11/84, 0]]
  b1 := [35/384, 0, 500/1113, 125/192, -2187/6784, 11/84, 0]
  b2 := [5179/57600, 0, 7571/16695, 393/640, -92097/339200, 187/2100, 1/40]
  c := [0, 1/5, 3/10, 4/5, 8/9, 1, 1]
  implicit := false
  embedded := true

/-- /repo/nbody/nbody_solver_rkdverk.cpp:25-74: Verner. -/
def rkdverkTab : Tab ℚ where
  steps := 8
  rows := [
    [0],
    [1/6],
    [4/75, 16/75],
    [5/6, -8/3, 5/2],
    [-165/64, 55/6, -425/64, 85/96],
    [12/5, -8, 4015/612, -11/36, 88/255],
    [-8263/15000, 124/75, -643/680, -81/250, 2484/10625, 0],
    [3501/1720, -300/43, 297275/52632, -319/2322, 24068/84065, 0, 3850/26703]]
  b1 := [3/40, 0, 875/2244, 23/72, 264/1955, 0, 125/11592, 43/616]
  b2 := [13/160, 0, 2375/5984, 5/16, 12/85, 3/44, 0, 0]
  c := [0, 1/6, 4/15, 2/3, 5/6, 1, 1/15, 1]
  implicit := false
  embedded := true

/-- /repo/nbody/nbody_solver_rkf.cpp:25-81: Fehlberg. -/
def rkfTab : Tab ℚ where
  steps := 13
  rows := [
    [0],
    [2/27],
    [1/36, 1/12],
    [1/24, 0, 1/8],
    [5/12, 0, -25/16, 25/16],
    [1/20, 0, 0, 1/4, 1/5],
    [-25/108, 0, 0, 125/108, -65/27, 125/54],
    [31/300, 0, 0, 0, 61/225, -2/9, 13/900],
    [2, 0, 0, -53/6, 704/45, -107/9, 67/90, 3],
    [-91/108, 0, 0, 23/108, -976/135, 311/54, -19/60, 17/6, -1/12],
    [2383/4100, 0, 0, -341/164, 4496/1025, -301/82, 2133/4100, 45/82, 45/164, 18/41],
    [3/205, 0, 0, 0, 0, -6/41, -3/205, -3/41, 3/41, 6/41, 0],
    [-1777/4100, 0, 0, -341/164, 4496/1025, -289/82, 2193/4100, 51/82, 33/164, 12/41, 0, 1]]
  b1 := [41/840, 0, 0, 0, 0, 34/105, 9/35, 9/35, 9/280, 9/280, 41/840, 0, 0]
  b2 := [0, 0, 0, 0, 0, 34/105, 9/35, 9/35, 9/280, 9/280, 0, 41/840, 41/840]
  c := [0, 2/27, 1/9, 1/6, 5/12, 1/2, 5/6, 1/6, 2/3, 1/3, 1, 0, 1]
  implicit := false
  embedded := true

/-- /repo/nbody/nbody_solver_rklc.cpp:24-68: Lobatto IIIC. -/
def rklcTab : Tab ℚ where
  steps := 3
  rows := [
    [1/6, -1/3, 1/6],
    [1/6, 5/12, -1/12],
    [1/6, 2/3, 1/6]]
  b1 := [1/6, 2/3, 1/6]
  b2 := [-1/2, 2, -1/2]
  c := [0, 1/2, 1]
  implicit := true
  embedded := true

/-- /repo/nbody/nbody_solver_rkgl.cpp:25-69: Gauss-Legendre; `q` is `sqrt15`. -/
def rkglTab (K : Type) [Field K] (q : K) : Tab K where
  steps := 3
  rows := [
    [5/36, 2/9 - q/15, 5/36 - q/30],
    [5/36 + q/24, 2/9, 5/36 - q/24],
    [5/36 + q/30, 2/9 + q/15, 5/36]]
  b1 := [5/18, 4/9, 5/18]
  b2 := [-5/6, 8/3, -5/6]
  c := [1/2 - q/10, 1/2, 1/2 + q/10]
  implicit := true
  embedded := false

end NB
