import Verif.Lemmas.OrderApprox
import Verif.Model.FeaginTables

/-
The order conditions of the table of `rkfeagin12`, checked by the kernel.
-/

set_option Elab.async false

namespace NB.OA

/-- Parameters of the check. -/
noncomputable def par12 : Par := ⟨Nat.pow 2 2800, Nat.pow 10 65, Nat.pow 10 56, 6⟩

theorem bounded12 : bounded par12.D (42 * Nat.pow 10 65) (2 * Nat.pow 10 65) feagin12Tab.rows feagin12Tab.b2 = true := by
  decide +kernel

theorem bounded12' : bounded par12.D (42 * Nat.pow 10 65) (2 * Nat.pow 10 65) feagin12Tab.rows feagin12Tab.b1 = true := by
  decide +kernel

theorem modulus12 : ∀ n, n < 12 → 12 ^ 12 * (2 * Nat.pow 10 65 * (42 * Nat.pow 10 65) ^ n + 3 * (par12.D ^ (n + 1) / par12.N))
    + par12.D ^ (n + 1) < par12.M := by
  decide +kernel

theorem modulus12' : ∀ n, n < 10 → 10 ^ 10 * (2 * Nat.pow 10 65 * (42 * Nat.pow 10 65) ^ n + 3 * (par12.D ^ (n + 1) / par12.N))
    + par12.D ^ (n + 1) < par12.M := by
  decide +kernel

theorem check12 : ∀ n, n < 12 → par12.tall 25 feagin12Tab.rows feagin12Tab.b2 (n + 0) 0 = true := by
  decide +kernel

theorem check12' : ∀ n, n < 10 → par12.tall 25 feagin12Tab.rows feagin12Tab.b1 (n + 0) 0 = true := by
  decide +kernel

theorem pass12 : ∀ n, n < 12 → par12.Pass 25 feagin12Tab.rows feagin12Tab.b2 n := by
  intro n hn
  exact par12.pass_tall (by decide +kernel) (by decide +kernel) (by simp only [par12]; omega) (check12 n hn)

theorem pass12' : ∀ n, n < 10 → par12.Pass 25 feagin12Tab.rows feagin12Tab.b1 n := by
  intro n hn
  exact par12.pass_tall (by decide +kernel) (by decide +kernel) (by simp only [par12]; omega) (check12' n hn)

end NB.OA
