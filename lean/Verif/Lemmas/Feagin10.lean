import Verif.Lemmas.OrderApprox
import Verif.Model.FeaginTables

/-
The order conditions of the table of `rkfeagin10`, checked by the kernel.
-/

namespace NB.OA

/-- Parameters of the check. -/
noncomputable def par10 : Par := ⟨Nat.pow 2 2150, Nat.pow 10 61, Nat.pow 10 56, 5⟩

theorem bounded10 : bounded par10.D (21 * Nat.pow 10 61) (2 * Nat.pow 10 61) feagin10Tab.rows feagin10Tab.b2 = true := by
  decide +kernel

theorem bounded10' : bounded par10.D (21 * Nat.pow 10 61) (2 * Nat.pow 10 61) feagin10Tab.rows feagin10Tab.b1 = true := by
  decide +kernel

theorem modulus10 : ∀ n, n < 10 → 10 ^ 10 * (2 * Nat.pow 10 61 * (21 * Nat.pow 10 61) ^ n + 3 * (par10.D ^ (n + 1) / par10.N))
    + par10.D ^ (n + 1) < par10.M := by
  decide +kernel

theorem modulus10' : ∀ n, n < 8 → 8 ^ 8 * (2 * Nat.pow 10 61 * (21 * Nat.pow 10 61) ^ n + 3 * (par10.D ^ (n + 1) / par10.N))
    + par10.D ^ (n + 1) < par10.M := by
  decide +kernel

theorem check10 : ∀ n, n < 10 → par10.tall 17 feagin10Tab.rows feagin10Tab.b2 (n + 0) 0 = true := by
  decide +kernel

theorem check10' : ∀ n, n < 8 → par10.tall 17 feagin10Tab.rows feagin10Tab.b1 (n + 0) 0 = true := by
  decide +kernel

theorem pass10 : ∀ n, n < 10 → par10.Pass 17 feagin10Tab.rows feagin10Tab.b2 n := by
  intro n hn
  exact par10.pass_tall (by decide +kernel) (by decide +kernel) (by simp only [par10]; omega) (check10 n hn)

theorem pass10' : ∀ n, n < 8 → par10.Pass 17 feagin10Tab.rows feagin10Tab.b1 n := by
  intro n hn
  exact par10.pass_tall (by decide +kernel) (by decide +kernel) (by simp only [par10]; omega) (check10' n hn)

end NB.OA
