import Verif.Lemmas.OrderApprox
import Verif.Model.FeaginTables
import Mathlib.Tactic.IntervalCases

/-
The order conditions of the table of `rkfeagin14`, checked by the kernel.
-/

set_option Elab.async false

namespace NB.OA

/-- Parameters of the check. -/
noncomputable def par14 : Par := ⟨Nat.pow 2 3350, Nat.pow 10 66, Nat.pow 10 56, 7⟩

theorem bounded14 : bounded par14.D (5107 * Nat.pow 10 66) (2 * Nat.pow 10 66) feagin14Tab.rows feagin14Tab.b2 = true := by
  decide +kernel

theorem bounded14' : bounded par14.D (5107 * Nat.pow 10 66) (2 * Nat.pow 10 66) feagin14Tab.rows feagin14Tab.b1 = true := by
  decide +kernel

theorem modulus14 : ∀ n, n < 14 → 14 ^ 14 * (2 * Nat.pow 10 66 * (5107 * Nat.pow 10 66) ^ n + 3 * (par14.D ^ (n + 1) / par14.N))
    + par14.D ^ (n + 1) < par14.M := by
  decide +kernel

theorem modulus14' : ∀ n, n < 12 → 12 ^ 12 * (2 * Nat.pow 10 66 * (5107 * Nat.pow 10 66) ^ n + 3 * (par14.D ^ (n + 1) / par14.N))
    + par14.D ^ (n + 1) < par14.M := by
  decide +kernel

theorem check14a : ∀ n, n < 11 → par14.tall 35 feagin14Tab.rows feagin14Tab.b2 (n + 0) 0 = true := by
  decide +kernel

theorem check14b : par14.tall 35 feagin14Tab.rows feagin14Tab.b2 11 0 = true := by
  decide +kernel

theorem flat14_12_0 : par14.flat 35 feagin14Tab.rows feagin14Tab.b2 12 0 = true := by
  decide +kernel

theorem deep14_12_0_8 : par14.deep 35 feagin14Tab.rows feagin14Tab.b2 12 0 8 = true := by
  decide +kernel

theorem deep14_12_0_9 : par14.deep 35 feagin14Tab.rows feagin14Tab.b2 12 0 9 = true := by
  decide +kernel

theorem deep14_12_0_10 : par14.deep 35 feagin14Tab.rows feagin14Tab.b2 12 0 10 = true := by
  decide +kernel

theorem deep14_12_0_11 : par14.deep 35 feagin14Tab.rows feagin14Tab.b2 12 0 11 = true := by
  decide +kernel

theorem tall14_12 : par14.tall 35 feagin14Tab.rows feagin14Tab.b2 12 1 = true := by
  decide +kernel

theorem flat14_13_0 : par14.flat 35 feagin14Tab.rows feagin14Tab.b2 13 0 = true := by
  decide +kernel

theorem deep14_13_0_8 : par14.deep 35 feagin14Tab.rows feagin14Tab.b2 13 0 8 = true := by
  decide +kernel

theorem deep14_13_0_9 : par14.deep 35 feagin14Tab.rows feagin14Tab.b2 13 0 9 = true := by
  decide +kernel

theorem deep14_13_0_10 : par14.deep 35 feagin14Tab.rows feagin14Tab.b2 13 0 10 = true := by
  decide +kernel

theorem deep14_13_0_11 : par14.deep 35 feagin14Tab.rows feagin14Tab.b2 13 0 11 = true := by
  decide +kernel

theorem deep14_13_0_12 : par14.deep 35 feagin14Tab.rows feagin14Tab.b2 13 0 12 = true := by
  decide +kernel

theorem flat14_13_1 : par14.flat 35 feagin14Tab.rows feagin14Tab.b2 13 1 = true := by
  decide +kernel

theorem deep14_13_1_8 : par14.deep 35 feagin14Tab.rows feagin14Tab.b2 13 1 8 = true := by
  decide +kernel

theorem deep14_13_1_9 : par14.deep 35 feagin14Tab.rows feagin14Tab.b2 13 1 9 = true := by
  decide +kernel

theorem deep14_13_1_10 : par14.deep 35 feagin14Tab.rows feagin14Tab.b2 13 1 10 = true := by
  decide +kernel

theorem deep14_13_1_11 : par14.deep 35 feagin14Tab.rows feagin14Tab.b2 13 1 11 = true := by
  decide +kernel

theorem tall14_13 : par14.tall 35 feagin14Tab.rows feagin14Tab.b2 13 2 = true := by
  decide +kernel

theorem check14a' : ∀ n, n < 11 → par14.tall 35 feagin14Tab.rows feagin14Tab.b1 (n + 0) 0 = true := by
  decide +kernel

theorem check14b' : par14.tall 35 feagin14Tab.rows feagin14Tab.b1 11 0 = true := by
  decide +kernel

theorem rows14 : feagin14Tab.rows.length = 35 := by decide +kernel

theorem weights14 : feagin14Tab.b2.length = 35 := by decide +kernel

theorem pass14_12 : par14.Pass 35 feagin14Tab.rows feagin14Tab.b2 12 := by
  have p1 := par14.pass_tall rows14 weights14 (by simp only [par14]; omega) tall14_12
  have p0 : par14.PassAt 35 feagin14Tab.rows feagin14Tab.b2 12 0 := by
    refine par14.pass_split rows14 weights14 (by simp only [par14]; omega) flat14_12_0 (fun q h1 h2 => ?_) p1
    have h3 : 8 ≤ q := h1
    have h4 : q < 12 := h2
    interval_cases q
    · exact deep14_12_0_8
    · exact deep14_12_0_9
    · exact deep14_12_0_10
    · exact deep14_12_0_11
  exact p0

theorem pass14_13 : par14.Pass 35 feagin14Tab.rows feagin14Tab.b2 13 := by
  have p2 := par14.pass_tall rows14 weights14 (by simp only [par14]; omega) tall14_13
  have p1 : par14.PassAt 35 feagin14Tab.rows feagin14Tab.b2 13 1 := by
    refine par14.pass_split rows14 weights14 (by simp only [par14]; omega) flat14_13_1 (fun q h1 h2 => ?_) p2
    have h3 : 8 ≤ q := h1
    have h4 : q < 12 := h2
    interval_cases q
    · exact deep14_13_1_8
    · exact deep14_13_1_9
    · exact deep14_13_1_10
    · exact deep14_13_1_11
  have p0 : par14.PassAt 35 feagin14Tab.rows feagin14Tab.b2 13 0 := by
    refine par14.pass_split rows14 weights14 (by simp only [par14]; omega) flat14_13_0 (fun q h1 h2 => ?_) p1
    have h3 : 8 ≤ q := h1
    have h4 : q < 13 := h2
    interval_cases q
    · exact deep14_13_0_8
    · exact deep14_13_0_9
    · exact deep14_13_0_10
    · exact deep14_13_0_11
    · exact deep14_13_0_12
  exact p0

theorem pass14 : ∀ n, n < 14 → par14.Pass 35 feagin14Tab.rows feagin14Tab.b2 n := by
  intro n hn
  rcases Nat.lt_or_ge n 11 with h | h
  · exact par14.pass_tall rows14 weights14 (by simp only [par14]; omega) (check14a n h)
  · interval_cases n
    · exact par14.pass_tall rows14 weights14 (by simp only [par14]; omega) check14b
    · exact pass14_12
    · exact pass14_13

theorem pass14' : ∀ n, n < 12 → par14.Pass 35 feagin14Tab.rows feagin14Tab.b1 n := by
  intro n hn
  have hw : feagin14Tab.b1.length = 35 := by decide +kernel
  rcases Nat.lt_or_ge n 11 with h | h
  · exact par14.pass_tall rows14 hw (by simp only [par14]; omega) (check14a' n h)
  · interval_cases n
    exact par14.pass_tall rows14 hw (by simp only [par14]; omega) check14b'

end NB.OA
