import Verif.Model.Solvers
import Mathlib.Algebra.Polynomial.Derivative
import Mathlib.Algebra.Polynomial.Eval.Defs
import Mathlib.Algebra.CharZero.Defs
import Mathlib.LinearAlgebra.Vandermonde
import Mathlib.Tactic.FieldSimp
import Mathlib.Tactic.Ring
import Mathlib.Tactic.NormNum
import Mathlib.Tactic.IntervalCases

/-
C15: the Adams-Bashforth rows have the advertised order, and are the only rows that do.
-/

namespace NB.C15

open Polynomial

/-- The row `a` of `k` coefficients integrates exactly, over every step `[t, t + h]`, the derivative of
every polynomial of degree at most `d`. -/
def ExactUpTo (K : Type) [Field K] (a : List K) (d : ℕ) : Prop :=
  ∀ (Q : K[X]), Q.natDegree ≤ d → ∀ t h : K,
    Q.eval (t + h) - Q.eval t =
      h * ∑ n ∈ Finset.range a.length, a.getD n 0 * (derivative Q).eval (t - n * h)

variable {K : Type} [Field K]

lemma exact_of_monomials {a : List K} {d : ℕ}
    (h : ∀ i, i ≤ d → ∀ t h : K, (t + h) ^ i - t ^ i =
      h * ∑ n ∈ Finset.range a.length, a.getD n 0 * ((i : K) * (t - n * h) ^ (i - 1))) :
    ExactUpTo K a d := by
  intro Q hQ t hh
  have hQ' := Q.as_sum_range_C_mul_X_pow' (Nat.lt_succ_of_le hQ)
  rw [hQ']
  simp only [eval_finset_sum, eval_mul, eval_C, eval_pow, eval_X, derivative_sum, derivative_C_mul_X_pow]
  rw [← Finset.sum_sub_distrib, Finset.mul_sum]
  have : ∀ n, a.getD n 0 * ∑ i ∈ Finset.range (d + 1), Q.coeff i * (i : K) * (t - n * hh) ^ (i - 1) =
      ∑ i ∈ Finset.range (d + 1), Q.coeff i * (a.getD n 0 * ((i : K) * (t - n * hh) ^ (i - 1))) := by
    intro n
    rw [Finset.mul_sum]
    exact Finset.sum_congr rfl fun i _ => by ring
  simp only [Nat.succ_eq_add_one, this, Finset.mul_sum]
  rw [Finset.sum_comm]
  refine Finset.sum_congr rfl fun i hi => ?_
  have hi := h i (by have := Finset.mem_range.1 hi; omega) t hh
  rw [← mul_sub, hi, Finset.mul_sum, Finset.mul_sum]
  exact Finset.sum_congr rfl fun n _ => by ring

variable [CharZero K]

/-- Ranks 1 to 5: the row exists, has `rank` entries, is exact up to degree `rank` (that is, for
derivatives of degree below `rank`) and not up to degree `rank + 1`. -/
theorem adams_order (rank : ℕ) (h1 : 1 ≤ rank) (h5 : rank ≤ 5) :
    ∃ a, adamsTable (K := K) rank = some a ∧ a.length = rank ∧ ExactUpTo K a rank ∧
      ¬ ExactUpTo K a (rank + 1) := by
  have hno : ∀ (a : List K) (d : ℕ), (1 : K) ≠ ∑ n ∈ Finset.range a.length,
      a.getD n 0 * (((d + 1 : ℕ) : K) * (-(n : K)) ^ d) → ¬ ExactUpTo K a (d + 1) := by
    intro a d hne hex
    have := hex (X ^ (d + 1)) (by rw [natDegree_X_pow]) 0 1
    simp only [eval_pow, eval_X, derivative_X_pow, eval_mul, eval_C, zero_add, one_pow, mul_one,
      zero_sub, one_mul, Nat.add_sub_cancel] at this
    apply hne
    rw [← this]; simp
  have h2 : (2 : K) ≠ 0 := by norm_num
  have h3 : (3 : K) ≠ 0 := by norm_num
  interval_cases rank
  · refine ⟨_, rfl, rfl, exact_of_monomials ?_, hno _ _ ?_⟩
    · intro i hi t h
      interval_cases i <;> simp [Finset.sum_range_succ] 
    · simp [Finset.sum_range_succ]
  · refine ⟨_, rfl, rfl, exact_of_monomials ?_, hno _ _ ?_⟩
    · intro i hi t h
      interval_cases i <;> simp [Finset.sum_range_succ] <;> field_simp <;> ring
    · simp [Finset.sum_range_succ] ; norm_num
  · refine ⟨_, rfl, rfl, exact_of_monomials ?_, hno _ _ ?_⟩
    · intro i hi t h
      interval_cases i <;> simp [Finset.sum_range_succ] <;> field_simp <;> ring
    · simp [Finset.sum_range_succ] ; norm_num
  · refine ⟨_, rfl, rfl, exact_of_monomials ?_, hno _ _ ?_⟩
    · intro i hi t h
      interval_cases i <;> simp [Finset.sum_range_succ] <;> field_simp <;> ring
    · simp [Finset.sum_range_succ] ; norm_num
  · refine ⟨_, rfl, rfl, exact_of_monomials ?_, hno _ _ ?_⟩
    · intro i hi t h
      interval_cases i <;> simp [Finset.sum_range_succ] <;> field_simp <;> ring
    · simp [Finset.sum_range_succ] ; norm_num

/-- A row is determined by its length and this exactness, so the rows of the code are the textbook ones. -/
theorem adams_unique {a b : List K} (hlen : a.length = b.length) (ha : ExactUpTo K a a.length)
    (hb : ExactUpTo K b a.length) : a = b := by
  have hmom : ∀ (c : List K), c.length = a.length → ExactUpTo K c a.length → ∀ i : Fin a.length,
      ∑ n : Fin a.length, c.getD n 0 * (-((n : ℕ) : K)) ^ (i : ℕ) = 1 / ((i : ℕ) + 1 : K) := by
    intro c hc hex i
    have := hex (X ^ ((i : ℕ) + 1)) (by rw [natDegree_X_pow]; exact i.2) 0 1
    simp only [eval_pow, eval_X, derivative_X_pow, eval_mul, eval_C, zero_add, one_pow, mul_one,
      zero_sub, one_mul, Nat.add_sub_cancel, hc] at this
    rw [zero_pow (by omega), sub_zero] at this
    have hi : ((i : ℕ) + 1 : K) ≠ 0 := by exact_mod_cast Nat.succ_ne_zero i
    rw [eq_div_iff hi]
    refine Eq.trans ?_ this.symm
    rw [← Fin.sum_univ_eq_sum_range (fun n => c.getD n 0 *
      ((((i : ℕ) + 1 : ℕ) : K) * (-(n : K)) ^ (i : ℕ))), Finset.sum_mul]
    refine Finset.sum_congr rfl fun n _ => ?_
    push_cast; ring
  have hz := Matrix.eq_zero_of_forall_pow_sum_mul_pow_eq_zero (n := a.length)
    (f := fun n => -((n : ℕ) : K)) (v := fun n => a.getD n 0 - b.getD n 0) (by
      intro m n h
      simp only [neg_inj] at h
      exact Fin.ext (by exact_mod_cast h)) (by
      intro i
      simp only [sub_mul, Finset.sum_sub_distrib]
      rw [hmom a rfl ha i, hmom b hlen.symm hb i, sub_self])
  apply List.ext_getElem hlen
  intro n h1 h2
  have := congrFun hz ⟨n, h1⟩
  simpa [h1, h2, sub_eq_zero] using this

/-- Non-vacuity: rank 2 over ℚ, the derivative 2t of t², from t = 3 with step 1/2. -/
example : ∃ a, adamsTable (K := ℚ) 2 = some a ∧
    (X ^ 2 : ℚ[X]).eval (3 + 1 / 2) - (X ^ 2 : ℚ[X]).eval 3 =
      1 / 2 * ∑ n ∈ Finset.range a.length, a.getD n 0 * (derivative (X ^ 2 : ℚ[X])).eval (3 - (n : ℚ) * (1 / 2)) := by
  obtain ⟨a, h1, _, h2, _⟩ := adams_order (K := ℚ) 2 (by decide) (by decide)
  exact ⟨a, h1, h2 _ (by rw [natDegree_X_pow]) _ _⟩

end NB.C15
