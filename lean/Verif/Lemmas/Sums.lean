import Verif.Base
import Mathlib.Algebra.BigOperators.Group.Finset.Basic
import Mathlib.Algebra.BigOperators.Ring.Finset
import Mathlib.Algebra.BigOperators.Group.Finset.Sigma
import Mathlib.Data.Finset.Range
import Mathlib.Algebra.BigOperators.Field
import Mathlib.Data.Real.Basic
import Mathlib.Tactic.Ring
import Mathlib.Tactic.Linarith

namespace NB

/-- An accumulation loop that skips index `i` is a sum over the other indices. -/
theorem foldN_sum_erase {A : Type _} [AddCommMonoid A] (n i : ℕ) (g : ℕ → A) :
    foldN n 0 (fun j t => if i = j then t else t + g j) = ∑ j ∈ (Finset.range n).erase i, g j := by
  induction n with
  | zero => simp [foldN]
  | succ n ih =>
    simp only [foldN, ih]
    by_cases h : i = n
    · subst h
      rw [if_pos rfl, Finset.range_add_one, Finset.erase_insert (by simp),
        Finset.erase_eq_of_notMem (by simp)]
    · rw [if_neg h, Finset.range_add_one, Finset.erase_insert_of_ne (Ne.symm h), Finset.sum_insert (by simp),
        add_comm]

theorem foldN_sum {A : Type _} [AddCommMonoid A] (n : ℕ) (g : ℕ → A) :
    foldN n 0 (fun j t => t + g j) = ∑ j ∈ Finset.range n, g j := by
  induction n with
  | zero => simp [foldN]
  | succ n ih => simp only [foldN, ih, Finset.sum_range_succ]

/-- Antisymmetric double sums vanish. -/
theorem sum_antisymm (n : ℕ) (g : ℕ → ℕ → ℝ) (h : ∀ i j, g i j = -g j i) :
    ∑ i ∈ Finset.range n, ∑ j ∈ (Finset.range n).erase i, g i j = 0 := by
  have hd : ∀ i, g i i = 0 := fun i => by have := h i i; linarith
  have h1 : ∑ i ∈ Finset.range n, ∑ j ∈ (Finset.range n).erase i, g i j =
      ∑ i ∈ Finset.range n, ∑ j ∈ Finset.range n, g i j := by
    apply Finset.sum_congr rfl
    intro i _
    apply Finset.sum_erase
    exact hd i
  rw [h1]
  have h2 : ∑ i ∈ Finset.range n, ∑ j ∈ Finset.range n, g i j =
      -∑ i ∈ Finset.range n, ∑ j ∈ Finset.range n, g i j := by
    conv_lhs => rw [Finset.sum_comm]
    rw [← Finset.sum_neg_distrib]
    apply Finset.sum_congr rfl
    intro i _
    rw [← Finset.sum_neg_distrib]
    apply Finset.sum_congr rfl
    intro j _
    exact h j i
  linarith

end NB
