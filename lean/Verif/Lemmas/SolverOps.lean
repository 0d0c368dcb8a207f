import Verif.Model.Solvers
import Verif.Lemmas.Sums
import Verif.Lemmas.EngineBlock
import Mathlib.Algebra.Module.LinearMap.Basic
import Mathlib.Algebra.BigOperators.GroupWithZero.Action
import Mathlib.Tactic.Module

namespace NB

section
variable {V K : Type} [Field K] [DecidableEq K] [AddCommGroup V] [Module K V]

/-- `fmaddn_inplace` adds the linear combination. -/
theorem vfmaddnInplace_eq (n : ℕ) (a : V) (b : ℕ → V) (c : ℕ → K) :
    vfmaddnInplace n a b c = a + ∑ i ∈ Finset.range n, c i • b i := by
  unfold vfmaddnInplace
  induction n with
  | zero => simp [foldN]
  | succ n ih =>
    simp only [foldN, ih, Finset.sum_range_succ]
    by_cases h : c n = 0
    · simp [h]
    · simp [h, vfmadd, add_assoc]

theorem vfmaddnLoop_true (n : ℕ) (a b : V) (c : ℕ → V) (d : ℕ → K) :
    vfmaddnLoop n a b true c d = (a + ∑ i ∈ Finset.range n, d i • c i, true) := by
  unfold vfmaddnLoop
  induction n with
  | zero => simp [foldN]
  | succ n ih =>
    simp only [foldN, ih, Finset.sum_range_succ]
    by_cases h : d n = 0
    · simp [h]
    · simp [h, vfmadd, add_assoc]

theorem vfmaddnLoop_false (n : ℕ) (a b : V) (c : ℕ → V) (d : ℕ → K) :
    ((∀ i, i < n → d i = 0) ∧ vfmaddnLoop n a b false c d = (a, false)) ∨
    ((∃ i, i < n ∧ d i ≠ 0) ∧
      vfmaddnLoop n a b false c d = (b + ∑ i ∈ Finset.range n, d i • c i, true)) := by
  unfold vfmaddnLoop
  induction n with
  | zero => exact Or.inl ⟨by simp, rfl⟩
  | succ n ih =>
    simp only [foldN, Finset.sum_range_succ]
    rcases ih with ⟨h0, h1⟩ | ⟨⟨i, hi, hd⟩, h1⟩
    · by_cases h : d n = 0
      · refine Or.inl ⟨fun i hi => ?_, by simp [h1, h]⟩
        rcases Nat.lt_succ_iff_lt_or_eq.1 hi with h' | h'
        · exact h0 i h'
        · rw [h']; exact h
      · refine Or.inr ⟨⟨n, Nat.lt_succ_self n, h⟩, ?_⟩
        have hz : ∑ i ∈ Finset.range n, d i • c i = 0 := by
          apply Finset.sum_eq_zero
          intro i hi
          rw [h0 i (Finset.mem_range.1 hi), zero_smul]
        rw [h1]; simp [h, vfmadd, hz]
    · refine Or.inr ⟨⟨i, by omega, hd⟩, ?_⟩
      by_cases h : d n = 0
      · simp [h1, h]
      · rw [h1]; simp [h, vfmadd, add_assoc]

theorem vfmaddn_none (n : ℕ) (a : V) (c : ℕ → V) (d : ℕ → K) :
    vfmaddn n a none c d = ∑ i ∈ Finset.range n, d i • c i := by
  simp [vfmaddn, vfmaddnLoop_true]

theorem vfmaddn_some (n : ℕ) (a b : V) (c : ℕ → V) (d : ℕ → K) (h : ∃ i, i < n ∧ d i ≠ 0) :
    vfmaddn n a (some b) c d = b + ∑ i ∈ Finset.range n, d i • c i := by
  unfold vfmaddn
  rcases vfmaddnLoop_false n a b c d with ⟨h0, _⟩ | ⟨_, h1⟩
  · obtain ⟨i, hi, hd⟩ := h
    exact absurd (h0 i hi) hd
  · simp [h1]

theorem vfmaddn_some_zero (n : ℕ) (a b : V) (c : ℕ → V) (d : ℕ → K) (h : ∀ i, i < n → d i = 0) :
    vfmaddn n a (some b) c d = a := by
  unfold vfmaddn
  rcases vfmaddnLoop_false n a b c d with ⟨_, h1⟩ | ⟨⟨i, hi, hd⟩, _⟩
  · simp [h1]
  · exact absurd (h i hi) hd

/-- With a zero correction, compensated summation is the plain sum and leaves a zero correction. -/
theorem vfmaddnCorr_eq (n : ℕ) (a : V) (b : ℕ → V) (c : ℕ → K) :
    vfmaddnCorr n a 0 b c = (a + ∑ i ∈ Finset.range n, c i • b i, 0) := by
  unfold vfmaddnCorr
  induction n with
  | zero => simp [foldN]
  | succ n ih =>
    simp only [foldN, ih, Finset.sum_range_succ]
    by_cases h : c n = 0
    · simp [h]
    · simp [h, summationK, add_assoc]

omit [DecidableEq K] in
theorem map_vfmadd {W : Type} [AddCommGroup W] [Module K W] (L : V →ₗ[K] W) (b c : V) (d : K) :
    L (vfmadd b c d) = L b + d • L c := by simp [vfmadd]

end

end NB

namespace NB

/-- Invariant rule for pure loops. -/
theorem foldN_inv {σ : Type*} {n : ℕ} {s : σ} {f : ℕ → σ → σ} (P : ℕ → σ → Prop) (h0 : P 0 s)
    (hs : ∀ i t, i < n → P i t → P (i + 1) (f i t)) : P n (foldN n s f) := by
  induction n with
  | zero => exact h0
  | succ n ih => exact hs n _ (Nat.lt_succ_self n) (ih fun i t hi => hs i t (by omega))

@[simp] theorem upd_same {α : Type*} (a : ℕ → α) (i : ℕ) (v : α) : upd a i v i = v := by simp [upd]

theorem upd_ne {α : Type*} (a : ℕ → α) {i j : ℕ} (v : α) (h : j ≠ i) : upd a i v j = a j := by simp [upd, h]

end NB
