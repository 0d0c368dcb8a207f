import Verif.Lemmas.EngineSimple
import Verif.Model.RealScalar
import Mathlib.Tactic.Linarith

/-
C10: the periodic clamp.  Exact arithmetic; `b` is the half-width of the box.
-/

namespace NB.C10

lemma wrap_def (b x : ℝ) : wrapVal b (FOps.lit 2 * b) x =
    let x1 := if b < x then x - 2 * b else x
    if x1 < -b then x1 + 2 * b else x1 := by
  simp only [wrapVal, real_lt, real_lit, decide_eq_true_eq]
  norm_num

lemma wrap_cases {b : ℝ} (hb : 0 ≤ b) (x : ℝ) :
    (b < x ∧ wrapVal b (FOps.lit 2 * b) x = x - 2 * b) ∨
    (x < -b ∧ wrapVal b (FOps.lit 2 * b) x = x + 2 * b) ∨
    (-b ≤ x ∧ x ≤ b ∧ wrapVal b (FOps.lit 2 * b) x = x) := by
  rw [wrap_def]
  by_cases h1 : b < x
  · left
    have : ¬ x - 2 * b < -b := by linarith
    simp [h1, this]
  · right
    by_cases h2 : x < -b
    · left; simp [h1, h2]
    · right
      exact ⟨not_lt.1 h2, not_lt.1 h1, by simp [h1, h2]⟩

/-- `clamp` succeeds, changes only the state buffer, and there each position coordinate is moved by the
amounts of the statement while velocities stay. -/
theorem clamp_moves_by_box {n : ℕ} {y : Handle} {b : ℝ} (hb : 0 ≤ b) {Y : ℕ → ℝ} {m : Mem ℝ}
    (hy : m y = some (buf (6 * n) Y)) :
    ∃ Y' : ℕ → ℝ, clamp seqFor n y b m = .ok (m.set y (buf (6 * n) Y')) ∧
      (∀ j, j < 3 * n → (b < Y j ∧ Y' j = Y j - 2 * b) ∨ (Y j < -b ∧ Y' j = Y j + 2 * b) ∨
        (|Y j| ≤ b ∧ Y' j = Y j)) ∧
      (∀ j, 3 * n ≤ j → Y' j = Y j) := by
  refine ⟨clampVal n b Y, clamp_eq hy, ?_, ?_⟩
  · intro j hj
    simp only [clampVal, hj, if_true]
    rcases wrap_cases hb (Y j) with h | h | ⟨h1, h2, h3⟩
    · exact Or.inl h
    · exact Or.inr (Or.inl h)
    · exact Or.inr (Or.inr ⟨abs_le.2 ⟨h1, h2⟩, h3⟩)
  · intro j hj
    have : ¬ j < 3 * n := by omega
    simp [clampVal, this]

/-- Coordinates within `3b` end up inside the box; coordinates further out stay outside. -/
theorem clamp_inside_iff {n : ℕ} {y : Handle} {b : ℝ} (hb : 0 ≤ b) {Y : ℕ → ℝ} {m : Mem ℝ}
    (hy : m y = some (buf (6 * n) Y)) :
    ∃ Y' : ℕ → ℝ, clamp seqFor n y b m = .ok (m.set y (buf (6 * n) Y')) ∧
      ∀ j, j < 3 * n → (|Y' j| ≤ b ↔ |Y j| ≤ 3 * b) := by
  obtain ⟨Y', h, h1, _⟩ := clamp_moves_by_box hb hy
  refine ⟨Y', h, fun j hj => ?_⟩
  rw [abs_le, abs_le]
  rcases h1 j hj with ⟨h2, h3⟩ | ⟨h2, h3⟩ | ⟨h2, h3⟩
  · rw [h3]
    constructor <;> rintro ⟨_, _⟩ <;> constructor <;> linarith
  · rw [h3]
    constructor <;> rintro ⟨_, _⟩ <;> constructor <;> linarith
  · rw [h3]
    rw [abs_le] at h2
    constructor <;> rintro ⟨_, _⟩ <;> constructor <;> linarith

/-- On states within `3b` the clamp is idempotent. -/
theorem clamp_idempotent {n : ℕ} {y : Handle} {b : ℝ} (hb : 0 ≤ b) {Y : ℕ → ℝ} {m : Mem ℝ}
    (hy : m y = some (buf (6 * n) Y)) (hin : ∀ j, j < 3 * n → |Y j| ≤ 3 * b) :
    ∃ m', clamp seqFor n y b m = .ok m' ∧ clamp seqFor n y b m' = .ok m' := by
  obtain ⟨Y', h, h1⟩ := clamp_inside_iff hb hy
  refine ⟨_, h, ?_⟩
  obtain ⟨Y'', h2, h3, h4⟩ := clamp_moves_by_box (n := n) (y := y) hb (m := m.set y (buf (6 * n) Y'))
    (Y := Y') (by simp)
  rw [h2]
  congr 1
  rw [Mem.set_set]
  congr 1
  apply buf_congr
  intro j _
  by_cases hj : j < 3 * n
  · have hb' := abs_le.1 ((h1 j hj).2 (hin j hj))
    rcases h3 j hj with ⟨h5, _⟩ | ⟨h5, _⟩ | ⟨_, h6⟩
    · linarith [hb'.2]
    · linarith [hb'.1]
    · exact h6
  · exact h4 j (by omega)

/-- The clamp is not idempotent without the bound: a coordinate at `5b` moves twice. -/
theorem clamp_not_idempotent_far :
    wrapVal (1 : ℝ) (FOps.lit 2 * 1) (wrapVal 1 (FOps.lit 2 * 1) 5) ≠
      wrapVal (1 : ℝ) (FOps.lit 2 * 1) 5 := by
  simp only [wrap_def]
  norm_num

/-- A body outside the box in all coordinates, box half-width 1. -/
example : ∃ (m : Mem ℝ) (Y : ℕ → ℝ), m 0 = some (buf (6 * 1) Y) ∧ (0 : ℝ) ≤ 1 ∧
    (∀ j, j < 3 * 1 → |Y j| ≤ 3 * 1) ∧ 1 < Y 0 := by
  refine ⟨fun _ => some (buf 6 (fun j => if j = 1 then -2 else 2)), fun j => if j = 1 then -2 else 2, rfl,
    by norm_num, ?_, by norm_num⟩
  intro j _
  by_cases h : j = 1 <;> simp [h] <;> norm_num

end NB.C10
