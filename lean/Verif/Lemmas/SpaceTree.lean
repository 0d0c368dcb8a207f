import Verif.Model.SpaceTree
import Mathlib.Data.List.Perm.Basic
import Mathlib.Data.Nat.Log
import Mathlib.Tactic.Ring
import Mathlib.Tactic.Linarith

namespace NB

section
variable {S : Type} [FOps S] [Add S] [Sub S] [Mul S] [Div S] [Zero S]

theorem build_leaf (B : Bodies S) (half ratio2 : S) (nth : NthElement) (fuel : Nat) (path : List Bool)
    (dim i : Nat) : STree.build B half ratio2 nth (fuel + 1) path dim [i] =
      .ok (.leaf i { mc := B.pos i, mass := B.mass i, rsq := 0, bmin := B.pos i, bmax := B.pos i }) := rfl

theorem build_node (B : Bodies S) (half ratio2 : S) (nth : NthElement) (fuel : Nat) (path : List Bool)
    (dim : Nat) (ids : List Nat) (h : ids.length ≠ 1) :
    STree.build B half ratio2 nth (fuel + 1) path dim ids = (do
      let l ← STree.build B half ratio2 nth fuel (path ++ [false]) ((dim + 1) % 3)
        ((nth path dim ids).take (ids.length / 2))
      let r ← STree.build B half ratio2 nth fuel (path ++ [true]) ((dim + 1) % 3)
        ((nth path dim ids).drop (ids.length / 2))
      .ok (.node l r (updateData half ratio2 l.data r.data))) := by
  match ids, h with
  | [], _ => rfl
  | [_], h => exact absurd rfl h
  | _ :: _ :: _, _ => rfl

/-- Case analysis of a successful build. -/
theorem build_cases {B : Bodies S} {half ratio2 : S} {nth : NthElement} {fuel : Nat} {path : List Bool}
    {dim : Nat} {ids : List Nat} {t : STree S}
    (h : STree.build B half ratio2 nth fuel path dim ids = .ok t) :
    (∃ i, ids = [i] ∧ t = .leaf i ⟨B.pos i, B.mass i, 0, B.pos i, B.pos i⟩) ∨
    (ids.length ≠ 1 ∧ ∃ f l r, fuel = f + 1 ∧
      STree.build B half ratio2 nth f (path ++ [false]) ((dim + 1) % 3)
        ((nth path dim ids).take (ids.length / 2)) = .ok l ∧
      STree.build B half ratio2 nth f (path ++ [true]) ((dim + 1) % 3)
        ((nth path dim ids).drop (ids.length / 2)) = .ok r ∧
      t = .node l r (updateData half ratio2 l.data r.data)) := by
  cases fuel with
  | zero => simp [STree.build] at h
  | succ f =>
    by_cases h1 : ids.length = 1
    · left
      obtain ⟨i, rfl⟩ := List.length_eq_one_iff.1 h1
      rw [build_leaf] at h
      exact ⟨i, rfl, by injection h with h; exact h.symm⟩
    · right
      refine ⟨h1, f, ?_⟩
      rw [build_node _ _ _ _ _ _ _ _ h1] at h
      cases hl : STree.build B half ratio2 nth f (path ++ [false]) ((dim + 1) % 3)
        ((nth path dim ids).take (ids.length / 2)) with
      | error e => rw [hl] at h; cases h
      | ok l =>
        rw [hl] at h
        cases hr : STree.build B half ratio2 nth f (path ++ [true]) ((dim + 1) % 3)
          ((nth path dim ids).drop (ids.length / 2)) with
        | error e => simp only [hr, bind, Except.bind] at h; cases h
        | ok r =>
          simp only [hr, bind, Except.bind] at h
          injection h with h
          exact ⟨l, r, rfl, rfl, rfl, h.symm⟩

end

theorem STree.bodies_length_pos {S : Type} (t : STree S) : 0 < t.bodies.length := by
  induction t with
  | leaf => simp [STree.bodies]
  | node l r d hl _ => simp [STree.bodies]; omega

end NB
