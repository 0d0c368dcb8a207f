import Verif.Lemmas.SpaceTree
import Verif.Spec.SpaceTree

/-
What the explicit-stack walks over a space tree compute.
-/

namespace NB
open NB.Spec

section
variable {S : Type} [Add S] [Sub S] [Mul S] [Neg S] [Div S] [One S] [Zero S] [FOps S]

/-- The accepted nodes in the order of the walk. -/
def acceptedNodes (v1 : Vec3 S) : STree S → List (STree S)
  | .leaf b d => if accepts v1 d then [.leaf b d] else []
  | .node l r d => if accepts v1 d then [.node l r d] else acceptedNodes v1 l ++ acceptedNodes v1 r

/-- The leaves that are reached but not accepted. -/
def refusedLeaves (v1 : Vec3 S) : STree S → List (STree S)
  | .leaf b d => if accepts v1 d then [] else [.leaf b d]
  | .node l r d => if accepts v1 d then [] else refusedLeaves v1 l ++ refusedLeaves v1 r

/-- Adding the attraction of a node. -/
def addForce (v1 : Vec3 S) (mass1 : S) (total : Vec3 S) (t : STree S) : Vec3 S :=
  total + force v1 t.data.mc mass1 t.data.mass

omit [Add S] [Sub S] [Mul S] [Neg S] [Div S] [One S] [Zero S] [FOps S] in
/-- Pushing the children of the nodes of this stack never overflows. -/
def Fits : List (STree S) → Prop
  | [] => True
  | t :: st => t.height + st.length + 1 ≤ maxStackSize ∧ Fits st

theorem traverseLoop_eq (v1 : Vec3 S) (mass1 : S) : ∀ (N : Nat) (st : List (STree S)) (total : Vec3 S),
    stackSize st ≤ N → Fits st → traverseLoop v1 mass1 st total =
      .ok ((st.flatMap (acceptedNodes v1)).foldl (addForce v1 mass1) total) := by
  intro N
  induction N with
  | zero =>
    intro st total hN hf
    cases st with
    | nil => rw [traverseLoop]; rfl
    | cons t st =>
      have := STree.size_pos t
      simp only [stackSize, List.map_cons, List.sum_cons] at hN
      omega
  | succ N ih =>
    intro st total hN hf
    cases st with
    | nil => rw [traverseLoop]; rfl
    | cons t st =>
      have hsz := STree.size_pos t
      simp only [stackSize, List.map_cons, List.sum_cons] at hN
      cases t with
      | leaf b d =>
        rw [traverseLoop]
        simp only [STree.data, List.flatMap_cons, acceptedNodes]
        by_cases ha : accepts v1 d = true
        · simp only [ha, if_true]
          rw [ih _ _ (by unfold stackSize; omega) hf.2]
          simp [addForce, STree.data]
        · simp only [ha]
          exact ih _ _ (by unfold stackSize; omega) hf.2
      | node l r d =>
        rw [traverseLoop]
        simp only [STree.data, List.flatMap_cons, acceptedNodes]
        have h1 := hf.1
        simp only [STree.height] at h1
        by_cases ha : accepts v1 d = true
        · simp only [ha, if_true]
          rw [ih _ _ (by unfold stackSize; omega) hf.2]
          simp [addForce, STree.data]
        · simp only [ha, STree.size] at hN ⊢
          rw [if_neg (by simp), if_neg (by omega)]
          rw [ih (l :: r :: st) total (by simp only [stackSize, List.map_cons, List.sum_cons]; omega)
            ⟨by simp only [List.length_cons]; omega, by omega, hf.2⟩]
          simp

theorem traverse_eq (t : STree S) (v1 : Vec3 S) (mass1 : S) (h : t.height + 1 ≤ maxStackSize) :
    spaceTreeTraverse t v1 mass1 = .ok ((acceptedNodes v1 t).foldl (addForce v1 mass1) 0) := by
  have := traverseLoop_eq v1 mass1 _ [t] 0 (Nat.le_refl _) ⟨by simpa using h, trivial⟩
  simpa [spaceTreeTraverse] using this

theorem cut_perm (v1 : Vec3 S) (t : STree S) :
    ((acceptedNodes v1 t).flatMap STree.bodies ++ (refusedLeaves v1 t).flatMap STree.bodies).Perm
      t.bodies := by
  induction t with
  | leaf b d =>
    simp only [acceptedNodes, refusedLeaves]
    split <;> simp [STree.bodies]
  | node l r d hl hr =>
    simp only [acceptedNodes, refusedLeaves]
    split
    · simp [STree.bodies]
    · simp only [List.flatMap_append, STree.bodies]
      refine List.Perm.trans ?_ (hl.append hr)
      simp only [List.append_assoc]
      apply List.Perm.append_left
      rw [← List.append_assoc, ← List.append_assoc]
      exact List.Perm.append_right _ List.perm_append_comm

theorem accepted_at (v1 : Vec3 S) (t : STree S) : ∀ a ∈ acceptedNodes v1 t, accepts v1 a.data = true ∧
    ∃ p, At t p a ∧ ∀ q s, q.length < p.length → q <+: p → At t q s → accepts v1 s.data = false := by
  induction t with
  | leaf b d =>
    intro a ha
    simp only [acceptedNodes] at ha
    split at ha
    · next h =>
      rw [List.mem_singleton] at ha
      subst ha
      exact ⟨h, [], At.here _, fun q s hq => absurd hq (by simp)⟩
    · simp at ha
  | node l r d hl hr =>
    intro a ha
    simp only [acceptedNodes] at ha
    split at ha
    · next h =>
      rw [List.mem_singleton] at ha
      subst ha
      exact ⟨h, [], At.here _, fun q s hq => absurd hq (by simp)⟩
    · next h =>
      have h' : accepts v1 d = false := by simpa using h
      rcases List.mem_append.1 ha with ha | ha
      · obtain ⟨h1, p, hp, h2⟩ := hl a ha
        refine ⟨h1, false :: p, At.left hp, ?_⟩
        intro q s hq hpre hat
        cases hat with
        | here => exact h'
        | @left _ _ _ q' _ hat =>
          exact h2 _ _ (by simpa using hq) (by simpa using hpre) hat
        | @right _ _ _ q' _ hat => simp at hpre
      · obtain ⟨h1, p, hp, h2⟩ := hr a ha
        refine ⟨h1, true :: p, At.right hp, ?_⟩
        intro q s hq hpre hat
        cases hat with
        | here => exact h'
        | @right _ _ _ q' _ hat =>
          exact h2 _ _ (by simpa using hq) (by simpa using hpre) hat
        | @left _ _ _ q' _ hat => simp at hpre

theorem refused_at (v1 : Vec3 S) (t : STree S) : ∀ u ∈ refusedLeaves v1 t,
    ∃ b d p, u = .leaf b d ∧ accepts v1 d = false ∧ At t p u := by
  induction t with
  | leaf b d =>
    intro a ha
    simp only [refusedLeaves] at ha
    split at ha
    · simp at ha
    · next h =>
      rw [List.mem_singleton] at ha
      exact ⟨b, d, [], ha, by simpa using h, ha ▸ At.here _⟩
  | node l r d hl hr =>
    intro a ha
    simp only [refusedLeaves] at ha
    split at ha
    · simp at ha
    · rcases List.mem_append.1 ha with ha | ha
      · obtain ⟨b, d, p, h1, h2, h3⟩ := hl a ha
        exact ⟨b, d, _, h1, h2, At.left h3⟩
      · obtain ⟨b, d, p, h1, h2, h3⟩ := hr a ha
        exact ⟨b, d, _, h1, h2, At.right h3⟩

end

end NB
