import Verif.Props.C28_Accounting

/-
C29  With an opening ratio of at least one no accepted node contains the query body; below one it may.
-/

namespace NB.C29
open NB NB.Spec

/-- **C29**: on a tree whose nodes summarise their bodies (C26: after `build` and after every rebuild), with
`ratio ≥ 1`, a node that contains body `b` is never accepted for the position of `b`; so the walk for `b`
returns the attraction of nodes none of which contains `b`. -/
theorem no_self_attraction {B : Bodies ℝ} {ratio : ℝ} {t : STree ℝ} (hh : t.height ≤ 63)
    (h : C26.Faithful B ratio t) (hr : 1 ≤ ratio) (b : ℕ) (mass1 : ℝ) :
    ∃ A : List (STree ℝ), spaceTreeTraverse t (B.pos b) mass1 =
        .ok (A.foldl (fun total a => total + force (B.pos b) a.data.mc mass1 a.data.mass) 0) ∧
      ∀ a ∈ A, b ∉ a.bodies := by
  obtain ⟨A, U, h1, h2, _, _⟩ := C28.traverse_accounts t hh (B.pos b) mass1
  refine ⟨A, h1, fun a ha hb => ?_⟩
  obtain ⟨hacc, p, hp, _⟩ := h2 a ha
  have hrad := (h _ _ hp).radius b hb
  rw [← norm_eq_dist2] at hrad
  simp only [real_lt, decide_eq_true_eq] at hacc
  have h0 := Vec3.norm_nonneg (B.pos b - a.data.mc)
  nlinarith [mul_nonneg h0 (sub_nonneg.2 (by nlinarith : 1 ≤ ratio * ratio))]

/-- Two bodies of unit mass at distance one. -/
noncomputable def two : Bodies ℝ := ⟨fun i => i, fun _ => 0, fun _ => 0, fun _ => 1⟩

/-- The tree of `two`. -/
noncomputable def twoTree (ratio : ℝ) : STree ℝ :=
  .node (.leaf 0 ⟨two.pos 0, 1, 0, two.pos 0, two.pos 0⟩) (.leaf 1 ⟨two.pos 1, 1, 0, two.pos 1, two.pos 1⟩)
    (updateData (1 / 2) (ratio * ratio) ⟨two.pos 0, 1, 0, two.pos 0, two.pos 0⟩
      ⟨two.pos 1, 1, 0, two.pos 1, two.pos 1⟩)

lemma twoTree_build (ratio : ℝ) : spaceTreeBuild 2 two (1 / 2) ratio C25.sortIds 2 = .ok (twoTree ratio) := by
  have h2 : C25.sortIds [] 0 [0, 1] = [0, 1] := by
    unfold C25.sortIds
    exact List.mergeSort_of_pairwise (by simp)
  unfold spaceTreeBuild
  rw [show List.range 2 = [0, 1] from rfl, build_node _ _ _ _ _ _ _ _ (by simp), h2]
  rfl

/-- **C29**, the other half: for every ratio below one the root of the two-body tree is accepted for a body
in it, so that each body attracts itself through the common cell. -/
theorem self_attraction_below_one {ratio : ℝ} (h0 : 0 ≤ ratio) (h1 : ratio < 1) :
    spaceTreeBuild 2 two (1 / 2) ratio C25.sortIds 2 = .ok (twoTree ratio) ∧
      0 ∈ (twoTree ratio).bodies ∧
      spaceTreeTraverse (twoTree ratio) (two.pos 0) 1 =
        .ok (0 + force (two.pos 0) (twoTree ratio).data.mc 1 (twoTree ratio).data.mass) := by
  refine ⟨twoTree_build ratio, by simp [twoTree, STree.bodies], ?_⟩
  rw [traverse_eq _ _ _ (by simp [twoTree, STree.height, maxStackSize])]
  have hacc : accepts (two.pos 0) (twoTree ratio).data = true := by
    have e1 : fmin (0 : ℝ) 1 = 0 := by rw [C26.fmin_real]; norm_num
    have e2 : fmax (0 : ℝ) 1 = 1 := by rw [C26.fmax_real]; norm_num
    have e3 : fmin (0 : ℝ) 0 = 0 := by rw [C26.fmin_real]; norm_num
    have e4 : fmax (0 : ℝ) 0 = 0 := by rw [C26.fmax_real]; norm_num
    simp only [accepts, real_lt, decide_eq_true_eq, twoTree, STree.data, updateData, two, Bodies.pos,
      Vec3.length, Vec3.dot, Vec3.norm, Vec3.sub_x, Vec3.sub_y, Vec3.sub_z, Vec3.add_x, Vec3.add_y,
      Vec3.add_z, Vec3.sdiv_x, Vec3.sdiv_y, Vec3.sdiv_z, Vec3.smul_x, Vec3.smul_y, Vec3.smul_z,
      real_sqrt, real_lit, Nat.cast_zero, Nat.cast_one, e1, e2, e3, e4]
    norm_num
    nlinarith
  have : acceptedNodes (two.pos 0) (twoTree ratio) = [twoTree ratio] := by
    conv_lhs => unfold twoTree
    simp only [acceptedNodes]
    exact if_pos hacc
  rw [this]
  rfl

/-! Non-vacuity of `no_self_attraction`: the five-body tree with ratio two. -/

example : ∃ (t : STree ℝ) (A : List (STree ℝ)), spaceTreeBuild 5 C25.five (1 / 2) 2 C25.sortIds 4 = .ok t ∧
    spaceTreeTraverse t (C25.five.pos 3) 1 =
      .ok (A.foldl (fun total a => total + force (C25.five.pos 3) a.data.mc 1 a.data.mass) 0) ∧
    ∀ a ∈ A, 3 ∉ a.bodies := by
  obtain ⟨t, ht⟩ := C25.build_terminates (k := 3) (fuel := 4) C25.five (1 / 2) 2 C25.sortIds_reorders
    (by norm_num : 0 < 5) (by norm_num) (by norm_num)
  obtain ⟨A, h1, h2⟩ := no_self_attraction
    (C28.built_tree_height C25.sortIds_reorders (by norm_num) ht)
    (C26.build_summarises C25.sortIds_reorders (fun _ _ => by simp [C25.five]) ht) (by norm_num) 3 1
  exact ⟨t, A, ht, h1, h2⟩

end NB.C29
