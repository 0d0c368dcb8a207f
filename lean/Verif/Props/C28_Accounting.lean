import Verif.Lemmas.Traverse
import Verif.Props.C26_Summaries

/-
C28  The Barnes–Hut walk accounts for every body exactly once.
-/

namespace NB.C28
open NB NB.Spec

section
variable {S : Type} [Add S] [Sub S] [Mul S] [Neg S] [Div S] [One S] [Zero S] [FOps S]

/-- **C28**, any scalars, any tree of depth at most 63, any query point and opening ratio: the walk ends
without overflowing its stack and returns the sum of the attractions of a list `A` of accepted nodes, all of
whose ancestors were refused.  Every body of the tree is below exactly one node of `A`, or is one of the
refused leaves `U`. -/
theorem traverse_accounts (t : STree S) (hh : t.height ≤ 63) (v1 : Vec3 S) (mass1 : S) :
    ∃ A U : List (STree S),
      spaceTreeTraverse t v1 mass1 =
        .ok (A.foldl (fun total a => total + force v1 a.data.mc mass1 a.data.mass) 0) ∧
      (∀ a ∈ A, FOps.lt a.data.rsq (v1 - a.data.mc).norm = true ∧ ∃ p, At t p a ∧
        ∀ q s, q.length < p.length → q <+: p → At t q s → FOps.lt s.data.rsq (v1 - s.data.mc).norm = false) ∧
      (∀ u ∈ U, (∃ p, At t p u) ∧ ∃ b d, u = .leaf b d ∧ FOps.lt d.rsq (v1 - d.mc).norm = false) ∧
      (A.flatMap STree.bodies ++ U.flatMap STree.bodies).Perm t.bodies := by
  refine ⟨acceptedNodes v1 t, refusedLeaves v1 t, traverse_eq t v1 mass1 (by unfold maxStackSize; omega),
    accepted_at v1 t, ?_, cut_perm v1 t⟩
  intro u hu
  obtain ⟨b, d, p, h1, h2, h3⟩ := refused_at v1 t u hu
  exact ⟨⟨p, h3⟩, b, d, h1, h2⟩

/-- Every tree the library can build is shallow enough. -/
theorem built_tree_height {count : ℕ} {B : Bodies S} {half ratio : S} {nth : NthElement} {fuel : ℕ}
    {t : STree S} (hn : Reorders nth) (hc : count ≤ 2 ^ 63)
    (h : spaceTreeBuild count B half ratio nth fuel = .ok t) : t.height ≤ 63 := by
  rw [C25.build_depth hn h]
  exact Nat.clog_le_of_le_pow hc

end

lemma leaf_at {B : Bodies ℝ} {ratio : ℝ} {b : ℕ} {d : NodeData ℝ} (hs : C26.Summarises B ratio [b] d) :
    d.mc = B.pos b ∧ d.rsq ≤ 0 := by
  have hr := hs.radius_le
  have h0 := hs.box_min
  have h9 := hs.box_max
  have hin := hs.in_box
  simp only [List.mem_singleton, forall_eq, exists_eq_left] at hr h0 h9 hin
  have hk : ∀ k, d.mc.coord k = (B.pos b).coord k := fun k =>
    le_antisymm ((hin k).2.trans (h9 k).2.le) ((h0 k).2.ge.trans (hin k).1)
  have e2 : Spec.dist2 d.bmax.coord d.bmin.coord = 0 := by
    simp only [Spec.dist2, (h0 _).2, (h9 _).2]
    ring
  rw [e2, zero_mul] at hr
  exact ⟨Vec3.ext (hk 0) (hk 1) (hk 2), hr⟩

lemma eq_of_norm_le {v w : Vec3 ℝ} (h : (v - w).norm ≤ 0) : w = v := by
  simp only [Vec3.norm, Vec3.sub_x, Vec3.sub_y, Vec3.sub_z] at h
  have hx := mul_self_nonneg (v.x - w.x)
  have hy := mul_self_nonneg (v.y - w.y)
  have hz := mul_self_nonneg (v.z - w.z)
  have hx' : v.x - w.x = 0 := mul_self_eq_zero.1 (by linarith)
  have hy' : v.y - w.y = 0 := mul_self_eq_zero.1 (by linarith)
  have hz' : v.z - w.z = 0 := mul_self_eq_zero.1 (by linarith)
  exact Vec3.ext (by linarith) (by linarith) (by linarith)

/-- **C28**, exact arithmetic, on a tree whose nodes summarise their bodies (which C26 proves after `build`
and every rebuild): the refused leaves are bodies at the query point, and the masses of the accepted nodes
add up to the total mass without those. -/
theorem traverse_mass {B : Bodies ℝ} {ratio : ℝ} {t : STree ℝ} (hh : t.height ≤ 63)
    (h : C26.Faithful B ratio t) (v1 : Vec3 ℝ) (mass1 : ℝ) :
    ∃ (A : List (STree ℝ)) (U : List ℕ),
      spaceTreeTraverse t v1 mass1 =
        .ok (A.foldl (fun total a => total + force v1 a.data.mc mass1 a.data.mass) 0) ∧
      (A.flatMap STree.bodies ++ U).Perm t.bodies ∧
      (∀ u ∈ U, B.pos u = v1) ∧
      (∀ a ∈ A, ∃ p, At t p a) ∧
      (A.map fun a => a.data.mass).sum = (t.bodies.map B.mass).sum - (U.map B.mass).sum := by
  obtain ⟨A, U, h1, h2, h3, hp⟩ := traverse_accounts t hh v1 mass1
  refine ⟨A, U.flatMap STree.bodies, h1, hp, ?_, fun a ha => ?_, ?_⟩
  · intro b hb
    obtain ⟨u, hu, hbu⟩ := List.mem_flatMap.1 hb
    obtain ⟨⟨p, hp⟩, b', d, rfl, hd⟩ := h3 u hu
    simp only [STree.bodies, List.mem_singleton] at hbu
    subst hbu
    obtain ⟨e1, hr⟩ := leaf_at (h _ _ hp)
    simp only [real_lt, decide_eq_false_iff_not, not_lt, STree.data] at hd hr e1
    rw [← e1]
    exact eq_of_norm_le (le_trans hd hr)
  · exact (h2 a ha).2.imp fun p hp => hp.1
  · have hA : ∀ A : List (STree ℝ), (∀ a ∈ A, ∃ p, At t p a) →
        (A.map fun a => a.data.mass).sum = ((A.flatMap STree.bodies).map B.mass).sum := by
      intro A
      induction A with
      | nil => intro _; rfl
      | cons a A ih =>
        intro hA
        obtain ⟨p, hp⟩ := hA a (by simp)
        rw [List.map_cons, List.sum_cons, ih fun a ha => hA a (by simp [ha]), List.flatMap_cons,
          List.map_append, List.sum_append, (h _ _ hp).mass]
    rw [hA A fun a ha => (h2 a ha).2.imp fun p hp => hp.1, ← (hp.map B.mass).sum_eq, List.map_append,
      List.sum_append]
    ring

/-! Non-vacuity: a built tree of five bodies satisfies the hypotheses, and the query point may be one of
the bodies. -/

example : ∃ (t : STree ℝ) (A : List (STree ℝ)) (U : List ℕ),
    spaceTreeBuild 5 C25.five (1 / 2) 2 C25.sortIds 4 = .ok t ∧
    spaceTreeTraverse t (C25.five.pos 1) 1 =
        .ok (A.foldl (fun total a => total + force (C25.five.pos 1) a.data.mc 1 a.data.mass) 0) ∧
    (A.map fun a => a.data.mass).sum = 5 - (U.map C25.five.mass).sum := by
  obtain ⟨t, ht⟩ := C25.build_terminates (k := 3) (fuel := 4) C25.five (1 / 2) 2 C25.sortIds_reorders
    (by norm_num : 0 < 5) (by norm_num) (by norm_num)
  obtain ⟨A, U, h1, _, _, _, h5⟩ := traverse_mass
    (built_tree_height C25.sortIds_reorders (by norm_num) ht)
    (C26.build_summarises C25.sortIds_reorders (fun _ _ => by simp [C25.five]) ht) (C25.five.pos 1) 1
  refine ⟨t, A, U, ht, h1, h5.trans ?_⟩
  congr 1
  rw [((C25.build_perm C25.sortIds_reorders ht).map _).sum_eq]
  simp [C25.five]
  norm_num

end NB.C28
